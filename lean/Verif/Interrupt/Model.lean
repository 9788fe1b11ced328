import Verif.Prelude
/-!
Model of the handling of exceptions and interrupts:

* `core/patina_internal_cpu/src/interrupts/exception_handling.rs` and the interrupt entry of `patina_dxe_core/src/cpu_arch_protocol.rs`;
* `core/patina_internal_cpu/src/interrupts/aarch64/gic_manager.rs` lines 117-204 and `patina_dxe_core/src/hw_interrupt_protocol.rs`.

The crate `arm_gic`, which is not part of the repository, is modelled by what the registers of the interrupt controller do according to the
Arm architecture: `Gic`. Registers are what they mean: one enable bit and one edge bit for each interrupt number. Initialisation of the
controller, memory barriers and what the assembly entry code saves are not modelled.
-/
namespace Verif.Interrupt

/-- How a call ends; `hang` is a lock that is never released. -/
inductive Ends where
  | ok
  | err (e : EfiError)
  | panic
  | hang
deriving DecidableEq, Repr

/-! ### Exceptions -/

/-- `HandlerType`, interrupts.rs lines 106-113, other than `None`. Functions and objects are numbers. -/
inductive Handler where
  | routine (f : Nat)
  | object (o : Nat)
deriving DecidableEq, Repr

/-- `EXCEPTION_HANDLERS`, exception_handling.rs lines 32-37, the exceptions in progress (each holds the read lock of its entry), and the calls
of handlers so far, the latest first. -/
structure Exc where
  handlers : List (Option Handler)
  running : List Nat
  calls : List (Nat × Handler)
deriving DecidableEq, Repr

/-- `EXCEPTION_HANDLERS[t]`, exception_handling.rs line 56. -/
def Exc.at (s : Exc) (t : Nat) : Option Handler := s.handlers[t]?.join

/-- `register_exception_handler`, exception_handling.rs lines 46-62. -/
def register (s : Exc) (t : Nat) (h : Option Handler) : Ends × Exc :=
  match h with
  | none => (.err .invalidParameter, s)
  | some h =>
    if s.handlers.length ≤ t then (.err .invalidParameter, s)
    else if t ∈ s.running then (.hang, s)
    else if (s.at t).isSome then (.err .alreadyStarted, s)
    else (.ok, { s with handlers := s.handlers.set t (some h) })

/-- `unregister_exception_handler`, exception_handling.rs lines 71-83. -/
def unregister (s : Exc) (t : Nat) : Ends × Exc :=
  if s.handlers.length ≤ t then (.err .invalidParameter, s)
  else if t ∈ s.running then (.hang, s)
  else if (s.at t).isNone then (.err .invalidParameter, s)
  else (.ok, { s with handlers := s.handlers.set t none })

/-- `exception_handler`, exception_handling.rs lines 96-116, up to the call of the handler. -/
def raise (s : Exc) (t : Nat) : Ends × Exc :=
  if s.handlers.length ≤ t then (.panic, s)
  else match s.at t with
  | none => (.panic, s)
  | some h => (.ok, { s with running := t :: s.running, calls := (t, h) :: s.calls })

/-- The handler returns. -/
def finish (s : Exc) : Ends × Exc := (.ok, { s with running := s.running.tail })

/-- `isize as usize`. -/
def toUsize (i : Int) : Nat := (i % 2 ^ 64).toNat

/-- `register_interrupt_handler`, cpu_arch_protocol.rs lines 108-127; a null handler is `none`. `this` says whether the first argument is not
null, lines 42-48. -/
def registerInterruptHandler (s : Exc) (this : Bool) (t : Int) (f : Option Nat) : Ends × Exc :=
  if !this then (.panic, s)
  else match f with
  | none => unregister s (toUsize t)
  | some f => register s (toUsize t) (some (.routine f))

/-- What can happen. -/
inductive ExcOp where
  | register (t : Nat) (h : Option Handler)
  | unregister (t : Nat)
  | service (t : Int) (f : Option Nat)
  | raise (t : Nat)
  | finish
deriving DecidableEq, Repr

def Exc.step (s : Exc) : ExcOp → Ends × Exc
  | .register t h => Interrupt.register s t h
  | .unregister t => Interrupt.unregister s t
  | .service t f => registerInterruptHandler s true t f
  | .raise t => Interrupt.raise s t
  | .finish => Interrupt.finish s

/-- A run; a panic or a hang ends it. -/
def Exc.run : Exc → List ExcOp → Exc
  | s, [] => s
  | s, o :: os => match s.step o with
    | (.panic, s') => s'
    | (.hang, s') => s'
    | (_, s') => Exc.run s' os

/-! ### The interrupt controller -/

/-- `Trigger` of the crate `arm_gic`. -/
inductive Trigger where
  | level
  | edge
deriving DecidableEq, Repr

/-- The controller: how many shared interrupts there are, which interrupts are enabled and edge triggered, and which have been acknowledged but not
ended, by interrupt number. -/
structure Gic where
  spis : Nat
  enabled : Nat → Bool
  edge : Nat → Bool
  active : List Nat

/-- `IntId::sgi`, `IntId::ppi` and `IntId::spi` of the crate: the numbers of the three kinds start at 0, 16 and 32. -/
def sgi (n : Nat) : Nat := n
def ppi (n : Nat) : Nat := 16 + n
def spi (n : Nat) : Nat := 32 + n

/-- `source_to_intid`, gic_manager.rs lines 122-136. `SGI_COUNT` and `PPI_COUNT` are 16. The assertion of the crate that a number is below the
special ones is not modelled. -/
def sourceToIntId (g : Gic) (source : Nat) : Outcome EfiError Nat :=
  if 2 ^ 32 ≤ source then .err .invalidParameter
  else if source < 16 then .ok (sgi source)
  else if source < 16 + 16 then .ok (ppi (source - 16))
  else
    let id := spi (source - 16 + 16)
    if g.spis < id then .err .invalidParameter else .ok id

/-- `GicV3::enable_interrupt` of the crate: sets or clears the enable bit. -/
def Gic.enable (g : Gic) (id : Nat) (on : Bool) : Gic := { g with enabled := fun i => if i = id then on else g.enabled i }

/-- `GicV3::set_trigger` of the crate. -/
def Gic.setTrigger (g : Gic) (id : Nat) (t : Trigger) : Gic := { g with edge := fun i => if i = id then decide (t = .edge) else g.edge i }

/-- `GicV3::end_interrupt` of the crate. -/
def Gic.endInterrupt (g : Gic) (id : Nat) : Gic := { g with active := g.active.erase id }

/-- A bit of an `ICFGR` register (Arm IHI 0069, 12.9.9): the upper of the two bits of interrupt `16 * word + k` says that it is edge triggered, the
lower one reads as zero. -/
def Gic.icfgrBit (g : Gic) (word bit : Nat) : Bool := decide (bit % 2 = 1) && g.edge (16 * word + bit / 2)

/-- `enable_interrupt_source` and `disable_interrupt_source`, gic_manager.rs lines 139-148. -/
def Gic.enableSource (g : Gic) (source : Nat) (on : Bool) : Outcome EfiError Unit × Gic :=
  match sourceToIntId g source with
  | .ok id => (.ok (), g.enable id on)
  | .err e => (.err e, g)
  | .panic => (.panic, g)

/-- `get_interrupt_source_state`, gic_manager.rs lines 151-166: the enable bit with the number of the source. -/
def Gic.sourceState (g : Gic) (source : Nat) : Outcome EfiError Bool :=
  match sourceToIntId g source with
  | .ok _ => .ok (g.enabled (32 * (source / 32) + source % 32))
  | .err e => .err e
  | .panic => .panic

/-- `end_of_interrupt`, gic_manager.rs lines 169-172. -/
def Gic.endSource (g : Gic) (source : Nat) : Outcome EfiError Unit × Gic :=
  match sourceToIntId g source with
  | .ok id => (.ok (), g.endInterrupt id)
  | .err e => (.err e, g)
  | .panic => (.panic, g)

/-- `get_trigger_type`, gic_manager.rs lines 175-192. -/
def Gic.getTriggerType (g : Gic) (source : Nat) : Outcome EfiError Trigger :=
  match sourceToIntId g source with
  | .ok _ => .ok (if g.icfgrBit (source / 16) (source % 16) then .level else .edge)
  | .err e => .err e
  | .panic => .panic

/-- `set_trigger_type`, gic_manager.rs lines 195-198. -/
def Gic.setTriggerType (g : Gic) (source : Nat) (t : Trigger) : Outcome EfiError Unit × Gic :=
  match sourceToIntId g source with
  | .ok id => (.ok (), g.setTrigger id t)
  | .err e => (.err e, g)
  | .panic => (.panic, g)

/-! ### The hardware interrupt protocols -/

/-- `HwInterruptProtocolHandler`, hw_interrupt_protocol.rs lines 377-380: a handler for each number below `spis` (lines 469-470), whether a handler is
being called (the guard of the lock in line 405 lives until the handler returns), and the calls so far, the latest first. -/
structure Hw where
  handlers : List (Option Nat)
  gic : Gic
  inHandler : Bool
  calls : List (Nat × Nat)

/-- `HwInterruptProtocolInstaller::entry_point`, lines 459-475. -/
def Hw.new (g : Gic) : Hw := ⟨List.replicate g.spis none, g, false, []⟩

/-- `handlers[i]`, hw_interrupt_protocol.rs line 405. -/
def Hw.at (s : Hw) (i : Nat) : Option Nat := s.handlers[i]?.join

/-- `if let Err(err) = result { err.into() } else { SUCCESS }`, hw_interrupt_protocol.rs line 452. -/
def endsOf {α : Type} : Outcome EfiError α → Ends
  | .ok _ => .ok
  | .err e => .err e
  | .panic => .panic

/-- Lines 442-450. -/
def Hw.change (s : Hw) (source : Nat) (h : Option Nat) : Ends × Hw :=
  let x := s.gic.enableSource source h.isSome
  (endsOf x.1, { s with handlers := s.handlers.set source h, gic := x.2 })

/-- `register_interrupt_source`, lines 425-453; a null handler is `none`. The lock panics when it is held already (tpl_lock.rs lines 72-92). -/
def Hw.register (s : Hw) (source : Nat) (h : Option Nat) : Ends × Hw :=
  if s.inHandler then (.panic, s)
  else if s.handlers.length ≤ source then (.err .invalidParameter, s)
  else if h.isNone && (s.at source).isNone then (.err .invalidParameter, s)
  else if h.isSome && (s.at source).isSome then (.err .alreadyStarted, s)
  else s.change source h

/-- `enable_interrupt_source` and `disable_interrupt_source` of the two protocols, lines 80-118 and 230-266, with `this` not null. -/
def Hw.enable (s : Hw) (source : Nat) (on : Bool) : Ends × Hw :=
  let x := s.gic.enableSource source on
  (endsOf x.1, { s with gic := x.2 })

/-- `end_of_interrupt` of the protocols, lines 144-160 and 290-306. -/
def Hw.endOf (s : Hw) (source : Nat) : Ends × Hw :=
  let x := s.gic.endSource source
  (endsOf x.1, { s with gic := x.2 })

/-- `set_trigger_type` of the second protocol, lines 329-350. -/
def Hw.setTrigger (s : Hw) (source : Nat) (t : Trigger) : Ends × Hw :=
  let x := s.gic.setTriggerType source t
  (endsOf x.1, { s with gic := x.2 })

/-- `handle_interrupt`, lines 383-413, up to the call of the handler, when interrupt `id`, not one of the special numbers, has been
signalled: acknowledging makes it active. -/
def Hw.interrupt (s : Hw) (id : Nat) : Ends × Hw :=
  let g := { s.gic with active := id :: s.gic.active }
  if s.inHandler then (.panic, { s with gic := g })
  else if s.handlers.length ≤ id then (.ok, { s with gic := g })
  else match s.at id with
  | some h => (.ok, { s with gic := g, inHandler := true, calls := (id, h) :: s.calls })
  | none => (.panic, { s with gic := g.endInterrupt id })

/-- The handler returns. -/
def Hw.finish (s : Hw) : Ends × Hw := (.ok, { s with inHandler := false })

inductive HwOp where
  | register (source : Nat) (h : Option Nat)
  | enable (source : Nat) (on : Bool)
  | endOf (source : Nat)
  | setTrigger (source : Nat) (t : Trigger)
  | interrupt (id : Nat)
  | finish
deriving DecidableEq, Repr

def Hw.step (s : Hw) : HwOp → Ends × Hw
  | .register i h => s.register i h
  | .enable i on => s.enable i on
  | .endOf i => s.endOf i
  | .setTrigger i t => s.setTrigger i t
  | .interrupt id => s.interrupt id
  | .finish => s.finish

/-- A run; a panic ends it. -/
def Hw.run : Hw → List HwOp → Hw
  | s, [] => s
  | s, o :: os => match s.step o with
    | (.panic, s') => s'
    | (.hang, s') => s'
    | (_, s') => Hw.run s' os

end Verif.Interrupt
