import Verif.Prelude
/-!
Model of how the debugger is entered and left: `core/patina_debugger/src/debugger.rs`, `arch/x64.rs` lines 45-87 and 199-207, `arch/aarch64.rs` lines 98-157 and 306-314,
`transport.rs`.

* The context has the fields that this code uses; `rest` is everything else in it.
* What the other side does while the program is stopped is a function on the context and the memory: the stub that decodes its packets is not modelled. A session can also end
  with an error of the stub; what was done to the memory then stays, what was done to the context is lost (debugger.rs lines 395-403).
-/
namespace Verif.Debugger

abbrev Mem := UInt64 → UInt8

/-- `ExceptionType` of the debugger. -/
inductive StopKind where
  | step
  | breakpoint
  | fault (data : UInt64)
  | access (address : UInt64)
  | other (type : UInt64)
deriving DecidableEq, Repr

/-! ### x64 -/

structure XStop where
  rip : UInt64
  rflags : UInt64
  data : UInt64
  cr2 : UInt64
  rest : Nat
deriving DecidableEq, Repr

namespace XStop

/-- `process_entry`, x64.rs lines 45-65; `none` is a panic of the subtraction. The context is changed in place. -/
def entry (dbg : Bool) (type : UInt64) (c : XStop) : Option (StopKind × XStop) :=
  if type = 1 then some (.step, { c with rflags := c.rflags &&& ~~~0x100 })
  else if type = 3 then
    if dbg ∧ c.rip = 0 then none else some (.breakpoint, { c with rip := c.rip - 1 })
  else if type = 13 then some (.fault c.data, c)
  else if type = 14 then some (.access c.cr2, c)
  else some (.other type, c)

/-- `process_exit`, lines 67-83. -/
def exit (dbg : Bool) (m : Mem) (k : StopKind) (c : XStop) : Option XStop :=
  if k = .breakpoint ∧ m c.rip = 0xCC then
    if dbg ∧ c.rip + 1 = 0 then none else some { c with rip := c.rip + 1 }
  else some c

/-- `set_single_step`, lines 85-87. -/
def setStep (c : XStop) : XStop := { c with rflags := c.rflags ||| 0x100 }

/-- The loop of `handle_interrupt`, debugger.rs lines 386-411: sessions that end with an error of the stub, then one that resumes. Each round calls `process_entry` on the context
that the round before has changed. -/
def sessions (dbg : Bool) (type : UInt64) : List (XStop × Mem → Mem) → (XStop × Mem → XStop × Mem) → XStop × Mem → Option (XStop × Mem)
  | [], last, (c, m) => match entry dbg type c with
    | none => none
    | some (k, c) => let (c, m) := last (c, m)
      (exit dbg m k c).map (·, m)
  | f :: fs, last, (c, m) => match entry dbg type c with
    | none => none
    | some (_, c) => sessions dbg type fs last (c, f (c, m))

/-- `handle_interrupt`, lines 363-413, with `check_memory_poke_test`, x64.rs lines 199-207: the marker is taken; if it was set, the load is stepped over. The Boolean of the result
is the marker afterwards. -/
def handle (dbg marker : Bool) (type : UInt64) (failed : List (XStop × Mem → Mem)) (last : XStop × Mem → XStop × Mem) (c : XStop) (m : Mem) : Option ((XStop × Mem) × Bool) :=
  if marker then
    if dbg ∧ c.rip + 3 < c.rip then none else some (({ c with rip := c.rip + 3 }, m), false)
  else (sessions dbg type failed last (c, m)).map (·, false)

end XStop

/-! ### AArch64 -/

structure AStop where
  elr : UInt64
  spsr : UInt64
  esr : UInt64
  far : UInt64
  rest : Nat
deriving DecidableEq, Repr

/-- What else the code changes: `MDSCR_EL1` and whether the instruction cache was invalidated. -/
structure ASys where
  mdscr : UInt64
  flushed : Bool
deriving DecidableEq, Repr

namespace AStop

/-- `process_entry`, aarch64.rs lines 98-124. -/
def entry (s : ASys) (c : AStop) : StopKind × ASys :=
  let cls := (c.esr >>> 26) &&& 0x3F
  if cls = 0x32 ∨ cls = 0x33 then (.step, { s with mdscr := s.mdscr &&& ~~~0x1 })
  else if cls = 0x30 ∨ cls = 0x31 ∨ cls = 0x34 ∨ cls = 0x35 ∨ cls = 0x3C then (.breakpoint, s)
  else if cls = 0x20 ∨ cls = 0x21 ∨ cls = 0x24 ∨ cls = 0x25 then (.access c.far, s)
  else (.other cls, s)

/-- Whether `BRK #0` is at the address. -/
def brkAt (m : Mem) (a : UInt64) : Bool := [m a, m (a + 1), m (a + 2), m (a + 3)] == [0x00, 0x00, 0x20, 0xD4]

/-- `process_exit`, lines 126-144. -/
def exit (dbg : Bool) (m : Mem) (k : StopKind) (s : ASys) (c : AStop) : Option (ASys × AStop) :=
  if k = .breakpoint then
    if brkAt m c.elr then
      if dbg ∧ c.elr + 4 < c.elr then none else some ({ s with flushed := true }, { c with elr := c.elr + 4 })
    else some ({ s with flushed := true }, c)
  else some (s, c)

/-- `set_single_step`, lines 146-157. -/
def setStep (s : ASys) (c : AStop) : ASys × AStop :=
  ({ s with mdscr := s.mdscr ||| (0x1 ||| 0x8000 ||| 0x2000) }, { c with spsr := (c.spsr &&& ~~~0x200) ||| 0x200000 })

/-- The loop, as for x64; here the context is not changed in place. -/
def sessions (dbg : Bool) : List (AStop × Mem → Mem) → (ASys × AStop × Mem → ASys × AStop × Mem) → ASys × AStop × Mem → Option (ASys × AStop × Mem)
  | [], last, (s, c, m) =>
    let (k, s) := entry s c
    let (s, c, m) := last (s, c, m)
    (exit dbg m k s c).map fun x => (x.1, x.2, m)
  | f :: fs, last, (s, c, m) => sessions dbg fs last ((entry s c).2, c, f (c, m))

/-- `handle_interrupt` with `check_memory_poke_test`, aarch64.rs lines 306-314. -/
def handle (dbg marker : Bool) (failed : List (AStop × Mem → Mem)) (last : ASys × AStop × Mem → ASys × AStop × Mem) (s : ASys) (c : AStop) (m : Mem) :
    Option ((ASys × AStop × Mem) × Bool) :=
  if marker then
    if dbg ∧ c.elr + 4 < c.elr then none else some ((s, { c with elr := c.elr + 4 }, m), false)
  else (sessions dbg failed last (s, c, m)).map (·, false)

end AStop

/-! ### The transport -/

/-- `SerialConnection`, transport.rs lines 21-26, with the bytes that still come in. -/
structure Conn where
  peeked : Option UInt8
  input : List UInt8
deriving DecidableEq, Repr

namespace Conn

/-- `read`, lines 54-61; `none` while it waits for a byte. -/
def read (c : Conn) : Option (UInt8 × Conn) :=
  match c.peeked with
  | some b => some (b, { c with peeked := none })
  | none => match c.input with
    | [] => none
    | b :: bs => some (b, ⟨none, bs⟩)

/-- `peek`, lines 64-76. `here`: whether the next byte has already come in. -/
def peek (here : Bool) (c : Conn) : Option UInt8 × Conn :=
  match c.peeked with
  | some b => (some b, c)
  | none => match here, c.input with
    | true, b :: bs => (some b, ⟨some b, bs⟩)
    | _, _ => (none, c)

/-- The loop in debugger.rs lines 200-211: the next byte that is not 0. -/
def next : Nat → Conn → Option (UInt8 × Conn)
  | 0, _ => none
  | n + 1, c => match c.read with
    | none => none
    | some (b, c) => if b = 0 then next n c else some (b, c)

end Conn

/-! ### What is done around it -/

/-- `poll_debugger`, debugger.rs lines 332-345, for the bytes that have come in: how often the program is stopped. -/
def poll (enabled : Bool) (input : List UInt8) : Nat × List UInt8 :=
  if enabled then ((input.filter (· == 3)).length, []) else (0, input)

/-- `DebuggerLoggingPolicy`. -/
inductive LogPolicy where
  | suspend
  | disable
  | full
deriving DecidableEq, Repr

/-- The level while stopped and the level afterwards (0 is `Off`), lines 368-380, transport.rs lines 79-98. `inside` is what the session makes of the level. -/
def logLevels (p : LogPolicy) (level : Nat) (inside : Nat → Nat) : Nat × Nat :=
  match p with
  | .suspend => (0, level)
  | .disable => (0, inside 0)
  | .full => (level, inside level)

end Verif.Debugger
