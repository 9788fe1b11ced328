import Verif.Gcd.Model
/-!
Model of the I/O space of the GCD: `struct IoGCD`, `/repo/patina_dxe_core/src/gcd/spin_locked_gcd.rs` lines 1228-1739, and of the
I/O block transitions, `io_block.rs` lines 144-213. Splitting and merging of blocks are those of `Engine`.

* `init` is called once, first. The heap allocation of the tree's storage (line 1250) is taken to succeed.
* Release profile: wrapping arithmetic. Log output is left out.
-/
namespace Verif.Gcd

/-- `GcdIoType`, dxe_services.rs lines 212-226 -/
inductive IoType where
  | nonExistent | reserved | io | maximum
deriving DecidableEq, Repr

/-- An I/O block apart from its range: the variant (io_block.rs lines 22-26) and the other fields of `IoSpaceDescriptor`. -/
structure IoCell where
  allocated : Bool
  type : IoType
  image : Nat
  device : Nat
deriving DecidableEq, Repr

/-- `add_transition`, io_block.rs lines 160-171 -/
def ioAddTr (ty : IoType) (c : IoCell) : Option IoCell :=
  if c.allocated = false ∧ c.type = .nonExistent ∧ ty ≠ .nonExistent then some { c with type := ty } else none

/-- `remove_transition`, io_block.rs lines 173-181 -/
def ioRemoveTr (c : IoCell) : Option IoCell :=
  if c.allocated = false ∧ c.type ≠ .nonExistent then some { c with type := .nonExistent } else none

/-- `allocate_transition`, io_block.rs lines 183-199 -/
def ioAllocTr (image : Nat) (device : Option Nat) (c : IoCell) : Option IoCell :=
  if c.allocated = false ∧ c.type ≠ .nonExistent then
    some { c with allocated := true, image := image, device := device.getD c.device }
  else none

/-- `free_transition`, io_block.rs lines 201-211 -/
def ioFreeTr (c : IoCell) : Option IoCell :=
  if c.allocated = true ∧ c.type ≠ .nonExistent then some { c with allocated := false, image := 0, device := 0 } else none

/-- `IoGCD`, lines 1230-1233 -/
structure Io where
  max : Nat
  cap : Nat
  blocks : List (Block IoCell)
deriving DecidableEq, Repr

/-- `init`, lines 1243-1245 -/
def Io.start (bits : Nat) : Io := ⟨oneShl bits, 0, []⟩

abbrev IoRet (α : Type) := Outcome EfiError α × Io

def emptyIoCell : IoCell := ⟨false, .nonExistent, 0, 0⟩

/-- `if self.io_blocks.capacity() == 0 { self.init_io_blocks()?; }`, lines 1247-1266; `IO_BLOCK_SLICE_LEN` is 4096 as well. -/
def Io.ready (g : Io) : Io :=
  if g.cap = 0 then { g with cap := SLOTS, blocks := [⟨0, g.max, emptyIoCell⟩] } else g

def Io.change (g : Io) (base len : Nat) (tr : IoCell → Option IoCell) (onErr : IoCell → BlockErr → EfiError) : IoRet Unit :=
  ((changeAt g.cap g.blocks base len tr onErr).1, { g with blocks := (changeAt g.cap g.blocks base len tr onErr).2 })

/-- Lines 1317-1320 -/
def ioNonExistent (g : Io) (base : Nat) : Bool :=
  match seek base g.blocks with
  | none => true
  | some z => z.cur.st.type = .nonExistent

/-- `add_io_space`, lines 1295-1329 -/
def Io.add (g : Io) (ty : IoType) (base len : Nat) : IoRet Unit :=
  if g.max = 0 then (.err .notReady, g)
  else if len = 0 then (.err .invalidParameter, g)
  else if ¬ addw base len ≤ g.max then (.err .unsupported, g)
  else if ioNonExistent g.ready base = false then (.err .accessDenied, g.ready)
  else g.ready.change base len (ioAddTr ty) (fun _ e =>
    match e with
    | .blockOutsideRange => .accessDenied
    | .invalidStateTransition => .invalidParameter)

/-- `remove_io_space`, lines 1335-1363 -/
def Io.remove (g : Io) (base len : Nat) : IoRet Unit :=
  if g.max = 0 then (.err .notReady, g)
  else if len = 0 then (.err .invalidParameter, g)
  else if ¬ addw base len ≤ g.max then (.err .unsupported, g)
  else g.ready.change base len ioRemoveTr (fun c e =>
    match e with
    | .blockOutsideRange => .notFound
    | .invalidStateTransition => if c.allocated then .accessDenied else .notFound)

/-- What `allocate_bottom_up` does with a block, lines 1432-1447. -/
def ioUpCand (ty : IoType) (shift len max : Nat) (b : Block IoCell) : Cand :=
  if b.len < len then .skip
  else if ¬ addw (upAddr shift b.base) len ≤ max then .stop .notFound
  else if b.st.type ≠ ty then .skip
  else .try_ (upAddr shift b.base)

/-- `allocate_bottom_up`, lines 1406-1465 -/
def Io.allocUp (g : Io) (ty : IoType) (shift len image : Nat) (device : Option Nat) (max : Nat) : IoRet Nat :=
  ((searchUp g.cap (ioUpCand ty shift len max) len (ioAllocTr image device) .notFound [] g.blocks).1,
    { g with blocks := (searchUp g.cap (ioUpCand ty shift len max) len (ioAllocTr image device) .notFound [] g.blocks).2 })

/-- What `allocate_top_down` does with a block, lines 1494-1516. -/
def ioDownCand (ty : IoType) (shift len max : Nat) (b : Block IoCell) : Cand :=
  if usableLen max b < len then .skip
  else if downAddr shift len max b < b.base then .skip
  else if b.st.type ≠ ty then .skip
  else .try_ (downAddr shift len max b)

/-- `allocate_top_down`, lines 1467-1535 -/
def Io.allocDown (g : Io) (ty : IoType) (shift len image : Nat) (device : Option Nat) (max : Nat) : IoRet Nat :=
  match seek max g.blocks with
  | none => (.err .notFound, g)
  | some z =>
    ((searchDown g.cap (ioDownCand ty shift len max) len (ioAllocTr image device) .notFound (z.cur :: z.before) z.after).1,
      { g with blocks := (searchDown g.cap (ioDownCand ty shift len max) len (ioAllocTr image device) .notFound (z.cur :: z.before) z.after).2 })

/-- Lines 1565-1568 -/
def ioFitsAddress (g : Io) (ty : IoType) (shift addr : Nat) : Bool :=
  match seek addr g.blocks with
  | none => true
  | some z => z.cur.st.type = ty ∧ addr = addr &&& maskShl shift

/-- `allocate_address`, lines 1537-1583 -/
def Io.allocAddress (g : Io) (ty : IoType) (shift len image : Nat) (device : Option Nat) (addr : Nat) : IoRet Nat :=
  if ioFitsAddress g ty shift addr = false then (.err .notFound, g)
  else match g.change addr len (ioAllocTr image device) (fun _ _ => .notFound) with
    | (.ok _, g) => (.ok addr, g)
    | (.err e, g) => (.err e, g)
    | (.panic, g) => (.panic, g)

/-- `allocate_io_space`, lines 1369-1404 -/
def Io.allocate (g : Io) (at_ : AllocType) (ty : IoType) (shift len image : Nat) (device : Option Nat) : IoRet Nat :=
  if g.max = 0 then (.err .notReady, g)
  else if ¬ (len > 0 ∧ image > 0) then (.err .invalidParameter, g)
  else match at_ with
    | .bottomUp max => g.ready.allocUp ty shift len image device (max.getD (W - 1))
    | .topDown max => g.ready.allocDown ty shift len image device (max.getD (W - 1))
    | .address addr =>
      if ¬ addw addr len ≤ g.max then (.err .unsupported, g) else g.ready.allocAddress ty shift len image device addr

/-- `free_io_space`, lines 1589-1613 -/
def Io.free (g : Io) (base len : Nat) : IoRet Unit :=
  if g.max = 0 then (.err .notReady, g)
  else if len = 0 then (.err .invalidParameter, g)
  else if ¬ addw base len ≤ g.max then (.err .unsupported, g)
  else g.ready.change base len ioFreeTr (fun _ _ => .notFound)

/-- `get_io_descriptors`, lines 1619-1639 (into an empty buffer of sufficient capacity) -/
def Io.descriptors (g : Io) : Outcome EfiError (List (Block IoCell)) :=
  if g.max = 0 then .err .notReady else .ok g.ready.blocks

/-- The calls that change the I/O space. -/
inductive IoOp where
  | add (ty : IoType) (base len : Nat)
  | remove (base len : Nat)
  | allocate (at_ : AllocType) (ty : IoType) (shift len image : Nat) (device : Option Nat)
  | free (base len : Nat)
  | descriptors
deriving DecidableEq, Repr

def Io.step (g : Io) : IoOp → Io
  | .add ty base len => (g.add ty base len).2
  | .remove base len => (g.remove base len).2
  | .allocate at_ ty shift len image device => (g.allocate at_ ty shift len image device).2
  | .free base len => (g.free base len).2
  | .descriptors => if g.max = 0 then g else g.ready

def Io.run (g : Io) (ops : List IoOp) : Io := ops.foldl Io.step g

end Verif.Gcd
