import Verif.Gcd.Model
import Verif.Gcd.IoModel
/-!
Model of the services for the memory and the I/O space a driver finds in the DXE services table,
`/repo/patina_dxe_core/src/dxe_services.rs` lines 31-371: the calls of `Verif.Gcd.Model` and `Verif.Gcd.IoModel` behind pointers.

* A pointer argument is `none` when it is null; otherwise it is what it points at before the call. A call returns what it points at afterwards.
* `length as usize` and `base_address as usize` are the identity (64 bit).
* The buffers the maps are collected in come from the heap of the core, and the heap takes its memory from the memory space. What that does to the
  memory space is a parameter: the list of calls it makes there. A failing allocation of the first of the two buffers is a panic and not modelled.
-/
namespace Verif.Gcd.Services

/-- `efi::Status`: success, the status of an error, or no return at all. -/
inductive Status | success | error (e : EfiError) | panicked
deriving DecidableEq, Repr

/-- The `match result` every service ends with. -/
def Status.of {α : Type} : Outcome EfiError α → Status
  | .ok _ => .success
  | .err e => .error e
  | .panic => .panicked

/-- `GcdAllocateType`, sdk/patina_pi/src/dxe_services.rs lines 173-181. -/
inductive Kind | anyBottomUp | maxBottomUp | address | anyTopDown | maxTopDown | maxAllocateType
deriving DecidableEq, Repr

/-- The first `match` of `allocate_memory_space` (lines 58-77) and of `allocate_io_space` (lines 252-271); `p` is what `base_address` points at. -/
def request : Kind → Nat → Option AllocType
  | .address, p => some (.address p)
  | .anyBottomUp, _ => some (.bottomUp none)
  | .anyTopDown, _ => some (.topDown none)
  | .maxBottomUp, p => some (.bottomUp (some p))
  | .maxTopDown, p => some (.topDown (some p))
  | .maxAllocateType, _ => none

/-- `if device_handle.is_null() { None } else { Some(device_handle) }`, line 85. -/
def device (h : Nat) : Option Nat := if h = 0 then none else some h

/-- The last `match` of the two services, lines 88-95: what is left at `base_address`. -/
def written (p : Nat) : Outcome EfiError Nat → Nat
  | .ok a => a
  | _ => p

/-- `allocate_memory_space`, lines 45-96. -/
def allocateMemory (g : Gcd) (k : Kind) (ty : MemType) (shift len : Nat) (base : Option Nat) (image dev : Nat) : Status × Option Nat × Gcd :=
  match base with
  | none => (.error .invalidParameter, none, g)
  | some p =>
    match request k p with
    | none => (.error .invalidParameter, some p, g)
    | some at_ =>
      (.of (g.allocate at_ ty shift len image (device dev)).1, some (written p (g.allocate at_ ty shift len image (device dev)).1),
        (g.allocate at_ ty shift len image (device dev)).2)

/-- `allocate_io_space`, lines 239-290. -/
def allocateIo (g : Io) (k : Kind) (ty : IoType) (shift len : Nat) (base : Option Nat) (image dev : Nat) : Status × Option Nat × Io :=
  match base with
  | none => (.error .invalidParameter, none, g)
  | some p =>
    match request k p with
    | none => (.error .invalidParameter, some p, g)
    | some at_ =>
      (.of (g.allocate at_ ty shift len image (device dev)).1, some (written p (g.allocate at_ ty shift len image (device dev)).1),
        (g.allocate at_ ty shift len image (device dev)).2)

/-- `get_memory_space_descriptor`, lines 115-138: the descriptor written, if any. -/
def memoryDescriptor (g : Gcd) (addr : Nat) (args : Bool) : Status × Option (Block Cell) :=
  if args = false then (.error .invalidParameter, none)
  else
    match g.descriptorFor addr with
    | .ok b => (.success, some b)
    | .err e => (.error e, none)
    | .panic => (.panicked, none)

/-- `get_memory_descriptors`, spin_locked_gcd.rs lines 974-995, into an empty buffer that has room for `capacity` descriptors. -/
def collect (g : Gcd) (capacity : Nat) : Outcome EfiError (List (Block Cell)) :=
  if g.max = 0 then .err .notReady
  else if capacity < g.blocks.length then .err .invalidParameter
  else .ok g.blocks

/-- `get_memory_space_map`, lines 192-225. `vec` are the calls the heap makes when the first buffer is taken, `slack` is what it gives beyond what was asked for;
`pool` and `more` are the address of the second buffer (or the error) and the calls made for it. Returned are the address and the descriptors written. -/
def memoryMap (nodeSize : Nat) (g : Gcd) (args : Bool) (vec : List Op) (slack : Nat) (pool : Except EfiError Nat) (more : List Op) :
    Status × Option (Nat × List (Block Cell)) × Gcd :=
  if args = false then (.error .invalidParameter, none, g)
  else
    match collect (g.run nodeSize vec) (g.blocks.length + 10 + slack) with
    | .err e => (.error e, none, g.run nodeSize vec)
    | .panic => (.panicked, none, g.run nodeSize vec)
    | .ok l =>
      match pool with
      | .error e => (.error e, none, (g.run nodeSize vec).run nodeSize more)
      | .ok a => (.success, some (a, l), (g.run nodeSize vec).run nodeSize more)

/-- `get_io_descriptors`, spin_locked_gcd.rs lines 1623-1645, into an empty buffer that has room for `capacity` descriptors: the table is made after the room
has been checked. A vector grows when something is pushed that has no place. -/
def collectIo (g : Io) (capacity : Nat) : Outcome EfiError (List (Block IoCell)) × Io :=
  if g.max = 0 then (.err .notReady, g)
  else if capacity < g.blocks.length then (.err .invalidParameter, g)
  else (.ok g.ready.blocks, g.ready)

/-- The closure of line 330: `base_address + length` is a sum of 64 bits. -/
def covers (a : Nat) (b : Block IoCell) : Bool := decide (b.base ≤ a ∧ a < addw b.base b.len)

/-- `get_io_space_descriptor`, lines 309-339. -/
def ioDescriptor (g : Io) (addr : Nat) (args : Bool) (slack : Nat) : Status × Option (Block IoCell) × Io :=
  if args = false then (.error .invalidParameter, none, g)
  else
    match collectIo g (g.blocks.length + 10 + slack) with
    | (.err e, g') => (.error e, none, g')
    | (.panic, g') => (.panicked, none, g')
    | (.ok l, g') =>
      match l.find? (covers addr) with
      | some b => (.success, some b, g')
      | none => (.error .notFound, none, g')

/-- `get_io_space_map`, lines 341-371; what the buffers do to the memory space is left out. -/
def ioMap (g : Io) (args : Bool) (slack : Nat) (pool : Except EfiError Nat) : Status × Option (Nat × List (Block IoCell)) × Io :=
  if args = false then (.error .invalidParameter, none, g)
  else
    match collectIo g (g.blocks.length + 10 + slack) with
    | (.err e, g') => (.error e, none, g')
    | (.panic, g') => (.panicked, none, g')
    | (.ok l, g') =>
      match pool with
      | .error e => (.error e, none, g')
      | .ok a => (.success, some (a, l), g')

end Verif.Gcd.Services
