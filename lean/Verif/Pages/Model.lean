import Verif.Prelude
/-!
Model of what a component holds of memory: `sdk/patina/src/component/service/memory.rs`, the `PageAllocation` and `PageFree` types.

* The memory manager is a trait, so it is a parameter (`Manager`): functions of its own state and of memory.
* Memory is a function from addresses to bytes. A type is its size; a value is its bytes. What the destructors of values do is not
  modelled, nor are writes through raw pointers.
* `dbg` says whether `debug_assert!` is on.
* A component is a sequence of operations (`Op`) on the values it holds (`Val`). The type system lets it use a value it has not
  moved, and only at its type: an operation on a value of another kind does nothing here.
-/
namespace Verif.Pages

abbrev Mem := Nat → UInt8

/-- `MemoryError`, lines 779-801. -/
inductive MemErr where
  | internalError
  | noAvailableMemory
  | unalignedAddress
  | invalidAlignment
  | invalidAddress
  | inconsistentRangeAttributes
  | invalidPageCount
  | unsupportedMemoryType
  | unsupportedAttributes
deriving DecidableEq, Repr

/-- `PageAllocationStrategy`, lines 814-827. -/
inductive Strategy where
  | any
  | address (a : Nat)
  | maxAddress (a : Nat)
deriving DecidableEq, Repr

/-- `AllocationOptions`, lines 285-290. The memory type is its number. -/
structure Options where
  strategy : Strategy
  alignment : Nat
  memoryType : Nat
deriving DecidableEq, Repr

/-- `PageAllocation`, lines 411-415, and `PageFree`, lines 654-658, without the manager: an address and a count of pages. -/
structure Range where
  addr : Nat
  pages : Nat
deriving DecidableEq, Repr

/-- `byte_length`, lines 470-472. -/
def Range.len (r : Range) : Nat := r.pages * 4096

/-- The parts of `MemoryManager` that are used here, lines 55-274. -/
structure Manager (σ : Type) where
  allocate : σ → Mem → Nat → Options → Outcome MemErr Range × σ × Mem
  free : σ → Mem → Nat → Nat → Bool × σ × Mem

/-- `PageAllocation::new`, lines 444-463. -/
def Range.new (addr pages : Nat) : Outcome MemErr Range :=
  if addr = 0 then .err .invalidAddress
  else if addr % 4096 ≠ 0 then .err .unalignedAddress
  else if pages = 0 then .err .invalidPageCount
  else .ok ⟨addr, pages⟩

/-- Writes bytes. -/
def write (m : Mem) (a : Nat) (l : List UInt8) : Mem := fun x => if a ≤ x ∧ x < a + l.length then l.getD (x - a) 0 else m x

/-- `write_bytes(0, n)`. -/
def zero (m : Mem) (a n : Nat) : Mem := fun x => if a ≤ x ∧ x < a + n then 0 else m x

/-- `fill_with`: element `k` is `gen k`. -/
def fill (m : Mem) (a size : Nat) (gen : Nat → List UInt8) : Nat → Mem
  | 0 => m
  | n + 1 => write (fill m a size gen n) (a + n * size) (gen n)

/-- What a component may hold. A box or a leaked reference has the bytes it gives access to. -/
inductive Val where
  | alloc (r : Range)
  | box (r : Range) (bytes : Nat)
  | raw (r : Range)
  | leaked (r : Range) (bytes : Nat)
deriving DecidableEq, Repr

def Val.range : Val → Range
  | .alloc r | .box r _ | .raw r | .leaked r _ => r

/-- The state: the manager's, memory and the values the component holds; `none` has been moved or dropped. -/
structure World (σ : Type) where
  s : σ
  m : Mem
  vals : List (Option Val)

section
variable {σ : Type}

def World.set (w : World σ) (i : Nat) (v : Option Val) : World σ := { w with vals := w.vals.set i v }

/-- `PageAllocation::free_pages`, lines 617-631. -/
def freePages (M : Manager σ) (dbg : Bool) (w : World σ) (r : Range) : Outcome MemErr Unit × World σ :=
  match M.free w.s w.m r.addr r.pages with
  | (ok, s, m) => (if ok || !dbg then .ok () else .panic, { w with s := s, m := m })

/-- `Drop for PageAllocation`, lines 633-641. -/
def dropAlloc (M : Manager σ) (dbg : Bool) (w : World σ) (r : Range) : Outcome MemErr Unit × World σ :=
  match freePages M dbg w r with
  | (.ok _, w) => (if dbg then .panic else .ok (), w)
  | x => x

/-- What the drop of a box does: `Drop for Box` of the standard library, which calls `deallocate` unless the value has no bytes, and
`PageFree::deallocate`, lines 666-686. The pointer is the one the box was made of, so the check in line 667 passes. -/
def dropBox (M : Manager σ) (dbg : Bool) (w : World σ) (r : Range) (bytes : Nat) : Outcome MemErr Unit × World σ :=
  if bytes ≠ 0 then freePages M dbg w r else (.ok (), w)

/-- `into_raw_ptr`, lines 504-518. `some` address, or `none` with the pages freed. -/
def intoRawPtr (M : Manager σ) (dbg : Bool) (w : World σ) (r : Range) (size : Nat) : Outcome MemErr (Option Nat) × World σ :=
  if r.len < size then
    match freePages M dbg w r with
    | (.ok _, w) => (.ok none, w)
    | (.err e, w) => (.err e, w)
    | (.panic, w) => (.panic, w)
  else (.ok (some r.addr), w)

/-- `into_raw_slice`, lines 526-531: the count of elements. -/
def sliceCount (r : Range) (size : Nat) : Outcome MemErr Nat := if size = 0 then .panic else .ok (r.len / size)

/-- The operations of a component. `i` is the number of a value; elements of slices have `size` bytes. -/
inductive Op where
  | allocate (n : Nat) (o : Options)
  | allocateZero (n : Nat) (o : Options)
  | drop (i : Nat)
  | intoRawPtr (i size : Nat)
  | intoRawSlice (i size : Nat)
  | intoBox (i : Nat) (value : List UInt8)
  | intoBoxedSlice (i size : Nat) (gen : Nat → List UInt8)
  | leakAs (i : Nat) (value : List UInt8)
  | leakAsSlice (i size : Nat) (gen : Nat → List UInt8)
  | freeRaw (i : Nat)
  | store (i off : Nat) (bytes : List UInt8)

/-- Value `i` is replaced by what came of it. -/
def become (w : World σ) (i : Nat) (v : Nat → Val) : Outcome MemErr (Option Nat) × World σ → Outcome MemErr Unit × World σ
  | (.ok (some a), w') => (.ok (), w'.set i (some (v a)))
  | (.ok none, w') => (.ok (), w'.set i none)
  | (.err e, _) => (.err e, w)
  | (.panic, w') => (.panic, w'.set i none)

/-- `into_box`, lines 545-562, and `leak_as`, lines 594-602: the value is written where the pointer points. -/
def place (M : Manager σ) (dbg : Bool) (w : World σ) (r : Range) (value : List UInt8) : Outcome MemErr (Option Nat) × World σ :=
  match intoRawPtr M dbg w r value.length with
  | (.ok (some a), w') => (.ok (some a), { w' with m := write w'.m a value })
  | x => x

/-- `leak_as_slice`, lines 609-615. -/
def placeSlice (w : World σ) (r : Range) (size : Nat) (gen : Nat → List UInt8) : Outcome MemErr Nat × World σ :=
  match sliceCount r size with
  | .ok n => (.ok n, { w with m := fill w.m r.addr size gen n })
  | .err e => (.err e, w)
  | .panic => (.panic, w)

/-- A new value. -/
def World.push (w : World σ) (v : Val) : World σ := { w with vals := w.vals ++ [some v] }

/-- `allocate_pages`; `allocate_zero_pages`, lines 143-151, zeroes them too. -/
def allocate (M : Manager σ) (w : World σ) (n : Nat) (o : Options) (zeroed : Bool) : Outcome MemErr Unit × World σ :=
  match M.allocate w.s w.m n o with
  | (.ok r, s, m) => (.ok (), ({ w with s := s, m := if zeroed then zero m r.addr r.len else m } : World σ).push (.alloc r))
  | (.err e, s, m) => (.err e, { w with s := s, m := m })
  | (.panic, s, m) => (.panic, { w with s := s, m := m })

/-- Value `i`, if the component still has it. -/
def World.get (w : World σ) (i : Nat) : Option Val := w.vals[i]?.join

/-- One operation. -/
def step (M : Manager σ) (dbg : Bool) (w : World σ) : Op → Outcome MemErr Unit × World σ
  | .allocate n o => allocate M w n o false
  | .allocateZero n o => allocate M w n o true
  | .drop i => match w.get i with
    | some (.alloc r) => match dropAlloc M dbg w r with
      | (x, w') => (x, w'.set i none)
    | some (.box r n) => match dropBox M dbg w r n with
      | (x, w') => (x, w'.set i none)
    | some _ => (.ok (), w.set i none)
    | none => (.ok (), w)
  | .intoRawPtr i size => match w.get i with
    | some (.alloc r) => become w i (fun _ => .raw r) (intoRawPtr M dbg w r size)
    | _ => (.ok (), w)
  | .intoRawSlice i size => match w.get i with
    | some (.alloc r) => match sliceCount r size with
      | .ok _ => (.ok (), w.set i (some (.raw r)))
      | .err e => (.err e, w)
      | .panic => (.panic, w)
    | _ => (.ok (), w)
  | .intoBox i value => match w.get i with
    | some (.alloc r) => become w i (fun _ => .box r value.length) (place M dbg w r value)
    | _ => (.ok (), w)
  | .intoBoxedSlice i size gen => match w.get i with
    | some (.alloc r) => match placeSlice w r size gen with
      | (.ok n, w') => (.ok (), w'.set i (some (.box r (n * size))))
      | (.err e, w') => (.err e, w')
      | (.panic, w') => (.panic, w')
    | _ => (.ok (), w)
  | .leakAs i value => match w.get i with
    | some (.alloc r) => become w i (fun _ => .leaked r value.length) (place M dbg w r value)
    | _ => (.ok (), w)
  | .leakAsSlice i size gen => match w.get i with
    | some (.alloc r) => match placeSlice w r size gen with
      | (.ok n, w') => (.ok (), w'.set i (some (.leaked r (n * size))))
      | (.err e, w') => (.err e, w')
      | (.panic, w') => (.panic, w')
    | _ => (.ok (), w)
  | .freeRaw i => match w.get i with
    | some (.raw r) => match M.free w.s w.m r.addr r.pages with
      | (_, s, m) => (.ok (), ({ w with s := s, m := m } : World σ).set i none)
    | _ => (.ok (), w)
  | .store i off bytes => match w.get i with
    | some (.box r n) => if off + bytes.length ≤ n then (.ok (), { w with m := write w.m (r.addr + off) bytes }) else (.panic, w)
    | some (.leaked r n) => if off + bytes.length ≤ n then (.ok (), { w with m := write w.m (r.addr + off) bytes }) else (.panic, w)
    | _ => (.ok (), w)

/-- A run of operations; a panic ends it. -/
def run (M : Manager σ) (dbg : Bool) : World σ → List Op → World σ
  | w, [] => w
  | w, o :: os => match step M dbg w o with
    | (.panic, w') => w'
    | (_, w') => run M dbg w' os

end
end Verif.Pages
