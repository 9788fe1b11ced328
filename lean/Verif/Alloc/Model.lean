import Verif.Gcd.Model
import Verif.Base.Model
import Verif.Hob.Model
/-!
Model of the heap: `/repo/patina_dxe_core/src/allocator/fixed_size_block_allocator.rs` and `uefi_allocator.rs`, on top of the
memory space model of `Verif.Gcd`.

* Memory is a function from addresses to bytes. The lists of free blocks are kept where the code keeps them: the address of
  the next free block is in the first eight bytes of each free block (`None` is 0).
* `linked_list_allocator::Heap` belongs to an external crate, whose source is not part of the repository. It is a parameter
  (`Heap`); what is assumed of it is `HeapOk` in `Spec.lean`, and `Bump.lean` has an implementation that satisfies it.
* The list of backing heaps (`AllocatorListNode`s, each at the start of the memory it manages) is a list of values. The bytes
  of the nodes are not tracked; the properties say that no block given out contains them.
* Setting the attributes of a range that the GCD has allocated (`SpinLockedGcd::allocate_memory_space`, spin_locked_gcd.rs
  lines 2282-2326) is a parameter (`Env.protect`): a sequence of calls of the GCD other than freeing. Its failure is a debug
  assertion, which is left out. The page table and the memory change callback are not modelled.
* `dbg` says whether debug assertions and overflow checks are compiled in. Log output is left out.
* Each function is what happens between taking and releasing a lock; functions that take it several times are composed of
  those. `Spec.lean` lets any other call come in between.
-/
namespace Verif.Alloc
open Verif.Gcd
open Verif.Hob (Mem rd wr)

/-- `core::alloc::Layout`: size and alignment. -/
structure Layout where
  size : Nat
  align : Nat
deriving DecidableEq, Repr

/-- `Layout::pad_to_align`: the size rounded up to a multiple of the alignment. -/
def Layout.padded (l : Layout) : Nat := (l.size + l.align - 1) / l.align * l.align

/-- Little-endian words in memory. -/
def get64 (m : Mem) (a : Nat) : Nat := leVal (rd m a 8)
def put64 (m : Mem) (a v : Nat) : Mem := wr m a (leBytes 8 v)
def get32 (m : Mem) (a : Nat) : Nat := leVal (rd m a 4)
def put32 (m : Mem) (a v : Nat) : Mem := wr m a (leBytes 4 v)

/-- `linked_list_allocator::Heap` as the code uses it: `init` on a range (bottom and length), `allocate_first_fit` and
`deallocate`. A failing allocation leaves everything as it was. -/
structure Heap where
  σ : Type
  init : Nat → Nat → Mem → σ × Mem
  alloc : σ → Mem → Layout → Option (Nat × σ × Mem)
  free : σ → Mem → Nat → Layout → σ × Mem

/-- What the code is linked with: the heap, the size of `AllocatorListNode`, the size of a node of the GCD, and what the GCD
does to the attributes of a range it has allocated. -/
structure Env where
  H : Heap
  node : Nat
  gcdNode : Nat
  protect : Gcd → Nat → Nat → Gcd

/-- fixed_size_block_allocator.rs lines 53-57 -/
def MIN_EXPANSION : Nat := 0x100000
def ALIGNMENT : Nat := 0x1000
def BLOCK_SIZES : List Nat := [8, 16, 32, 64, 128, 256, 512, 1024, 2048, 4096]

/-- `uefi_size_to_pages!`, sdk/patina/src/macros.rs lines 35-39, and `uefi_pages_to_size!`, lines 67-71. The multiplication
may overflow; the addition cannot for the sizes it is applied to. -/
def sizeToPages (n : Nat) : Nat := (n + UEFI_PAGE_MASK) / UEFI_PAGE_SIZE
def pagesToSize (n : Nat) : Nat := n * UEFI_PAGE_SIZE % W

/-- `list_index`, lines 64-67 -/
def listIndex (l : Layout) : Option Nat := BLOCK_SIZES.findIdx? (fun s => decide (max l.size l.align ≤ s))

def blockSize (k : Nat) : Nat := BLOCK_SIZES.getD k 0

/-- `usize::trailing_zeros` -/
def trailingZeros : Nat → Nat → Nat
  | 0, _ => 0
  | n + 1, x => if x % 2 = 1 then 0 else 1 + trailingZeros n (x / 2)

/-- `page_shift_from_alignment`, lines 70-77 -/
def pageShift (align : Nat) : Outcome EfiError Nat :=
  let shift := trailingZeros 64 align
  if ¬ Base.isPowerOfTwo align ∨ shift < UEFI_PAGE_SHIFT then .err .invalidParameter else .ok shift

/-- `AllocatorListNode`, lines 83-86, with the memory it manages: `[base, base + len)`, whose first `Env.node` bytes hold the
node itself. -/
structure Region (H : Heap) where
  base : Nat
  len : Nat
  st : H.σ

/-- `AllocationStatistics`, lines 108-134 -/
structure Stats where
  allocCalls : Nat := 0
  freeCalls : Nat := 0
  pageAllocCalls : Nat := 0
  pageFreeCalls : Nat := 0
  reservedSize : Nat := 0
  reservedUsed : Nat := 0
  claimedPages : Nat := 0
deriving DecidableEq, Repr

/-- `FixedSizeBlockAllocator`, lines 157-180, and the handle of the `SpinLockedFixedSizeBlockAllocator` around it (line 511).
The memory type information (lines 158-160) is two fields; the reserved range is start and end. -/
structure Fsb (H : Heap) where
  memType : Nat
  numberOfPages : Nat := 0
  heads : List Nat
  regions : List (Region H)
  reserved : Option (Nat × Nat) := none
  stats : Stats := {}
  gran : Nat
  handle : Nat

/-- `FixedSizeBlockAllocator::new`, lines 184-194 -/
def Fsb.new (H : Heap) (memType gran handle : Nat) : Fsb H :=
  { memType, heads := List.replicate BLOCK_SIZES.length 0, regions := [], gran, handle }

variable {E : Env}

/-- `in_reserved_range`, lines 358-363 -/
def Fsb.inReserved {H : Heap} (f : Fsb H) (a : Nat) : Bool :=
  match f.reserved with
  | some (s, e) => decide (s ≤ a ∧ a < e)
  | none => false

/-- `update_memory_type_info`, lines 466-471 -/
def Fsb.updateInfo {H : Heap} (dbg : Bool) (f : Fsb H) : Outcome EfiError (Fsb H) :=
  let free := (addw (subw f.stats.reservedSize f.stats.reservedUsed) UEFI_PAGE_MASK) / UEFI_PAGE_SIZE
  if dbg && decide (f.stats.reservedSize < f.stats.reservedUsed ∨ f.stats.claimedPages < free) then .panic
  else .ok { f with numberOfPages := subw f.stats.claimedPages free % 2 ^ 32 }

/-- Lines 246-250 and 407-412: memory claimed for this allocator is counted. -/
def Fsb.count {H : Heap} (f : Fsb H) (base len : Nat) : Fsb H :=
  if f.inReserved base then { f with stats := { f.stats with reservedUsed := f.stats.reservedUsed + len } }
  else { f with stats := { f.stats with claimedPages := f.stats.claimedPages + sizeToPages len } }

/-- `expand`, lines 217-258, with the region `[base, base + len)`: an unsuitable region is an error and a debug assertion. -/
def Fsb.expand (E : Env) (dbg : Bool) (f : Fsb E.H) (m : Mem) (base len : Nat) : Outcome EfiError (Fsb E.H) × Mem :=
  if len ≤ E.node ∨ base % 8 ≠ 0 then (if dbg then .panic else .err .invalidParameter, m)
  else
    let r := E.H.init (base + E.node) (len - E.node) m
    ((({ f with regions := ⟨base, len, r.1⟩ :: f.regions }).count base len).updateInfo dbg, r.2)

/-- The loop of `fallback_alloc`, lines 263-268 -/
def tryRegions {H : Heap} (m : Mem) (lay : Layout) : List (Region H) → Option (Nat × List (Region H) × Mem)
  | [] => none
  | r :: rs =>
    match H.alloc r.st m lay with
    | some (p, s, m') => some (p, { r with st := s } :: rs, m')
    | none =>
      match tryRegions m lay rs with
      | some (p, rs', m') => some (p, r :: rs', m')
      | none => none

/-- `FixedSizeBlockAllocatorError::OutOfMemory`: how much to add, or the block. -/
inductive AllocRes where
  | ok (ptr : Nat)
  | outOfMemory (required : Nat)
deriving DecidableEq, Repr

/-- `additional_mem_required`, lines 275-278 -/
def required (E : Env) (lay : Layout) : Nat := (lay.padded + E.node + 3 * 8 + 7) / 8 * 8

/-- `fallback_alloc`, lines 262-281 -/
def Fsb.fallbackAlloc (E : Env) (f : Fsb E.H) (m : Mem) (lay : Layout) : AllocRes × Fsb E.H × Mem :=
  match tryRegions m lay f.regions with
  | some (p, rs, m') => (.ok p, { f with regions := rs }, m')
  | none => (.outOfMemory (required E lay), f, m)

/-- `alloc`, lines 293-319. Taking a block off its list resets the `next` field in it (`node.next.take()`, line 299). -/
def Fsb.alloc (E : Env) (f : Fsb E.H) (m : Mem) (lay : Layout) : AllocRes × Fsb E.H × Mem :=
  let f := { f with stats := { f.stats with allocCalls := f.stats.allocCalls + 1 } }
  match listIndex lay with
  | some k =>
    let p := f.heads.getD k 0
    if p ≠ 0 then (.ok p, { f with heads := f.heads.set k (get64 m p) }, put64 m p 0)
    else f.fallbackAlloc E m ⟨blockSize k, blockSize k⟩
  | none => f.fallbackAlloc E m lay

/-- The loop of `fallback_dealloc`, lines 323-330: `bottom()` and `top()` of a heap are the ends of the memory after the node. -/
def freeIn (E : Env) (p : Nat) (lay : Layout) : List (Region E.H) → Mem → List (Region E.H) × Mem
  | [], m => ([], m)
  | r :: rs, m =>
    if r.base + E.node ≤ p ∧ p < r.base + r.len then
      let x := E.H.free r.st m p lay
      let y := freeIn E p lay rs x.2
      ({ r with st := x.1 } :: y.1, y.2)
    else
      let y := freeIn E p lay rs m
      (r :: y.1, y.2)

/-- `dealloc`, lines 337-355 -/
def Fsb.dealloc (E : Env) (f : Fsb E.H) (m : Mem) (p : Nat) (lay : Layout) : Fsb E.H × Mem :=
  let f := { f with stats := { f.stats with freeCalls := f.stats.freeCalls + 1 } }
  match listIndex lay with
  | some k => ({ f with heads := f.heads.set k p }, put64 m p (f.heads.getD k 0))
  | none =>
    let x := freeIn E p lay f.regions m
    ({ f with regions := x.1 }, x.2)

/-- `contains`, lines 399-404 -/
def Fsb.contains (E : Env) (f : Fsb E.H) (p : Nat) : Bool :=
  f.regions.any fun r => decide (r.base + E.node ≤ p ∧ p < r.base + r.len)

/-- `set_reserved_range`, lines 373-392 -/
def Fsb.setReserved {H : Heap} (dbg : Bool) (f : Fsb H) (base len : Nat) : Outcome EfiError (Fsb H) :=
  if f.reserved.isSome then .err .alreadyStarted
  else
    ({ f with reserved := some (base, base + len),
              stats := { f.stats with reservedSize := len, reservedUsed := 0,
                                      claimedPages := f.stats.claimedPages + sizeToPages len } } : Fsb H).updateInfo dbg

/-- `notify_page_allocation`, lines 407-416 -/
def Fsb.pagesAllocated {H : Heap} (dbg : Bool) (f : Fsb H) (base len : Nat) : Outcome EfiError (Fsb H) :=
  (f.count base len).updateInfo dbg

/-- `notify_pages_freed`, lines 419-428 -/
def Fsb.pagesFreed {H : Heap} (dbg : Bool) (f : Fsb H) (base pages : Nat) : Outcome EfiError (Fsb H) :=
  (if f.inReserved base then
    ({ f with stats := { f.stats with reservedUsed := f.stats.reservedUsed - pages * ALIGNMENT } } : Fsb H)
  else { f with stats := { f.stats with claimedPages := f.stats.claimedPages - pages } }).updateInfo dbg

/-! ### On top of the GCD -/

/-- `SpinLockedGcd::allocate_memory_space`, spin_locked_gcd.rs lines 2262-2333 -/
def gcdAllocate (E : Env) (g : Gcd) (at_ : AllocType) (shift len handle : Nat) : Outcome EfiError Nat × Gcd :=
  match g.allocate at_ .systemMemory shift len handle none with
  | (.ok a, g') => (.ok a, E.protect g' a len)
  | r => r

/-- `SpinLockedGcd::free_memory_space`, lines 2336-2375 (`AccessDenied` becomes `Ok`) -/
def gcdFree (g : Gcd) (base len : Nat) : Outcome EfiError Unit × Gcd :=
  match g.freeSpace base len false with
  | (.err .accessDenied, g') => (.ok (), g')
  | r => r

/-- The allocator, the GCD it gets its memory from, and memory. -/
structure Machine (H : Heap) where
  gcd : Gcd
  mem : Mem
  fsb : Fsb H

/-- `AllocError` is `OutOfResources` here. -/
abbrev Got (H : Heap) (α : Type) := Outcome EfiError α × Machine H

/-- Lines 815-831: after the growth, the allocation is tried once more. -/
def Machine.retry (E : Env) (dbg : Bool) (s : Machine E.H) (lay : Layout) : Got E.H Nat :=
  match s.fsb.alloc E s.mem lay with
  | (.ok p, f, m) => (.ok p, { s with fsb := f, mem := m })
  | (.outOfMemory _, f, m) => (if dbg then .panic else .err .outOfResources, { s with fsb := f, mem := m })

/-- Lines 806-831: the allocator is given the memory at `base`. -/
def Machine.grow (E : Env) (dbg : Bool) (s : Machine E.H) (lay : Layout) (base len : Nat) : Got E.H Nat :=
  if base = 0 then (if dbg then .panic else .err .outOfResources, s)
  else match s.fsb.expand E dbg s.mem base len with
    | (.ok f, m) => Machine.retry E dbg { s with fsb := f, mem := m } lay
    | (.err _, m) => (if dbg then .panic else .err .outOfResources, { s with mem := m })
    | (.panic, m) => (.panic, { s with mem := m })

/-- Lines 770-804: how much memory is asked for, in bytes -/
def growth (E : Env) (gran req : Nat) : Outcome EfiError Nat :=
  (Base.alignUp 64 (sizeToPages (max req MIN_EXPANSION)) (sizeToPages gran)).bind fun pages => .ok (pagesToSize pages)

/-- Lines 761-804 -/
def Machine.needMore (E : Env) (dbg : Bool) (s : Machine E.H) (lay : Layout) (req : Nat) : Got E.H Nat :=
  match growth E s.fsb.gran req, pageShift s.fsb.gran with
  | .ok len, .ok shift =>
    match gcdAllocate E s.gcd (.topDown none) shift len s.fsb.handle with
    | (.ok a, g) => Machine.grow E dbg { s with gcd := g } lay a len
    | (.err _, g) => (.err .outOfResources, { s with gcd := g })
    | (.panic, g) => (.panic, { s with gcd := g })
  | _, _ => (if dbg then .panic else .err .outOfResources, s)

/-- `Allocator::allocate`, lines 760-832 -/
def Machine.allocate (E : Env) (dbg : Bool) (s : Machine E.H) (lay : Layout) : Got E.H Nat :=
  match s.fsb.alloc E s.mem lay with
  | (.ok p, f, m) => (.ok p, { s with fsb := f, mem := m })
  | (.outOfMemory req, f, m) => Machine.needMore E dbg { s with fsb := f, mem := m } lay req

/-- `Allocator::deallocate`, lines 833-835 -/
def Machine.deallocate (E : Env) (s : Machine E.H) (p : Nat) (lay : Layout) : Machine E.H :=
  { s with fsb := (s.fsb.dealloc E s.mem p lay).1, mem := (s.fsb.dealloc E s.mem p lay).2 }

/-! ### Pages -/

/-- Lines 606-609 -/
def mapAllocErr : EfiError → EfiError
  | .invalidParameter => .invalidParameter
  | .notFound => .notFound
  | _ => .outOfResources

/-- Lines 589-596 -/
def misaligned (at_ : AllocType) (align : Nat) : Bool :=
  match at_ with
  | .address a => decide (a % align ≠ 0)
  | _ => false

/-- Lines 611-621: address 0 is refused after it has been allocated. -/
def Machine.notePages {H : Heap} (dbg : Bool) (s : Machine H) (a n : Nat) : Got H Nat :=
  if a = 0 then (.err .outOfResources, s)
  else match s.fsb.pagesAllocated dbg a (pagesToSize n) with
    | .ok f => (.ok a, { s with fsb := f })
    | .err e => (.err e, s)
    | .panic => (.panic, s)

/-- Lines 581-622 -/
def Machine.takePages (E : Env) (dbg : Bool) (s : Machine E.H) (at_ : AllocType) (pages align : Nat) : Got E.H Nat :=
  match Base.alignUp 64 pages (sizeToPages s.fsb.gran) with
  | .err e => (.err e, s)
  | .panic => (.panic, s)
  | .ok n =>
    match pageShift (max s.fsb.gran align) with
    | .err e => (.err e, s)
    | .panic => (.panic, s)
    | .ok shift =>
      if misaligned at_ (max s.fsb.gran align) then (.err .invalidParameter, s)
      else if dbg && decide (W ≤ n * UEFI_PAGE_SIZE) then (.panic, s)
      else match gcdAllocate E s.gcd at_ shift (pagesToSize n) s.fsb.handle with
        | (.ok a, g) => Machine.notePages dbg { s with gcd := g } a n
        | (.err e, g) => (.err (mapAllocErr e), { s with gcd := g })
        | (.panic, g) => (.panic, { s with gcd := g })

/-- Line 579 -/
def Fsb.countPageAlloc {H : Heap} (f : Fsb H) : Fsb H := { f with stats := { f.stats with pageAllocCalls := f.stats.pageAllocCalls + 1 } }

/-- `allocate_pages`, lines 571-622 (the address; the length is that of the pages rounded up) -/
def Machine.allocatePages (E : Env) (dbg : Bool) (s : Machine E.H) (at_ : AllocType) (pages align : Nat) : Got E.H Nat :=
  Machine.takePages E dbg { s with fsb := s.fsb.countPageAlloc } at_ pages align

/-- Lines 643-647 and 655-665 -/
def mapFreeErr : EfiError → EfiError
  | .notFound => .notFound
  | _ => .invalidParameter

/-- Lines 653-663 -/
def freeRange {H : Heap} (s : Machine H) (base len : Nat) : Outcome EfiError Unit × Gcd :=
  if s.fsb.inReserved base then s.gcd.freeSpace base len true else gcdFree s.gcd base len

/-- Lines 653-668 -/
def Machine.releasePages {H : Heap} (dbg : Bool) (s : Machine H) (a n : Nat) : Got H Unit :=
  match freeRange s a (pagesToSize n) with
  | (.ok _, g) =>
    match s.fsb.pagesFreed dbg a n with
    | .ok f => (.ok (), { s with gcd := g, fsb := f })
    | .err e => (.err e, { s with gcd := g })
    | .panic => (.panic, { s with gcd := g })
  | (.err e, g) => (.err (mapFreeErr e), { s with gcd := g })
  | (.panic, g) => (.panic, { s with gcd := g })

/-- Lines 632-668 -/
def Machine.givePages {H : Heap} (dbg : Bool) (s : Machine H) (a pages : Nat) : Got H Unit :=
  match Base.alignUp 64 pages (sizeToPages s.fsb.gran) with
  | .err e => (.err e, s)
  | .panic => (.panic, s)
  | .ok n =>
    if a % s.fsb.gran ≠ 0 then (.err .invalidParameter, s)
    else match s.gcd.descriptorFor a with
      | .err e => (.err (mapFreeErr e), s)
      | .panic => (.panic, s)
      | .ok d =>
        if d.st.image ≠ s.fsb.handle then (.err .notFound, s)
        else if dbg && decide (W ≤ n * UEFI_PAGE_SIZE) then (.panic, s)
        else Machine.releasePages dbg s a n

/-- Line 630 -/
def Fsb.countPageFree {H : Heap} (f : Fsb H) : Fsb H := { f with stats := { f.stats with pageFreeCalls := f.stats.pageFreeCalls + 1 } }

/-- `free_pages`, lines 628-668 -/
def Machine.freePages {H : Heap} (dbg : Bool) (s : Machine H) (a pages : Nat) : Got H Unit :=
  Machine.givePages dbg { s with fsb := s.fsb.countPageFree } a pages

/-- Lines 702-712 -/
def Machine.noteReserved {H : Heap} (dbg : Bool) (s : Machine H) (a len : Nat) : Got H Unit :=
  match s.gcd.freeSpace a len true with
  | (.ok _, g) =>
    if a = 0 then (.panic, { s with gcd := g })
    else match s.fsb.setReserved dbg a len with
      | .ok f => (.ok (), { s with gcd := g, fsb := f })
      | .err e => (.err e, { s with gcd := g })
      | .panic => (.panic, { s with gcd := g })
  | (.err e, g) => (.err e, { s with gcd := g })
  | (.panic, g) => (.panic, { s with gcd := g })

/-- `reserve_memory_pages`, lines 683-713 -/
def Machine.reserve (E : Env) (dbg : Bool) (s : Machine E.H) (pages : Nat) : Got E.H Unit :=
  if s.fsb.reserved.isSome then (.err .alreadyStarted, s)
  else match Base.alignUp 64 pages (sizeToPages s.fsb.gran) with
  | .err e => (.err e, s)
  | .panic => (.panic, s)
  | .ok n =>
    if dbg && decide (W ≤ n * UEFI_PAGE_SIZE) then (.panic, s)
    else match pageShift s.fsb.gran with
    | .err e => (.err e, s)
    | .panic => (.panic, s)
    | .ok shift =>
      match gcdAllocate E s.gcd (.topDown none) shift (pagesToSize n) s.fsb.handle with
      | (.ok a, g) => Machine.noteReserved dbg { s with gcd := g } a (pagesToSize n)
      | (.err e, g) => (.err e, { s with gcd := g })
      | (.panic, g) => (.panic, { s with gcd := g })

/-! ### Pool -/

/-- uefi_allocator.rs lines 28-29 -/
def POOL_SIG : Nat := 0x04151980
def UEFI_POOL_ALIGN : Nat := 8

/-- Where the compiler puts the fields of `AllocationInfo` (lines 31-35) in its 24 bytes; the layout is a size and an
alignment of eight bytes each. -/
structure InfoLayout where
  sig : Nat
  type : Nat
  size : Nat
  align : Nat

/-- The size of `AllocationInfo`, which is the offset of the buffer (its alignment is 8). -/
def INFO : Nat := 24

/-- `alloc_info_ptr.write(allocation_info)`, line 132 -/
def writeInfo (I : InfoLayout) (m : Mem) (p type : Nat) (lay : Layout) : Mem :=
  put64 (put64 (put32 (put32 m (p + I.sig) POOL_SIG) (p + I.type) type) (p + I.size) lay.size) (p + I.align) lay.align

/-- The layout asked for, lines 116-128: the info followed by the buffer; a size for which there is no layout is a panic. -/
def poolLayout (size : Nat) : Option Layout :=
  if size + UEFI_POOL_ALIGN > 2 ^ 63 then none
  else if INFO + size + UEFI_POOL_ALIGN > 2 ^ 63 then none
  else some ⟨INFO + size, UEFI_POOL_ALIGN⟩

/-- `allocate_pool`, lines 115-141 -/
def Machine.allocatePool (E : Env) (I : InfoLayout) (dbg : Bool) (s : Machine E.H) (size : Nat) : Got E.H Nat :=
  match poolLayout size with
  | none => (.panic, s)
  | some lay =>
    match Machine.allocate E dbg s lay with
    | (.ok p, s') => (.ok (p + INFO), { s' with mem := writeInfo I s'.mem p s.fsb.memType lay })
    | (.err _, s') => (.err .outOfResources, s')
    | (.panic, s') => (.panic, s')

/-- `free_pool`, lines 148-179. (A buffer at address 24 would be an info at 0, and is an error.) -/
def Machine.freePool (E : Env) (I : InfoLayout) (dbg : Bool) (s : Machine E.H) (buffer : Nat) : Got E.H Unit :=
  let p := subw buffer INFO
  if get32 s.mem (p + I.sig) ≠ POOL_SIG then (if dbg then .panic else .err .invalidParameter, s)
  else if get32 s.mem (p + I.type) ≠ s.fsb.memType then (.err .notFound, s)
  else
    let m := put32 s.mem (p + I.sig) 0
    if p = 0 then (.err .invalidParameter, { s with mem := m })
    else (.ok (), Machine.deallocate E { s with mem := m } p ⟨get64 m (p + I.size), get64 m (p + I.align)⟩)

end Verif.Alloc
