import Verif.Alloc.Model
import Verif.Gcd.Spec
/-!
What a user of the heap knows: which blocks they have been given and not yet given back, and which calls may happen.

The history of the system is a sequence of `Step`s. A step is one critical section: a call of the heap, of the GCD, a write to
memory by anybody. So between the sections of one call (say, between asking the GCD for more memory and adding it to the
heap) any other call may come in, as it does when an interrupt handler allocates.
-/
namespace Verif.Alloc
open Verif.Gcd
open Verif.Hob (Mem)

/-- The values a Rust `Layout` can have. -/
def Layout.Valid (l : Layout) : Prop := (∃ k, l.align = 2 ^ k) ∧ l.size + l.align ≤ 2 ^ 63

/-- The address is in the block at `p` of layout `l`. -/
def In (p : Nat) (l : Layout) (a : Nat) : Prop := p ≤ a ∧ a < p + l.size

/-- The two blocks have no byte in common. -/
def Apart (x y : Nat × Layout) : Prop := ¬ Overlap x.1 x.2.size y.1 y.2.size

/-! ### What is assumed of `linked_list_allocator` and of the GCD wrapper -/

/-- `linked_list_allocator::Heap`: there is an invariant relating the heap, the ends of the memory it manages, the list of
blocks it has given out and not got back, and the contents of memory, such that the blocks are aligned, inside and apart, the
operations keep the invariant and leave alone what is in those blocks and outside the heap, and only memory that belongs to
the heap matters to it. -/
structure HeapOk (H : Heap) where
  Inv : H.σ → Nat → Nat → List (Nat × Layout) → Mem → Prop
  /-- Blocks are aligned, inside the heap, and apart. -/
  inside : ∀ {s b t L m}, Inv s b t L m → ∀ x ∈ L, x.1 % x.2.align = 0 ∧ b ≤ x.1 ∧ x.1 < t ∧ x.1 + x.2.size ≤ t
  apart : ∀ {s b t L m}, Inv s b t L m → L.Pairwise Apart
  /-- `init` writes inside the heap only. -/
  init : ∀ {b n m}, b % 8 = 0 → n % 8 = 0 → 32 ≤ n → Inv (H.init b n m).1 b (b + n) [] (H.init b n m).2
  initFrame : ∀ {b n m a}, ¬ (b ≤ a ∧ a < b + n) → (H.init b n m).2 a = m a
  /-- `allocate_first_fit` writes inside the heap only, and not in a block given out. -/
  alloc : ∀ {s b t L m l p s' m'}, Inv s b t L m → l.Valid → H.alloc s m l = some (p, s', m') → Inv s' b t ((p, l) :: L) m'
  allocFrame : ∀ {s b t L m l p s' m' a}, Inv s b t L m → l.Valid → H.alloc s m l = some (p, s', m') →
    ¬ (b ≤ a ∧ a < t) ∨ (∃ x ∈ L, In x.1 x.2 a) → m' a = m a
  /-- `deallocate` of a block given out writes inside the heap only, not in another block given out, and not past the first
  sixteen bytes of the block. -/
  free : ∀ {s b t L m p l}, Inv s b t L m → (p, l) ∈ L → Inv (H.free s m p l).1 b t (L.erase (p, l)) (H.free s m p l).2
  freeFrame : ∀ {s b t L m p l a}, Inv s b t L m → (p, l) ∈ L →
    ¬ (b ≤ a ∧ a < t) ∨ (∃ x ∈ L.erase (p, l), In x.1 x.2 a) ∨ (p + 16 ≤ a ∧ a < p + l.size) → (H.free s m p l).2 a = m a
  /-- Nothing else matters to the heap. -/
  stable : ∀ {s b t L m m'}, Inv s b t L m → (∀ a, b ≤ a → a < t → (∀ x ∈ L, ¬ In x.1 x.2 a) → m' a = m a) → Inv s b t L m'
  /-- A new heap satisfies a request that fits: at the start if that is aligned, and otherwise leaving room for a hole (16
  bytes) before it; the size is rounded up to a multiple of 8, and at least 16; either nothing is left, or room for a hole. -/
  fresh : ∀ {b n m l p}, b % 8 = 0 → n % 8 = 0 → l.Valid →
    (p = b ∧ b % l.align = 0 ∨ b % l.align ≠ 0 ∧ p = (b + 16 + l.align - 1) / l.align * l.align) →
    (p + (max l.size 16 + 7) / 8 * 8 = b + n ∨ p + (max l.size 16 + 7) / 8 * 8 + 16 ≤ b + n) →
    (H.alloc (H.init b n m).1 (H.init b n m).2 l).isSome

def Op.isFree : Op → Bool
  | .free .. => true
  | _ => false

def Op.byAddress : Op → Bool
  | .allocate (.address _) .. => true
  | _ => false

structure EnvOk (E : Env) where
  heap : HeapOk E.H
  /-- `AllocatorListNode` is 8-aligned and leaves room in a page. -/
  node8 : E.node % 8 = 0
  nodePos : 0 < E.node
  nodeSmall : E.node ≤ 2048
  /-- Setting attributes (and growing page tables for it) is a sequence of calls of the GCD that free nothing and ask for no
  particular address. -/
  protect : ∀ g a n, ∃ ops : List Op, (∀ op ∈ ops, op.InRange ∧ Op.isFree op = false ∧ Op.byAddress op = false) ∧ E.protect g a n = g.run E.gcdNode ops
  /-- It does not lock the GCD. -/
  protectLock : ∀ g a n, (E.protect g a n).locked = g.locked

/-! ### Histories -/

/-- The system: the GCD, memory, and one allocator per memory type. -/
structure World (H : Heap) where
  gcd : Gcd
  mem : Mem
  fsbs : List (Fsb H)

/-- A block that allocator number `owner` has given out for `layout`. -/
structure Grant where
  owner : Nat
  ptr : Nat
  layout : Layout
deriving DecidableEq, Repr

/-- A range that the GCD has allocated to `handle`. -/
structure Span where
  handle : Nat
  base : Nat
  len : Nat
deriving DecidableEq, Repr

/-- What has been given out and not given back: blocks of the heap, and ranges of the GCD (page allocations, and memory on its
way into a heap). -/
structure History where
  grants : List Grant
  spans : List Span

/-- The range `[base, base + len)` touches the span. -/
def Span.touches (s : Span) (base len : Nat) : Bool := decide (s.base < base + len ∧ base < s.base + s.len)

/-- What a call of the GCD adds to the ranges given out (a successful allocation), or takes off them (whatever it may free). -/
def spansAfter (g : Gcd) (l : List Span) : Op → List Span
  | .allocate at_ ty shift len image device =>
    match (g.allocate at_ ty shift len image device).1 with
    | .ok a => ⟨image, a, len⟩ :: l
    | _ => l
  | .free base len _ => l.filter (fun s => !s.touches base len)
  | _ => l

/-- The memory the allocators have been given to manage. -/
def World.regions {H : Heap} (w : World H) : List Span :=
  w.fsbs.flatMap fun f => f.regions.map fun r => ⟨f.handle, r.base, r.len⟩

def grant (l : List Grant) (i : Nat) (lay : Layout) : AllocRes → List Grant
  | .ok p => ⟨i, p, lay⟩ :: l
  | .outOfMemory _ => l

inductive Step (E : Env) : World E.H × History → World E.H × History → Prop where
  /-- `alloc` -/
  | alloc {w : World E.H} {h : History} {i : Nat} {f f' : Fsb E.H} {lay : Layout} {r : AllocRes} {m' : Mem} :
      w.fsbs[i]? = some f → lay.Valid → f.alloc E w.mem lay = (r, f', m') →
      Step E (w, h) ({ w with mem := m', fsbs := w.fsbs.set i f' }, { h with grants := grant h.grants i lay r })
  /-- `dealloc` of a block given out and not given back, with the layout it was asked for -/
  | dealloc {w : World E.H} {h : History} {f f' : Fsb E.H} {x : Grant} {m' : Mem} :
      x ∈ h.grants → w.fsbs[x.owner]? = some f → f.dealloc E w.mem x.ptr x.layout = (f', m') →
      Step E (w, h) ({ w with mem := m', fsbs := w.fsbs.set x.owner f' }, { h with grants := h.grants.erase x })
  /-- `expand` with pages the GCD has allocated to the allocator -/
  | expand {w : World E.H} {h : History} {i : Nat} {f f' : Fsb E.H} {dbg : Bool} {s : Span} {m' : Mem} :
      w.fsbs[i]? = some f → s ∈ h.spans → s.handle = f.handle → s.base % UEFI_PAGE_SIZE = 0 → s.base ≠ 0 →
      s.len % UEFI_PAGE_SIZE = 0 → f.expand E dbg w.mem s.base s.len = (.ok f', m') →
      Step E (w, h) ({ w with mem := m', fsbs := w.fsbs.set i f' }, { h with spans := h.spans.erase s })
  /-- The allocator's book-keeping (`set_reserved_range`, `notify_page_allocation`, `notify_pages_freed`, statistics) -/
  | account {w : World E.H} {h : History} {i : Nat} {f f' : Fsb E.H} :
      w.fsbs[i]? = some f → f'.heads = f.heads → f'.regions = f.regions → f'.handle = f.handle → f'.gran = f.gran →
      f'.memType = f.memType → Step E (w, h) ({ w with fsbs := w.fsbs.set i f' }, h)
  /-- A call of the GCD by anybody; nobody frees memory that the allocators manage. -/
  | gcd {w : World E.H} {h : History} {op : Op} :
      op.InRange → (∀ base len p, op = .free base len p → ∀ s ∈ w.regions, s.touches base len = false) →
      Step E (w, h) ({ w with gcd := w.gcd.step E.gcdNode op }, { h with spans := spansAfter w.gcd h.spans op })
  /-- Anybody writes to memory, but in the memory the allocators manage only to blocks given out. -/
  | write {w : World E.H} {h : History} {m' : Mem} :
      (∀ s ∈ w.regions, ∀ a, s.base ≤ a → a < s.base + s.len → (∀ x ∈ h.grants, ¬ In x.ptr x.layout a) → m' a = w.mem a) →
      Step E (w, h) ({ w with mem := m' }, h)
  /-- A new allocator -/
  | create {w : World E.H} {h : History} {type gran handle : Nat} :
      Step E (w, h) ({ w with fsbs := w.fsbs ++ [Fsb.new E.H type gran handle] }, h)

inductive Steps (E : Env) : World E.H × History → World E.H × History → Prop where
  | refl {x : World E.H × History} : Steps E x x
  | step {x y z : World E.H × History} : Steps E x y → Step E y z → Steps E x z

/-- The start: any GCD that calls can produce, any contents of memory, no allocators yet, nothing given out. -/
def Started (E : Env) (x : World E.H × History) : Prop :=
  Reachable E.gcdNode x.1.gcd ∧ x.1.fsbs = [] ∧ x.2 = ⟨[], []⟩

/-- The states that can come about. -/
def Possible (E : Env) (x : World E.H × History) : Prop := ∃ x0, Started E x0 ∧ Steps E x0 x

end Verif.Alloc
