import Verif.Pages.Model
/-!
What a memory manager promises, and what it means that every page a component holds has one owner.
-/
namespace Verif.Pages

/-- Two ranges have no byte in common. -/
def Apart (r q : Range) : Prop := r.addr + r.len ≤ q.addr ∨ q.addr + q.len ≤ r.addr

/-- The bytes of these ranges are the same in both memories. -/
def Keeps (l : List Range) (m m' : Mem) : Prop := ∀ r ∈ l, ∀ a, r.addr ≤ a → a < r.addr + r.len → m' a = m a

/-- What `MemoryManager` documents, lines 55-190. `owned` are the ranges that are allocated: an allocation adds a range that has no byte in
common with the others; freeing one of them succeeds and takes away just that one; the contents of the others are left alone. -/
structure Contract {σ : Type} (M : Manager σ) (inv : σ → Prop) (owned : σ → List Range) : Prop where
  proper : ∀ s, inv s → ∀ r ∈ owned s, r.addr ≠ 0 ∧ r.addr % 4096 = 0 ∧ 0 < r.pages
  apart : ∀ s, inv s → (owned s).Pairwise Apart
  allocated : ∀ s m n o r s' m', inv s → M.allocate s m n o = (.ok r, s', m') →
    inv s' ∧ (owned s').Perm (r :: owned s) ∧ r.pages = n ∧ Keeps (owned s) m m'
  refused : ∀ s m n o x s' m', inv s → M.allocate s m n o = (x, s', m') → (∀ r, x ≠ .ok r) →
    inv s' ∧ (owned s').Perm (owned s) ∧ Keeps (owned s) m m'
  freed : ∀ s m r, inv s → r ∈ owned s → ∃ s' m', M.free s m r.addr r.pages = (true, s', m') ∧
    inv s' ∧ (owned s').Perm ((owned s).erase r) ∧ Keeps ((owned s).erase r) m m'

variable {σ : Type}

/-- The ranges of the values the component holds. -/
def held (vals : List (Option Val)) : List Range := vals.filterMap (Option.map Val.range)

/-- How many bytes a value gives access to. -/
def Val.bytes : Val → Nat
  | .box _ n | .leaked _ n => n
  | _ => 0

/-- Every allocated range belongs to one value the component holds, or is in `rest`, which nobody can free any more (or which others
hold). -/
structure Owner (inv : σ → Prop) (owned : σ → List Range) (w : World σ) (rest : List Range) : Prop where
  inv : inv w.s
  exactly : (owned w.s).Perm (held w.vals ++ rest)
  inside : ∀ v, some v ∈ w.vals → v.bytes ≤ v.range.len

/-- The range an operation gives up without freeing it: a raw pointer or a leaked reference that goes out of scope, or an empty box. -/
def lost (w : World σ) : Op → List Range
  | .drop i => match w.get i with
    | some (.raw r) => [r]
    | some (.leaked r _) => [r]
    | some (.box r n) => if n = 0 then [r] else []
    | _ => []
  | _ => []

/-- The value an operation uses. -/
def Op.uses : Op → Option Nat
  | .allocate .. | .allocateZero .. => none
  | .drop i | .intoRawPtr i _ | .intoRawSlice i _ | .intoBox i _ | .intoBoxedSlice i _ _ | .leakAs i _ | .leakAsSlice i _ _ | .freeRaw i
  | .store i _ _ => some i

/-- The bytes at an address are these. -/
def Holds (m : Mem) (a : Nat) (l : List UInt8) : Prop := ∀ k (h : k < l.length), m (a + k) = l[k]

end Verif.Pages
