import Verif.Collections.SortedSliceModel
/-!
What a user relies on when using a sorted tree over a fixed buffer of `cap` slots. Nothing here mentions
nodes or pointers.

* The contents are a list of (slot, value) in ascending order of the keys.
* `lost` slots have been used up by insertions that failed.
-/
namespace Verif.Collections.Tree
variable {α : Type}

structure Book (α : Type) where
  items : List (Nat × α)
  lost : Nat

namespace Book
/-- The slots that hold a value. -/
def slots (b : Book α) : List Nat := b.items.map (·.1)
/-- The slots that are used up. -/
def used (b : Book α) : Nat := b.items.length + b.lost
/-- A value with this key is stored. -/
def has (key : α → Nat) (b : Book α) (k : Nat) : Prop := ∃ e ∈ b.items, key e.2 = k
/-- Insert in key order: after the smaller keys, before the larger ones. -/
def insert (key : α → Nat) (b : Book α) (i : Nat) (d : α) : Book α :=
  { b with items := b.items.filter (fun e => key e.2 < key d) ++ (i, d) :: b.items.filter (fun e => key d < key e.2) }
/-- Remove the value in slot `i`. -/
def remove (b : Book α) (i : Nat) : Book α := { b with items := b.items.filter fun e => e.1 ≠ i }
/-- Overwrite the value in slot `i`. -/
def put (b : Book α) (i : Nat) (d : α) : Book α :=
  { b with items := b.items.map fun e => if e.1 = i then (i, d) else e }
end Book

/-- The operations that change a tree. -/
inductive Op (α : Type) where
  /-- `add` -/
  | add (d : α)
  /-- `delete` by key -/
  | delete (k : Nat)
  /-- `delete_with_idx` -/
  | deleteAt (i : Nat)
  /-- a write through `get_mut` or `get_with_idx_mut` -/
  | put (i : Nat) (d : α)

/-- What the caller must observe: a slot used in `delete_with_idx` holds a value (or does not exist), a
write through a reference does not change the key. -/
def Legal (key : α → Nat) (cap : Nat) (b : Book α) : Op α → Prop
  | .add _ => True
  | .delete _ => True
  | .deleteAt i => i ∈ b.slots ∨ cap ≤ i
  | .put i d => ∃ d0, (i, d0) ∈ b.items ∧ key d = key d0

/-- What an operation may answer, and the contents afterwards. (`delete` and the writes answer `0` for
success.) -/
inductive Step (key : α → Nat) (cap : Nat) : Book α → Op α → Outcome CErr Nat → Book α → Prop
  | full (b d) : b.used = cap → Step key cap b (.add d) (.err .outOfSpace) b
  | dup (b d) : b.used < cap → b.has key (key d) →
      Step key cap b (.add d) (.err .alreadyExists) { b with lost := b.lost + 1 }
  | new (b d i) : b.used < cap → ¬ b.has key (key d) → i < cap → i ∉ b.slots →
      Step key cap b (.add d) (.ok i) (b.insert key i d)
  | gone (b i d) : (i, d) ∈ b.items → Step key cap b (.delete (key d)) (.ok 0) (b.remove i)
  | absent (b k) : ¬ b.has key k → Step key cap b (.delete k) (.err .notFound) b
  | goneAt (b i) : i ∈ b.slots → Step key cap b (.deleteAt i) (.ok 0) (b.remove i)
  | noSlot (b i) : cap ≤ i → Step key cap b (.deleteAt i) (.err .notFound) b
  | wrote (b i d) : i ∈ b.slots → Step key cap b (.put i d) (.ok 0) (b.put i d)

/-- A history of operations with their answers. -/
inductive History (key : α → Nat) (cap : Nat) : Book α → List (Op α × Outcome CErr Nat) → Book α → Prop
  | nil (b) : History key cap b [] b
  | cons (b op r b' rest b'') : Step key cap b op r b' → History key cap b' rest b'' →
      History key cap b ((op, r) :: rest) b''

/-- The values stored, in key order. -/
def Book.vals (b : Book α) : List α := b.items.map (·.2)

/-- The value that follows the one with key `k`, if `k` is stored. -/
def Book.after (key : α → Nat) (b : Book α) (k : Nat) : Option α :=
  if (b.vals.any fun d => key d = k) then b.vals.find? (fun d => k < key d) else none

/-- The value before the one with key `k`, if `k` is stored. -/
def Book.before (key : α → Nat) (b : Book α) (k : Nat) : Option α :=
  if (b.vals.any fun d => key d = k) then (b.vals.filter (fun d => key d < k)).getLast? else none

end Verif.Collections.Tree
