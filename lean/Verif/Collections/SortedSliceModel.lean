import Verif.Prelude
/-!
Model of `/repo/core/patina_internal_collections/src/sorted_slice.rs`.

Simplifications:
* Elements are of an arbitrary type `T` with an arbitrary key function into `Nat`
  (`SliceKey::key`; the Rust key type is any `Ord`, here instantiated by the order of `Nat`).
* `binary_search_by_key` of the standard library is modelled by its documented contract on a slice
  sorted by key: position of the element with the key, or the insertion point. The slice is sorted in
  every reachable state (theorem `Props`), except if the caller breaks the order through `DerefMut`,
  which is outside the model.
-/
namespace Verif.Collections

/-- `Error`, lib.rs lines 79-89. -/
inductive CErr where
  | outOfSpace | notFound | alreadyExists | notSorted
deriving DecidableEq, Repr

namespace SortedSlice
variable {T : Type}

/-- `SortedSlice`, lines 14-19: the whole backing slice (its length is the capacity) and the number
of items in use. -/
structure State (T : Type) where
  slice : List T
  count : Nat
deriving DecidableEq

/-- `Deref`, lines 148-154: the items in use. -/
def State.items (s : State T) : List T := s.slice.take s.count

/-- `capacity`, lines 142-145. -/
def State.capacity (s : State T) : Nat := s.slice.length

/-- `[T]::copy_within(i..j, d)`; panics if the source or the destination is out of range. -/
def copyWithin (a : List T) (i j d : Nat) : Outcome CErr (List T) :=
  if i ≤ j ∧ j ≤ a.length ∧ d + (j - i) ≤ a.length then
    .ok (a.take d ++ ((a.drop i).take (j - i) ++ a.drop (d + (j - i))))
  else .panic

/-- `binary_search_by_key` by contract: number of elements with a smaller key, and whether the
element there has the key. -/
def searchKey (key : T → Nat) (k : Nat) (items : List T) : Except Nat Nat :=
  let idx := (items.takeWhile (fun e => key e < k)).length
  match items[idx]? with
  | some e => if key e = k then .ok idx else .error idx
  | none => .error idx

/-- `search`, lines 113-116. `.ok i`: present at `i`; `.error i`: would be inserted at `i`. -/
def search (key : T → Nat) (s : State T) (x : T) : Except Nat Nat := searchKey key (key x) s.items

/-- `self.slice[idx] = element`. -/
def setAt (a : List T) (i : Nat) (x : T) : Outcome CErr (List T) :=
  if i < a.length then .ok (a.set i x) else .panic

/-- `add`, lines 36-48. -/
def add (key : T → Nat) (s : State T) (x : T) : Outcome CErr (Nat × State T) :=
  if s.capacity = s.count then .err .outOfSpace
  else match search key s x with
    | .ok _ => .err .alreadyExists
    | .error idx => do
      let a ← copyWithin s.slice idx s.count (idx + 1)
      let a ← setAt a idx x
      .ok (idx, { slice := a, count := s.count + 1 })

/-- Adjacent comparison used by `is_sorted_by_key` (line 60). -/
def isSortedByKey (key : T → Nat) : List T → Bool
  | a :: b :: rest => decide (key a ≤ key b) && isSortedByKey key (b :: rest)
  | _ => true

/-- The duplicate scan over `windows(2)`, lines 64-69. -/
def hasAdjacentDup (key : T → Nat) : List T → Bool
  | a :: b :: rest => decide (key a = key b) || hasAdjacentDup key (b :: rest)
  | _ => false

/-- `self.slice[i..i + n].copy_from_slice(xs)`. -/
def writeAt (a : List T) (i : Nat) (xs : List T) : Outcome CErr (List T) :=
  if i + xs.length ≤ a.length then .ok (a.take i ++ (xs ++ a.drop (i + xs.length))) else .panic

/-- `add_contiguous_slice`, lines 51-88. -/
def addContiguous (key : T → Nat) (s : State T) (xs : List T) : Outcome CErr (Nat × State T) :=
  match xs with
  | [] => .ok (0, s)
  | x :: rest =>
    if s.count + xs.length > s.capacity then .err .outOfSpace
    else if !isSortedByKey key xs then .err .notSorted
    else if hasAdjacentDup key xs then .err .alreadyExists
    else match search key s x with
      | .ok _ => .err .alreadyExists
      | .error idx =>
        let finish : Outcome CErr (Nat × State T) := do
          let a ← copyWithin s.slice idx s.count (idx + xs.length)
          let a ← writeAt a idx xs
          .ok (idx, { slice := a, count := s.count + xs.length })
        match s.items[idx]? with
        | some next =>
          let last := (x :: rest).getLast (by simp)
          if key last = key next then .err .alreadyExists
          else if key last > key next then .err .notSorted
          else finish
        | none => finish

/-- `remove_at_idx`, lines 100-108. -/
def removeAt (s : State T) (idx : Nat) : Outcome CErr (Option T × State T) :=
  if idx ≥ s.count then .ok (none, s)
  else match s.slice[idx]? with
    | none => .panic
    | some item => do
      let a ← copyWithin s.slice (idx + 1) s.count idx
      .ok (some item, { slice := a, count := s.count - 1 })

/-- `remove`, lines 91-97. -/
def remove (key : T → Nat) (s : State T) (x : T) : Outcome CErr (Nat × State T) :=
  match search key s x with
  | .error _ => .err .notFound
  | .ok idx => do
    let r ← removeAt s idx
    .ok (idx, r.2)

/-- `search_with_key`, lines 121-123: `&self[idx]` panics when the insertion point is the end. -/
def searchWithKey (key : T → Nat) (s : State T) (k : Nat) : Outcome CErr (Except T T) :=
  match searchKey key k s.items with
  | .ok i => match s.items[i]? with | some e => .ok (.ok e) | none => .panic
  | .error i => match s.items[i]? with | some e => .ok (.error e) | none => .panic

/-- `new`, lines 26-33, over a backing slice of arbitrary contents. -/
def new (slice : List T) : State T := { slice, count := 0 }

end SortedSlice
end Verif.Collections
