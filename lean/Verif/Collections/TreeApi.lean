import Verif.Collections.BstModel
import Verif.Collections.RbtModel
/-!
The public functions of `Rbt` and `Bst` on top of the pointer code. The two files have the same text for
these functions; line numbers are those of rbt.rs.
-/
namespace Verif.Collections.Tree
variable {α : Type}

/-- `len`, lines 54-56. -/
def len (s : TreeState α) : Nat := s.st.length

/-- `capacity`, lines 64-66. -/
def capacity (s : TreeState α) : Nat := s.st.cap

/-- `get_with_idx`, lines 217-222. -/
def getWithIdx (s : TreeState α) (i : Nat) : Option α := (s.st.get i).map Cell.data

/-- A write through the reference of `get_with_idx_mut`, lines 244-249. -/
def putWithIdx (s : TreeState α) (i : Nat) (d : α) : TreeState α :=
  { s with st := { s.st with mem := upd s.st.mem i fun c => { c with data := d } } }

/-- `get_idx`, lines 267-269. -/
def getIdx (key : α → Nat) (s : TreeState α) (k : Nat) : Outcome CErr (Option Nat) :=
  getNode key s.st.mem k s.st.cap s.root

/-- `get`, lines 173-178. -/
def get (key : α → Nat) (s : TreeState α) (k : Nat) : Outcome CErr (Option α) :=
  getNode key s.st.mem k s.st.cap s.root >>= fun o => .ok (o.map fun n => (s.st.mem n).data)

/-- `get_closest_idx`, lines 287-301. -/
def getClosestIdx (key : α → Nat) (s : TreeState α) (k : Nat) : Outcome CErr (Option Nat) :=
  getClosest key s.st.mem k s.st.cap s.root none

/-- `first`, lines 313-316. -/
def first (s : TreeState α) : Outcome CErr (Option α) :=
  firstIdx s.st.mem s.st.cap s.root >>= fun o => .ok (o.bind (getWithIdx s))

/-- `last`, lines 328-331. -/
def last (s : TreeState α) : Outcome CErr (Option α) :=
  lastIdx s.st.mem s.st.cap s.root >>= fun o => .ok (o.bind (getWithIdx s))

/-- The rest of `next` and `prev`: a step from the index found. -/
def walk (s : TreeState α) (f : Store α → Nat → Outcome CErr (Option Nat)) : Option Nat → Outcome CErr (Option α)
  | none => .ok none
  | some i => f s.st i >>= fun o => .ok (o.bind (getWithIdx s))

/-- `next`, lines 397-401; `current.key()` is `k`. -/
def next (key : α → Nat) (s : TreeState α) (k : Nat) : Outcome CErr (Option α) :=
  getIdx key s k >>= walk s nextIdx

/-- `prev`, lines 413-417. -/
def prev (key : α → Nat) (s : TreeState α) (k : Nat) : Outcome CErr (Option α) :=
  getIdx key s k >>= walk s prevIdx

/-- `dfs`, lines 866-883. -/
def values (s : TreeState α) : Outcome CErr (List α) := dfs s.st.mem s.st.cap s.root

/-- `height`, lines 69-72. -/
def treeHeight (s : TreeState α) : Outcome CErr Nat := height s.st.mem s.st.cap s.root

/-- The loop of `add_many`, lines 129-133. `ret` is the last index. -/
def addLoop (add : TreeState α → α → Outcome CErr Nat × TreeState α) :
    TreeState α → Nat → List α → Outcome CErr Nat × TreeState α
  | s, ret, [] => (.ok ret, s)
  | s, _, d :: ds =>
    match add s d with
    | (.ok i, s') => addLoop add s' i ds
    | (r, s') => (r, s')

/-- `add_many`, lines 119-134. -/
def addMany (add : TreeState α → α → Outcome CErr Nat × TreeState α) (s : TreeState α) (ds : List α) :
    Outcome CErr Nat × TreeState α :=
  if s.st.cap < s.st.length + ds.length then (.err .outOfSpace, s) else addLoop add s 0 ds

end Verif.Collections.Tree
