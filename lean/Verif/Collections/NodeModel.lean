import Verif.Collections.SortedSliceModel
/-!
Model of `/repo/core/patina_internal_collections/src/node.rs`: the node storage (a slice of nodes with
an intrusive free list) and the pointer operations on nodes.

Simplifications:
* A pointer to a node is the index of the node in the storage slice (`Storage::idx` is the
  translation); the null pointer is `none`. The slice itself is a function from indices to nodes, of
  which only the indices below the capacity exist in the program.
* Elements are of an arbitrary type `α`; the key function goes into `Nat` (`SliceKey::Key` is any `Ord`).
* The nodes are only accessed under the owner's lock: the atomic cells are plain cells.
-/
namespace Verif.Collections.Tree
variable {α : Type}

/-- `Node<D>`, node.rs lines 459-468. `black` is the colour (`BLACK = true`, line 21). -/
structure Cell (α : Type) where
  data : α
  black : Bool
  parent : Option Nat
  left : Option Nat
  right : Option Nat
deriving DecidableEq, Repr

/-- The nodes of the slice. -/
abbrev Mem (α : Type) := Nat → Cell α

/-- Write to the node at `i`. -/
def upd (m : Mem α) (i : Nat) (f : Cell α → Cell α) : Mem α := fun j => if j = i then f (m j) else m j

/-- `set_color`, lines 276-278. -/
def setBlack (m : Mem α) (i : Nat) (b : Bool) : Mem α := upd m i fun c => { c with black := b }
/-- `set_parent`, lines 304-313. -/
def setParent (m : Mem α) (i : Nat) (p : Option Nat) : Mem α := upd m i fun c => { c with parent := p }
/-- `set_left`, lines 327-336. -/
def setLeft (m : Mem α) (i : Nat) (p : Option Nat) : Mem α := upd m i fun c => { c with left := p }
/-- `set_right`, lines 350-359. -/
def setRight (m : Mem α) (i : Nat) (p : Option Nat) : Mem α := upd m i fun c => { c with right := p }

/-- The same on `Option<&Node>`, lines 367-456: nothing happens on `None`. -/
def setBlackO (m : Mem α) (o : Option Nat) (b : Bool) : Mem α :=
  match o with | none => m | some i => setBlack m i b
/-- lines 411-413. -/
def setParentO (m : Mem α) (o : Option Nat) (p : Option Nat) : Mem α :=
  match o with | none => m | some i => setParent m i p
/-- lines 429-431. -/
def setLeftO (m : Mem α) (o : Option Nat) (p : Option Nat) : Mem α :=
  match o with | none => m | some i => setLeft m i p
/-- lines 447-449. -/
def setRightO (m : Mem α) (o : Option Nat) (p : Option Nat) : Mem α :=
  match o with | none => m | some i => setRight m i p

/-- `parent`/`parent_ptr` of `Option<&Node>`, lines 397-409. -/
def parentO (m : Mem α) (o : Option Nat) : Option Nat := match o with | none => none | some i => (m i).parent
/-- `left`/`left_ptr` of `Option<&Node>`, lines 415-427. -/
def leftO (m : Mem α) (o : Option Nat) : Option Nat := match o with | none => none | some i => (m i).left
/-- `right`/`right_ptr` of `Option<&Node>`, lines 433-445. -/
def rightO (m : Mem α) (o : Option Nat) : Option Nat := match o with | none => none | some i => (m i).right
/-- `color`/`is_black` of `Option<&Node>`, lines 375-395: `None` is black. -/
def blackO (m : Mem α) (o : Option Nat) : Bool := match o with | none => true | some i => (m i).black

/-! ### Storage -/

/-- `Storage`, lines 29-39. -/
structure Store (α : Type) where
  mem : Mem α
  cap : Nat
  length : Nat
  available : Option Nat

/-- The loop of `build_linked_list`, lines 73-80: `i` is `node`, `k` the number of nodes after it. -/
def buildFrom (m : Mem α) (i : Nat) : Nat → Mem α
  | 0 => m
  | k + 1 => buildFrom (setLeft (setRight m i (some (i + 1))) (i + 1) (some i)) (i + 1) k

/-- `with_capacity`, lines 56-71 with `build_linked_list`. `m0` is what the supplied memory happens to
hold. Both `buffer[0]` and `storage.data[0]` panic on an empty slice. -/
def withCapacity (m0 : Mem α) (cap : Nat) : Outcome CErr (Store α) :=
  if cap = 0 then .panic
  else .ok { mem := buildFrom m0 0 (cap - 1), cap := cap, length := 0, available := some 0 }

/-- `Storage::add`, lines 98-112. -/
def Store.add (s : Store α) (d : α) : Outcome CErr (Nat × Store α) :=
  match s.available with
  | none => .err .outOfSpace
  | some n =>
    if s.length = s.cap then .err .outOfSpace
    else
      .ok (n, { mem := upd s.mem n fun c => { c with left := none, right := none, parent := none, data := d }
                cap := s.cap, length := s.length + 1, available := (s.mem n).right })

/-- `Storage::delete`, lines 120-138, of a non-null pointer. -/
def Store.delete (s : Store α) (n : Nat) : Store α :=
  let m1 := setLeft (setParent s.mem n none) n none
  let m2 := match s.available with
    | some r => setLeft (setRight m1 n (some r)) r (some n)
    | none => setRight m1 n none
  { mem := m2, cap := s.cap, length := s.length - 1, available := some n }

/-- `Storage::get`, lines 155-157. -/
def Store.get (s : Store α) (i : Nat) : Option (Cell α) := if i < s.cap then some (s.mem i) else none

/-- The copy loop of `resize`, lines 206-230: slots `i .. i + k` of the old slice `m` are copied to the
new slice `b`; a pointer is translated to the slot with the same index. -/
def copyFrom (m b : Mem α) (i : Nat) : Nat → Mem α
  | 0 => b
  | k + 1 => copyFrom m (upd b i fun _ => m i) (i + 1) k

/-- `&buffer[idx]` of a link panics outside the new slice of `cap'` nodes. -/
def outside (cap' : Nat) : Option Nat → Bool
  | none => false
  | some j => decide (cap' ≤ j)

/-- `resize`, lines 232-236: the slot the new free list begins with. -/
def Store.firstFree (s : Store α) : Nat :=
  match s.available with
  | some a => a
  | none => s.length

/-- `resize`, lines 183-240. `b` is what the new memory happens to hold, `cap'` the number of nodes that
fit into it. `&buffer[idx]` of a child or parent outside the new slice panics. -/
def Store.resize (s : Store α) (b : Mem α) (cap' : Nat) : Outcome CErr (Store α) :=
  if cap' < s.length then .panic
  else if s.cap = 0 then
    if cap' = 0 then .panic
    else .ok { mem := buildFrom b 0 (cap' - 1), cap := cap', length := s.length, available := some 0 }
  else if (List.range s.length).any (fun i =>
      outside cap' (s.mem i).left || outside cap' (s.mem i).right || outside cap' (s.mem i).parent) then .panic
  else if cap' ≤ s.firstFree then .panic
  else
    .ok { mem := buildFrom (copyFrom s.mem b 0 s.length) s.firstFree (cap' - 1 - s.firstFree)
          cap := cap', length := s.length, available := some s.firstFree }

/-! ### Operations on nodes -/

/-- `Node::sibling`, lines 498-505. -/
def sibling (m : Mem α) (n : Nat) : Outcome CErr (Option Nat) :=
  match (m n).parent with
  | none => .ok none
  | some p =>
    if (m p).left = some n then .ok (m p).right
    else if (m p).right = some n then .ok (m p).left
    else .panic

/-- The loop of `successor`, lines 509-511; `.panic` when the fuel is used up (it never is). -/
def leftmost (m : Mem α) : Nat → Nat → Outcome CErr Nat
  | 0, _ => .panic
  | k + 1, n => match (m n).left with | none => .ok n | some l => leftmost m k l

/-- The loop of `predecessor`, lines 517-519. -/
def rightmost (m : Mem α) : Nat → Nat → Outcome CErr Nat
  | 0, _ => .panic
  | k + 1, n => match (m n).right with | none => .ok n | some r => rightmost m k r

/-- `Node::successor`, lines 507-513. -/
def successor (m : Mem α) (fuel n : Nat) : Outcome CErr (Option Nat) :=
  match (m n).right with
  | none => .ok none
  | some r => leftmost m fuel r >>= fun s => .ok (some s)

/-- `Node::predecessor`, lines 515-521. -/
def predecessor (m : Mem α) (fuel n : Nat) : Outcome CErr (Option Nat) :=
  match (m n).left with
  | none => .ok none
  | some r => rightmost m fuel r >>= fun s => .ok (some s)

/-- lines 525-529: the parent of `a` is made to point to `b` instead. -/
def swapChild (m : Mem α) (a b : Nat) : Mem α :=
  if leftO m (m a).parent = some a then setLeftO m (m a).parent (some b)
  else setRightO m (m a).parent (some b)

/-- `Node::swap`, lines 523-573, statement by statement. -/
def swap (m0 : Mem α) (n1 n2 : Nat) : Mem α :=
  let m1 := swapChild m0 n1 n2
  let m2 := swapChild m1 n2 n1
  let tmpColor := (m2 n1).black
  let m3 := setBlack m2 n1 (m2 n2).black
  let m4 := setBlack m3 n2 tmpColor
  let tmpParent := (m4 n1).parent
  let m5 := setParent m4 n1 (m4 n2).parent
  let m6 := setParent m5 n2 tmpParent
  let tmpLeft := (m6 n1).left
  let m7 := setLeft m6 n1 (m6 n2).left
  let m8 := setLeft m7 n2 tmpLeft
  let tmpRight := (m8 n1).right
  let m9 := setRight m8 n1 (m8 n2).right
  let m10 := setRight m9 n2 tmpRight
  let m11 := setParentO m10 (m10 n1).left (some n1)
  let m12 := setParentO m11 (m11 n1).right (some n1)
  let m13 := setParentO m12 (m12 n2).left (some n2)
  setParentO m13 (m13 n2).right (some n2)

/-! ### Operations shared by the two trees -/

/-- A tree: its storage and its root (`Bst`, bst.rs lines 24-31; `Rbt`, rbt.rs lines 26-32). -/
structure TreeState (α : Type) where
  st : Store α
  root : Option Nat

/-- `root.store(..)` and the nodes: what the static helper functions of the trees work on. -/
structure Heap (α : Type) where
  mem : Mem α
  root : Option Nat

/-- `add_node`, rbt.rs lines 137-160 and bst.rs lines 127-150. `k` is the key of `node`. -/
def addNode (key : α → Nat) (m : Mem α) (node : Nat) : Nat → Nat → Outcome CErr (Mem α)
  | 0, _ => .panic
  | fuel + 1, cur =>
    if key (m node).data < key (m cur).data then
      match (m cur).left with
      | some l => addNode key m node fuel l
      | none => .ok (setParent (setLeft m cur (some node)) node (some cur))
    else if key (m cur).data < key (m node).data then
      match (m cur).right with
      | some r => addNode key m node fuel r
      | none => .ok (setParent (setRight m cur (some node)) node (some cur))
    else .err .alreadyExists

/-- `get_node`, rbt.rs lines 501-511 and bst.rs lines 494-504. -/
def getNode (key : α → Nat) (m : Mem α) (k : Nat) : Nat → Option Nat → Outcome CErr (Option Nat)
  | _, none => .ok none
  | 0, some _ => .panic
  | fuel + 1, some n =>
    if k < key (m n).data then getNode key m k fuel (m n).left
    else if key (m n).data < k then getNode key m k fuel (m n).right
    else .ok (some n)

/-- `get_closest_idx`, rbt.rs lines 287-301 and bst.rs lines 280-294. -/
def getClosest (key : α → Nat) (m : Mem α) (k : Nat) :
    Nat → Option Nat → Option Nat → Outcome CErr (Option Nat)
  | _, none, closest => .ok closest
  | 0, some _, _ => .panic
  | fuel + 1, some n, closest =>
    if k < key (m n).data then getClosest key m k fuel (m n).left closest
    else if key (m n).data < k then getClosest key m k fuel (m n).right (some n)
    else .ok (some n)

/-- `first_idx`, rbt.rs lines 350-359. -/
def firstIdx (m : Mem α) (fuel : Nat) : Option Nat → Outcome CErr (Option Nat)
  | none => .ok none
  | some n => leftmost m fuel n >>= fun i => .ok (some i)

/-- `last_idx`, rbt.rs lines 378-387. -/
def lastIdx (m : Mem α) (fuel : Nat) : Option Nat → Outcome CErr (Option Nat)
  | none => .ok none
  | some n => rightmost m fuel n >>= fun i => .ok (some i)

/-- The upward loop of `next_idx`, rbt.rs lines 444-451. -/
def climbNext (m : Mem α) : Nat → Nat → Outcome CErr (Option Nat)
  | 0, _ => .panic
  | fuel + 1, cur =>
    match (m cur).parent with
    | none => .ok none
    | some p => if (m p).left = some cur then .ok (some p) else climbNext m fuel p

/-- The upward loop of `prev_idx`, rbt.rs lines 480-487. -/
def climbPrev (m : Mem α) : Nat → Nat → Outcome CErr (Option Nat)
  | 0, _ => .panic
  | fuel + 1, cur =>
    match (m cur).parent with
    | none => .ok none
    | some p => if (m p).right = some cur then .ok (some p) else climbPrev m fuel p

/-- `next_idx`, rbt.rs lines 435-452 and bst.rs lines 428-445. -/
def nextIdx (s : Store α) (cur : Nat) : Outcome CErr (Option Nat) :=
  match s.get cur with
  | none => .ok none
  | some c => if c.right.isSome then successor s.mem s.cap cur else climbNext s.mem (s.cap + 1) cur

/-- `prev_idx`, rbt.rs lines 471-488 and bst.rs lines 464-481. -/
def prevIdx (s : Store α) (cur : Nat) : Outcome CErr (Option Nat) :=
  match s.get cur with
  | none => .ok none
  | some c => if c.left.isSome then predecessor s.mem s.cap cur else climbPrev s.mem (s.cap + 1) cur

/-- `_dfs`, rbt.rs lines 875-882: the values in order. -/
def dfs (m : Mem α) : Nat → Option Nat → Outcome CErr (List α)
  | _, none => .ok []
  | 0, some _ => .panic
  | fuel + 1, some n => do
    let l ← dfs m fuel (m n).left
    let r ← dfs m fuel (m n).right
    .ok (l ++ (m n).data :: r)

/-- `height_and_balance`, node.rs lines 483-496, the height (an `i32`; heights are at most the number of
nodes, far below the range). -/
def height (m : Mem α) : Nat → Option Nat → Outcome CErr Nat
  | _, none => .ok 0
  | 0, some _ => .panic
  | fuel + 1, some n => do
    let l ← height m fuel (m n).left
    let r ← height m fuel (m n).right
    .ok (max l r + 1)

/-- `parent.left_ptr() == node` : re-point the parent's link to `to`; rbt.rs lines 605-609, 615-619
and bst.rs lines 574-578, 584-588 (anything else is taken to be the right link). -/
def relink (m : Mem α) (p : Option Nat) (node : Nat) (to : Option Nat) : Mem α :=
  if leftO m p = some node then setLeftO m p to else setRightO m p to

/-- `remove_node_with_zero_or_one_child`; the leaf branch is the only difference between the trees:
bst.rs lines 592-596 (`strict = false`), rbt.rs lines 623-627 (`strict = true`). -/
def removeZeroOrOne (strict : Bool) (m : Mem α) (node : Nat) : Mem α × Option Nat :=
  let p := (m node).parent
  if (m node).left.isSome then
    let m1 := setParentO m (m node).left p
    (relink m1 p node (m1 node).left, (m1 node).left)
  else if (m node).right.isSome then
    let m1 := setParentO m (m node).right p
    (relink m1 p node (m1 node).right, (m1 node).right)
  else if strict then
    (if leftO m p = some node then setLeftO m p none
     else if rightO m p = some node then setRightO m p none
     else m, none)
  else (relink m p node none, none)

end Verif.Collections.Tree
