import Verif.Collections.NodeModel
/-! Model of `/repo/core/patina_internal_collections/src/bst.rs`. -/
namespace Verif.Collections.Tree.Bst
variable {α : Type}

/-- `with_capacity`, lines 44-46. -/
def withCapacity (m0 : Mem α) (cap : Nat) : Outcome CErr (TreeState α) :=
  Tree.withCapacity m0 cap >>= fun st => .ok { st := st, root := none }

/-- `add`, lines 90-101: an error of `add_node` is returned, the storage slot stays taken. The state
is returned in every case, the result beside it. -/
def add (key : α → Nat) (s : TreeState α) (d : α) : Outcome CErr Nat × TreeState α :=
  match s.st.add d with
  | .err e => (.err e, s)
  | .panic => (.panic, s)
  | .ok (n, st1) =>
    match s.root with
    | none => (.ok n, { st := st1, root := some n })
    | some r =>
      match addNode key st1.mem n (s.st.cap + 1) r with
      | .err e => (.err e, { st := st1, root := some r })
      | .panic => (.panic, { st := st1, root := some r })
      | .ok m => (.ok n, { st := { st1 with mem := m }, root := some r })

/-- lines 553-556: `root.store(moved_up)` and `moved_up.set_parent(None)` when the removed node was the
root. -/
def storeMoved (h : Heap α) (node : Nat) (moved : Option Nat) : Heap α :=
  if (h.mem node).parent = none then { mem := setParentO h.mem moved none, root := moved } else h

/-- lines 560-563: the root after the swap. -/
def storeSwapped (h : Heap α) (succ : Nat) : Heap α :=
  if (h.mem succ).parent = none then { mem := setParent h.mem succ none, root := some succ } else h

/-- `remove_node_from_tree`, lines 550-566. -/
def removeNode (h : Heap α) (fuel node : Nat) : Outcome CErr (Heap α) :=
  if (h.mem node).left.isNone || (h.mem node).right.isNone then
    let (m, moved) := removeZeroOrOne false h.mem node
    .ok (storeMoved { mem := m, root := h.root } node moved)
  else
    match successor h.mem fuel node with
    | .ok (some s) =>
      let h1 := storeSwapped { mem := swap h.mem node s, root := h.root } s
      .ok { h1 with mem := (removeZeroOrOne false h1.mem node).1 }
    | _ => .panic

/-- The common end of `delete` and `delete_with_idx`, lines 522-526 and 543-546. -/
def deleteNode (s : TreeState α) (node : Nat) : Outcome CErr Unit × TreeState α :=
  match removeNode { mem := s.st.mem, root := s.root } s.st.cap node with
  | .ok h => (.ok (), { st := Store.delete { s.st with mem := h.mem } node, root := h.root })
  | .err e => (.err e, s)
  | .panic => (.panic, s)

/-- `delete`, lines 516-526. -/
def delete (key : α → Nat) (s : TreeState α) (k : Nat) : Outcome CErr Unit × TreeState α :=
  match getNode key s.st.mem k s.st.cap s.root with
  | .ok (some n) => deleteNode s n
  | .ok none => (.err .notFound, s)
  | .err e => (.err e, s)
  | .panic => (.panic, s)

/-- `delete_with_idx`, lines 538-547. -/
def deleteIdx (s : TreeState α) (i : Nat) : Outcome CErr Unit × TreeState α :=
  if i < s.st.cap then deleteNode s i else (.err .notFound, s)

end Verif.Collections.Tree.Bst
