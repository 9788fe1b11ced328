import Verif.Collections.NodeModel
/-! Model of `/repo/core/patina_internal_collections/src/rbt.rs`. -/
namespace Verif.Collections.Tree.Rbt
variable {α : Type}

/-- `with_capacity`, lines 49-51. -/
def withCapacity (m0 : Mem α) (cap : Nat) : Outcome CErr (TreeState α) :=
  Tree.withCapacity m0 cap >>= fun st => .ok { st := st, root := none }

/-- `rotate_left`, lines 632-649: the nodes afterwards and the new root of the subtree. -/
def rotateLeft (m : Mem α) (x : Nat) : Mem α × Option Nat :=
  let rc := (m x).right
  let p := (m x).parent
  let m1 := setRight m x (leftO m rc)
  let m2 := setParentO m1 (leftO m1 rc) (some x)
  let m3 := setLeftO m2 rc (some x)
  let m4 := setParent m3 x rc
  let m5 := setParentO m4 rc p
  let m6 := if leftO m5 p = some x then setLeftO m5 p rc
    else if rightO m5 p = some x then setRightO m5 p rc else m5
  (m6, rc)

/-- `rotate_right`, lines 652-669. -/
def rotateRight (m : Mem α) (x : Nat) : Mem α × Option Nat :=
  let lc := (m x).left
  let p := (m x).parent
  let m1 := setLeft m x (rightO m lc)
  let m2 := setParentO m1 (rightO m1 lc) (some x)
  let m3 := setRightO m2 lc (some x)
  let m4 := setParent m3 x lc
  let m5 := setParentO m4 lc p
  let m6 := if leftO m5 p = some x then setLeftO m5 p lc
    else if rightO m5 p = some x then setRightO m5 p lc else m5
  (m6, lc)

/-- `if let Some(root) = .. && root.parent().is_none() { head.store(root); root.set_parent(None) }`,
e.g. lines 703-708. -/
def storeTop (h : Heap α) (sub : Option Nat) : Heap α :=
  match sub with
  | none => h
  | some r => if (h.mem r).parent = none then { mem := setParent h.mem r none, root := some r } else h

/-- Rotate left and store the root, e.g. lines 703-708. -/
def rotL (h : Heap α) (x : Nat) : Heap α :=
  storeTop { mem := (rotateLeft h.mem x).1, root := h.root } (rotateLeft h.mem x).2

/-- Rotate right and store the root, e.g. lines 712-717. -/
def rotR (h : Heap α) (x : Nat) : Heap α :=
  storeTop { mem := (rotateRight h.mem x).1, root := h.root } (rotateRight h.mem x).2

/-- Lines 703-719: parent `p` is the left child of the grandparent `g`. -/
def addLeft (h : Heap α) (node p g : Nat) : Heap α :=
  if (h.mem p).right = some node then
    let h2 := rotR (rotL h p) g
    { h2 with mem := setBlack (setBlack h2.mem node true) g false }
  else
    let h2 := rotR h g
    { h2 with mem := setBlack (setBlack h2.mem p true) g false }

/-- Lines 722-741: parent `p` is the right child of the grandparent `g`. -/
def addRight (h : Heap α) (node p g : Nat) : Heap α :=
  if (h.mem p).left = some node then
    let h2 := rotL (rotR h p) g
    { h2 with mem := setBlack (setBlack h2.mem node true) g false }
  else
    let h2 := rotL h g
    { h2 with mem := setBlack (setBlack h2.mem p true) g false }

/-- `fixup_add`, lines 672-744. -/
def fixupAdd : Nat → Heap α → Nat → Outcome CErr (Heap α)
  | 0, _, _ => .panic
  | fuel + 1, h, node =>
    match (h.mem node).parent with
    | none => .ok { h with mem := setBlack h.mem node true }
    | some p =>
      if (h.mem p).black then .ok h
      else match (h.mem p).parent with
        | none => .panic
        | some g =>
          match sibling h.mem p with
          | .ok uncle =>
            if blackO h.mem uncle = false then
              fixupAdd fuel
                { h with mem := setBlackO (setBlack (setBlack h.mem p true) g false) uncle true } g
            else if (h.mem g).left = some p then .ok (addLeft h node p g)
            else if (h.mem g).right = some p then .ok (addRight h node p g)
            else .panic
          | _ => .panic

/-- `add`, lines 95-111. -/
def add (key : α → Nat) (s : TreeState α) (d : α) : Outcome CErr Nat × TreeState α :=
  match s.st.add d with
  | .err e => (.err e, s)
  | .panic => (.panic, s)
  | .ok (n, st0) =>
    let st1 := { st0 with mem := setBlack st0.mem n false }
    match s.root with
    | none => (.ok n, { st := { st1 with mem := setBlack st1.mem n true }, root := some n })
    | some r =>
      match addNode key st1.mem n (s.st.cap + 1) r with
      | .err e => (.err e, { st := st1, root := some r })
      | .panic => (.panic, { st := st1, root := some r })
      | .ok m =>
        match fixupAdd (s.st.cap + 1) { mem := m, root := some r } n with
        | .err e => (.err e, { st := { st1 with mem := m }, root := some r })
        | .panic => (.panic, { st := { st1 with mem := m }, root := some r })
        | .ok h => (.ok n, { st := { st1 with mem := h.mem }, root := h.root })

/-- Case 2 of `fixup_delete`, lines 760-778: red sibling `s` of `node`, whose parent is `p`. -/
def delRed (h : Heap α) (node p : Nat) (s : Option Nat) : Heap α :=
  let m := setBlack (setBlackO h.mem s true) p false
  if (m p).left = some node then rotL { h with mem := m } p else rotR { h with mem := m } p

/-- Case 5, lines 799-820: the outer nephew is black, rotate around the sibling `s`. -/
def delInner (h : Heap α) (nodeLeft : Bool) (s : Nat) : Heap α :=
  if nodeLeft then rotR { h with mem := setBlack (setBlackO h.mem (h.mem s).left true) s false } s
  else rotL { h with mem := setBlack (setBlackO h.mem (h.mem s).right true) s false } s

/-- Case 6, lines 826-844: recolour and rotate around the parent `p`. -/
def delOuter (h : Heap α) (nodeLeft : Bool) (p : Nat) (s : Option Nat) : Heap α :=
  let m := setBlack (setBlackO h.mem s (h.mem p).black) p true
  if nodeLeft then rotL { h with mem := setBlackO m (rightO m s) true } p
  else rotR { h with mem := setBlackO m (leftO m s) true } p

/-- Cases 5 and 6, lines 795-844: a red nephew. -/
def delNephew (h : Heap α) (node p : Nat) (s : Option Nat) : Outcome CErr (Heap α) :=
  let nodeLeft : Bool := (h.mem p).left = some node
  if (nodeLeft && blackO h.mem (rightO h.mem s)) || (!nodeLeft && blackO h.mem (leftO h.mem s)) then
    match s with
    | none => .panic
    | some i =>
      let h1 := delInner h nodeLeft i
      match sibling h1.mem node with
      | .ok s' =>
        match (h1.mem node).parent with
        | some p' => .ok (delOuter h1 nodeLeft p' s')
        | none => .panic
      | _ => .panic
  else .ok (delOuter h nodeLeft p s)

/-- Cases 3 to 6, lines 781-844; `rec` is the recursive call of case 4, line 792. -/
def delRest (rec : Heap α → Option Nat → Outcome CErr (Heap α)) (h : Heap α) (node : Nat) :
    Outcome CErr (Heap α) :=
  match sibling h.mem node with
  | .ok s =>
    match (h.mem node).parent with
    | none => .panic
    | some p =>
      if blackO h.mem (leftO h.mem s) && blackO h.mem (rightO h.mem s) then
        let h1 : Heap α := { h with mem := setBlackO h.mem s false }
        if (h1.mem p).black = false then .ok { h1 with mem := setBlack h1.mem p true }
        else rec h1 (some p)
      else delNephew h node p s
  | _ => .panic

/-- `fixup_delete`, lines 747-844. -/
def fixupDelete : Nat → Heap α → Option Nat → Outcome CErr (Heap α)
  | _, h, none => .ok h
  | 0, _, some _ => .panic
  | fuel + 1, h, some node =>
    match (h.mem node).parent with
    | none => .ok { h with mem := setBlack h.mem node true }
    | some p =>
      match sibling h.mem node with
      | .ok s =>
        if blackO h.mem s = false then delRest (fixupDelete fuel) (delRed h node p s) node
        else delRest (fixupDelete fuel) h node
      | _ => .panic

/-- lines 563-566: the tree is empty after removing a leaf that was the root. -/
def storeEmpty (h : Heap α) (node : Nat) : Heap α :=
  if (h.mem node).parent = none then { h with root := none } else h

/-- lines 574-577. -/
def storeMoved (h : Heap α) (node : Nat) (moved : Option Nat) : Heap α :=
  if (h.mem node).parent = none then { mem := setParentO h.mem moved none, root := moved } else h

/-- lines 584-587. -/
def storeSwapped (h : Heap α) (succ : Nat) : Heap α :=
  if (h.mem succ).parent = none then { mem := setParent h.mem succ none, root := some succ } else h

/-- lines 594-596. -/
def finish (fuel : Nat) (h : Heap α) (node : Nat) (moved : Option Nat) : Outcome CErr (Heap α) :=
  if (h.mem node).black then fixupDelete fuel h moved else .ok h

/-- `remove_node_from_tree`, lines 557-597. -/
def removeNode (h : Heap α) (fuel node : Nat) : Outcome CErr (Heap α) :=
  if (h.mem node).left.isNone && (h.mem node).right.isNone then
    match fixupDelete fuel h (some node) with
    | .ok h1 => .ok (storeEmpty { h1 with mem := (removeZeroOrOne true h1.mem node).1 } node)
    | _ => .panic
  else if (h.mem node).left.isNone || (h.mem node).right.isNone then
    let r := removeZeroOrOne true h.mem node
    finish fuel (storeMoved { mem := r.1, root := h.root } node r.2) node r.2
  else
    match successor h.mem fuel node with
    | .ok (some s) =>
      let h1 := storeSwapped { mem := swap h.mem node s, root := h.root } s
      let r := removeZeroOrOne true h1.mem node
      finish fuel { h1 with mem := r.1 } node r.2
    | _ => .panic

/-- The common end of `delete` and `delete_with_idx`, lines 529-532 and 550-553. -/
def deleteNode (s : TreeState α) (node : Nat) : Outcome CErr Unit × TreeState α :=
  match removeNode { mem := s.st.mem, root := s.root } s.st.cap node with
  | .ok h => (.ok (), { st := Store.delete { s.st with mem := h.mem } node, root := h.root })
  | .err e => (.err e, s)
  | .panic => (.panic, s)

/-- `delete`, lines 523-533. -/
def delete (key : α → Nat) (s : TreeState α) (k : Nat) : Outcome CErr Unit × TreeState α :=
  match getNode key s.st.mem k s.st.cap s.root with
  | .ok (some n) => deleteNode s n
  | .ok none => (.err .notFound, s)
  | .err e => (.err e, s)
  | .panic => (.panic, s)

/-- `delete_with_idx`, lines 545-554. -/
def deleteIdx (s : TreeState α) (i : Nat) : Outcome CErr Unit × TreeState α :=
  if i < s.st.cap then deleteNode s i else (.err .notFound, s)

end Verif.Collections.Tree.Rbt
