import Verif.Collections.Swap
import Verif.Collections.FixDel
/-! The contents of trees in order, and `remove_node_from_tree` of both trees. -/
namespace Verif.Collections.Tree
variable {α : Type}

/-- The contents before and after a subtree. -/
def lo : Ctx α → List (Nat × α)
  | [] => []
  | .L _ _ _ _ :: c => lo c
  | .R _ l i d :: c => lo c ++ (l.items ++ [(i, d)])
def hi : Ctx α → List (Nat × α)
  | [] => []
  | .L _ i d r :: c => (i, d) :: r.items ++ hi c
  | .R _ _ _ _ :: c => hi c

theorem items_plug (c : Ctx α) (t : T α) : (plug c t).items = lo c ++ (t.items ++ hi c) := by
  induction c generalizing t with
  | nil => simp [plug, lo, hi]
  | cons f c ih => cases f <;> simp [plug, ih, lo, hi, Frame.fill, T.items]

theorem lo_append (c c2 : Ctx α) : lo (c ++ c2) = lo c2 ++ lo c := by
  induction c with
  | nil => simp [lo]
  | cons f c ih => cases f <;> simp [lo, ih]

theorem hi_append (c c2 : Ctx α) : hi (c ++ c2) = hi c ++ hi c2 := by
  induction c with
  | nil => simp [hi]
  | cons f c ih => cases f <;> simp [hi, ih]

theorem addrs_eq (t : T α) : t.addrs = t.items.map (·.1) := by
  induction t with
  | nil => rfl
  | node b l i d r ihl ihr => simp [T.addrs, T.items, ihl, ihr]

theorem size_eq (t : T α) : t.size = t.items.length := by
  induction t with
  | nil => rfl
  | node b l i d r ihl ihr => simp [T.size, T.items, ihl, ihr]; omega

theorem size_addrs (t : T α) : t.size = t.addrs.length := by rw [size_eq, addrs_eq]; simp

theorem items_setBlack (b : Bool) (t : T α) : (t.setBlack b).items = t.items := by cases t <;> rfl

theorem height_le_size (t : T α) : t.height ≤ t.size := by
  induction t with
  | nil => simp [T.height, T.size]
  | node b l i d r ihl ihr => simp only [T.height, T.size]; omega

theorem length_le_size (c : Ctx α) (t : T α) : c.length + t.size ≤ (plug c t).size := by
  induction c generalizing t with
  | nil => simp [plug]
  | cons f c ih =>
    have := ih (f.fill t)
    cases f <;> simp [plug, Frame.fill, T.size] at * <;> omega

/-- Every node of a tree is at the end of some path. -/
theorem find_addr {t : T α} {i : Nat} (h : i ∈ t.addrs) :
    ∃ c b l d r, t = plug c (.node b l i d r) := by
  suffices H : ∀ (t : T α) (c0 : Ctx α), i ∈ t.addrs → ∃ c b l d r, plug c0 t = plug c (.node b l i d r) by
    exact H t [] h
  intro t
  induction t with
  | nil => intro c0 h; simp [T.addrs] at h
  | node b l j d r ihl ihr =>
    intro c0 h
    simp only [T.addrs, List.mem_append, List.mem_cons] at h
    rcases h with h | h | h
    · exact ihl (.L b j d r :: c0) h
    · subst h; exact ⟨c0, b, l, d, r, rfl⟩
    · exact ihr (.R b l j d :: c0) h

/-- The leftmost node of a tree, as a path, and `leftmost` finds it. -/
theorem find_min {t : T α} (h : t ≠ .nil) :
    ∃ p sb s sd sr, t = plug p (.node sb .nil s sd sr) ∧ lo p = [] ∧
      ∀ (m : Mem α) (q : Option Nat) (fuel n : Nat), Ok m q t → t.root = some n → t.height ≤ fuel →
        leftmost m fuel n = .ok s := by
  induction t with
  | nil => exact absurd rfl h
  | node b l i d r ihl ihr =>
    cases l with
    | nil =>
      refine ⟨[], b, i, d, r, rfl, rfl, fun m q fuel n ho hr hf => ?_⟩
      simp at hr; subst hr
      cases fuel with
      | zero => simp [T.height] at hf
      | succ k => simp [leftmost, ho.1]
    | node lb ll li ld lr =>
      obtain ⟨p, sb, s, sd, sr, e, hlo, hm⟩ := ihl (by simp)
      refine ⟨p ++ [.L b i d r], sb, s, sd, sr, ?_, ?_, fun m q fuel n ho hr hf => ?_⟩
      · rw [plug_append, ← e]; rfl
      · rw [lo_append, hlo]; rfl
      · simp at hr; subst hr
        cases fuel with
        | zero => simp [T.height] at hf
        | succ k =>
          simp only [leftmost, ho.1, root_node]
          exact hm m (some i) k li ho.2.1 rfl (by simp only [T.height] at hf ⊢; omega)

/-- The rightmost node of a tree. -/
theorem find_max {t : T α} (h : t ≠ .nil) :
    ∃ p sb s sd sl, t = plug p (.node sb sl s sd .nil) ∧ hi p = [] ∧
      ∀ (m : Mem α) (q : Option Nat) (fuel n : Nat), Ok m q t → t.root = some n → t.height ≤ fuel →
        rightmost m fuel n = .ok s := by
  induction t with
  | nil => exact absurd rfl h
  | node b l i d r ihl ihr =>
    cases r with
    | nil =>
      refine ⟨[], b, i, d, l, rfl, rfl, fun m q fuel n ho hr hf => ?_⟩
      simp at hr; subst hr
      cases fuel with
      | zero => simp [T.height] at hf
      | succ k => simp [rightmost, ho.1]
    | node rb rl ri rd rr =>
      obtain ⟨p, sb, s, sd, sl, e, hlo, hm⟩ := ihr (by simp)
      refine ⟨p ++ [.R b l i d], sb, s, sd, sl, ?_, ?_, fun m q fuel n ho hr hf => ?_⟩
      · rw [plug_append, ← e]; rfl
      · rw [hi_append, hlo]; rfl
      · simp at hr; subst hr
        cases fuel with
        | zero => simp [T.height] at hf
        | succ k =>
          simp only [rightmost, ho.1, root_node]
          exact hm m (some i) k ri ho.2.2 rfl (by simp only [T.height] at hf ⊢; omega)

/-- The result of removing slot `i` from `t`: the contents before it and after it. -/
structure Removed (h : Heap α) (t : T α) (i : Nat) (h' : Heap α) (t' : T α) : Prop where
  holds : Holds h' t'
  frame : ∀ j, j ∉ t.addrs → h'.mem j = h.mem j
  items : ∃ A B d, t.items = A ++ (i, d) :: B ∧ t'.items = A ++ B

theorem nodup_of_items {t t' : T α} {i : Nat} {A B : List (Nat × α)} {d : α} (h1 : t.items = A ++ (i, d) :: B)
    (h2 : t'.items = A ++ B) (hn : t.addrs.Nodup) : t'.addrs.Nodup ∧ i ∉ t'.addrs := by
  rw [addrs_eq, h1] at hn
  rw [addrs_eq, h2]
  simp only [List.map_append, List.map_cons, List.nodup_append, List.nodup_cons, List.mem_append] at *
  grind

theorem mem_of_items {t t' : T α} {i j : Nat} {A B : List (Nat × α)} {d : α} (h1 : t.items = A ++ (i, d) :: B)
    (h2 : t'.items = A ++ B) : j ∈ t.addrs ↔ j = i ∨ j ∈ t'.addrs := by
  rw [addrs_eq, addrs_eq, h1, h2]
  simp only [List.map_append, List.map_cons, List.mem_append, List.mem_cons]
  grind

theorem items_remove (c : Ctx α) (b : Bool) (l : T α) (i : Nat) (d : α) (r : T α) (hlr : l = .nil ∨ r = .nil) :
    (plug c (.node b l i d r)).items = (lo c ++ l.items) ++ (i, d) :: (r.items ++ hi c) ∧
    (plug c (only l r)).items = (lo c ++ l.items) ++ (r.items ++ hi c) := by
  rw [items_plug, items_plug]
  rcases hlr with e | e
  · subst e; simp [T.items, only]
  · subst e; cases l <;> simp [T.items, only]

/-- Removing a node with at most one child, with the root store. -/
theorem removeOne_ok (strict : Bool) {h : Heap α} {c : Ctx α} {b : Bool} {l : T α} {i : Nat} {d : α} {r : T α}
    (hh : Holds h (plug c (.node b l i d r))) (hlr : l = .nil ∨ r = .nil) :
    Holds (Bst.storeMoved { mem := (removeZeroOrOne strict h.mem i).1, root := h.root } i
      (removeZeroOrOne strict h.mem i).2) (plug c (only l r)) ∧
    (∀ j, j ∉ (plug c (only l r)).addrs →
      (Bst.storeMoved { mem := (removeZeroOrOne strict h.mem i).1, root := h.root } i
        (removeZeroOrOne strict h.mem i).2).mem j = h.mem j) ∧
    i ∉ (plug c (only l r)).addrs := by
  obtain ⟨h1, h2⟩ := remove_ok strict hh hlr
  have hi := items_remove c b l i d r hlr
  have hnd := nodup_of_items hi.1 hi.2 hh.nodup
  rw [h1]
  have := storeMoved_ok (c := c) (b := b) (l := l) (d := d) (r := r) (by rw [read_focus hh]) h2 hnd.2
    (rt := h.root) hh.root hnd.1
  exact ⟨this.1, this.2, hnd.2⟩

/-- The swap with the successor, with the root store. -/
theorem swapTop_ok {h : Heap α} {c p : Ctx α} {b sb : Bool} {l sr : T α} {i s : Nat} {d sd : α}
    (hh : Holds h (plug (p ++ .R b l i d :: c) (.node sb .nil s sd sr))) :
    Holds (Bst.storeSwapped { mem := swap h.mem i s, root := h.root } s)
      (plug (p ++ .R b l s sd :: c) (.node sb .nil i d sr)) ∧
    ∀ j, j ∉ (plug (p ++ .R b l i d :: c) (.node sb .nil s sd sr)).addrs →
      (Bst.storeSwapped { mem := swap h.mem i s, root := h.root } s).mem j = h.mem j := by
  obtain ⟨h1, h2⟩ := swap_ok hh
  have hs : (swap h.mem i s s).parent = par c := by
    have := ((Ok_plug _ _ _).1 h1).1
    rw [OkCtx_append, OkCtx] at this
    rw [this.2.1]
  have hnd : (plug (p ++ .R b l s sd :: c) (.node sb .nil i d sr)).addrs.Nodup := by
    have hn := hh.nodup
    refine List.Perm.nodup_iff ?_ |>.2 hn
    refine (perm_plug _ _).trans (List.Perm.trans ?_ (perm_plug _ _).symm)
    rw [List.perm_iff_count]; intro a
    simp only [ctxAddrs_append, ctxAddrs, T.addrs, Frame.addr, Frame.sib, List.count_append, List.count_cons,
      List.count_nil]
    omega
  unfold Bst.storeSwapped
  simp only [hs]
  cases c with
  | nil =>
    have : (swap h.mem i s s).parent = none := hs
    simp only [par, if_true, Rbt.setParent_self this]
    refine ⟨⟨?_, h1, hnd⟩, h2⟩
    simp only []; rw [plug_append]; rfl
  | cons f c =>
    simp only [par, reduceCtorEq, if_false]
    refine ⟨⟨?_, h1, hnd⟩, h2⟩
    simp only []
    rw [hh.root, plug_append, plug_append, plug, plug]
    exact root_plug_ne f c _ _

theorem not_nil_of_isSome {t : T α} (h : t.root.isSome = true) : t ≠ .nil := by
  cases t with
  | nil => simp at h
  | node => simp

theorem root_isNone {t : T α} : t.root.isNone = true ↔ t = .nil := by
  cases t <;> simp

theorem Bst.removeNode_ok {h : Heap α} {c : Ctx α} {b : Bool} {l : T α} {i : Nat} {d : α} {r : T α} {fuel : Nat}
    (hh : Holds h (plug c (.node b l i d r))) (hf : (plug c (.node b l i d r)).size ≤ fuel) :
    ∃ h' t', Bst.removeNode h fuel i = .ok h' ∧ Removed h (plug c (.node b l i d r)) i h' t' := by
  have hcell := read_focus hh
  have e2 : (h.mem i).left = l.root := by rw [hcell]
  have e3 : (h.mem i).right = r.root := by rw [hcell]
  unfold Bst.removeNode
  have hcond : ((h.mem i).left.isNone || (h.mem i).right.isNone) = true ↔ l = .nil ∨ r = .nil := by
    rw [e2, e3, Bool.or_eq_true, root_isNone, root_isNone]
  by_cases hlr : l = .nil ∨ r = .nil
  · rw [if_pos (hcond.2 hlr)]
    obtain ⟨h1, h2, h3⟩ := removeOne_ok false hh hlr
    have hit := items_remove c b l i d r hlr
    refine ⟨_, _, rfl, h1, fun j hj => h2 j ?_, ⟨_, _, _, hit.1, hit.2⟩⟩
    rw [mem_of_items hit.1 hit.2, not_or] at hj
    exact hj.2
  · rw [if_neg (fun e => hlr (hcond.1 e))]
    rw [not_or] at hlr
    obtain ⟨p, sb, s, sd, sr, er, hlo, hmin⟩ := find_min hlr.2
    have hok := ((Ok_plug _ _ _).1 hh.ok).2.2.2
    have hrr : ∃ n, r.root = some n := by
      cases r with
      | nil => exact absurd rfl hlr.2
      | node rb rl ri rd rr => exact ⟨ri, rfl⟩
    obtain ⟨n, hn⟩ := hrr
    have hsz := length_le_size c (.node b l i d r)
    have hh1 := height_le_size r
    have hs : successor h.mem fuel i = .ok (some s) := by
      unfold successor
      rw [e3, hn]
      simp only []
      rw [hmin h.mem _ fuel n hok hn (by simp only [T.size] at hsz; omega)]
      rfl
    simp only [hs]
    have hh2 : Holds h (plug (p ++ .R b l i d :: c) (.node sb .nil s sd sr)) := by
      rw [plug_append, ← er]; exact hh
    obtain ⟨g1, g2⟩ := swapTop_ok hh2
    have hit := items_remove (p ++ .R b l s sd :: c) sb .nil i d sr (.inl rfl)
    obtain ⟨u1, u2⟩ := remove_ok false g1 (.inl rfl)
    refine ⟨_, _, rfl, ⟨?_, u2.ok, (nodup_of_items hit.1 hit.2 g1.nodup).1⟩, ?_, ?_⟩
    · simp only []
      rw [g1.root]
      cases p with
      | nil => exact root_plug_ne _ _ _ _
      | cons f p => exact root_plug_ne _ _ _ _
    · intro j hj
      have hpe : plug c (.node b l i d r) = plug (p ++ .R b l i d :: c) (.node sb .nil s sd sr) := by
        rw [plug_append, ← er]; rfl
      rw [hpe] at hj
      simp only []
      rw [u2.frame j ?_, g2 j hj]
      intro hm
      apply hj
      rw [mem_plug, ctxAddrs_append] at hm ⊢
      simp only [ctxAddrs, T.addrs, only, Frame.addr, Frame.sib, List.mem_append, List.mem_cons, List.nil_append] at hm ⊢
      grind
    · refine ⟨lo c ++ l.items, r.items ++ hi c, d, by simp [items_plug, T.items], ?_⟩
      rw [hit.2, er, items_plug]
      simp [lo_append, hi_append, lo, hi, hlo, T.items]

end Verif.Collections.Tree
