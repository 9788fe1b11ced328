import Verif.Collections.Remove
/-! The fix-ups change neither the contents nor a black root; `remove_node_from_tree` of the red-black
tree. -/
namespace Verif.Collections.Tree
variable {α : Type}

theorem top_same (c : Ctx α) {t t' : T α} (h : t.black = t'.black) : (plug c t).black = (plug c t').black := by
  induction c generalizing t t' with
  | nil => exact h
  | cons f c ih => simp only [plug]; apply ih; cases f <;> rfl

theorem top_true (c : Ctx α) {t t' : T α} (h : (plug c t).black = true) (h' : t'.black = true) :
    (plug c t').black = true := by
  cases c with
  | nil => exact h'
  | cons f c => rw [← h]; simp only [plug]; apply top_same; cases f <;> rfl

theorem fill_black (f : Frame α) (t : T α) : (f.fill t).black = f.black := by cases f <;> rfl

theorem black_setBlack' (t : T α) : (t.setBlack true).black = true := by cases t <;> rfl

/-- The contents of a frame before and after its hole. -/
def loF : Frame α → List (Nat × α)
  | .L _ _ _ _ => []
  | .R _ l i d => l.items ++ [(i, d)]
def hiF : Frame α → List (Nat × α)
  | .L _ i d r => (i, d) :: r.items
  | .R _ _ _ _ => []

theorem lo_cons (f : Frame α) (c : Ctx α) : lo (f :: c) = lo c ++ loF f := by cases f <;> simp [lo, loF]
theorem hi_cons (f : Frame α) (c : Ctx α) : hi (f :: c) = hiF f ++ hi c := by cases f <;> simp [hi, hiF]

namespace Rbt

theorem loF_setBlack (b : Bool) (f : Frame α) : loF (f.setBlack b) = loF f := by cases f <;> rfl
theorem hiF_setBlack (b : Bool) (f : Frame α) : hiF (f.setBlack b) = hiF f := by cases f <;> rfl
theorem loF_sibBlack (b : Bool) (f : Frame α) : loF (sibBlack b f) = loF f := by
  cases f <;> simp [sibBlack, loF, items_setBlack]
theorem hiF_sibBlack (b : Bool) (f : Frame α) : hiF (sibBlack b f) = hiF f := by
  cases f <;> simp [sibBlack, hiF, items_setBlack]

theorem items_fill (f : Frame α) (t : T α) : (f.fill t).items = loF f ++ (t.items ++ hiF f) := by
  cases f <;> simp [Frame.fill, T.items, loF, hiF]

theorem items_turn (g f : Frame α) (t : T α) (h : t ≠ .nil) :
    (turn g f t).items = (g.fill (f.fill t)).items := by
  cases g <;> cases f <;> cases t <;> simp [turn, Frame.fill, T.items] at *

theorem black_turn (g f : Frame α) (t : T α) : (turn g f t).black = true := by
  cases g <;> cases f <;> cases t <;> simp [turn]

/-- `fixup_add` keeps contents and a black root, and does not panic. -/
theorem fixAdd_spec : ∀ (n : Nat) (c : Ctx α) (t : T α), c.length ≤ n → t ≠ .nil →
    (c = [] ∨ (plug c t).black = true) →
    ∃ t', fixAdd c t = some t' ∧ t'.items = (plug c t).items ∧ t'.black = true := by
  intro n
  induction n with
  | zero =>
    intro c t hc ht hb
    cases c with
    | nil => exact ⟨_, rfl, items_setBlack _ _, black_setBlack' _⟩
    | cons f c => simp at hc
  | succ n ih =>
    intro c t hc ht hb
    match c with
    | [] => exact ⟨_, rfl, items_setBlack _ _, black_setBlack' _⟩
    | [f] =>
      simp only [reduceCtorEq, false_or, plug, fill_black] at hb
      exact ⟨_, by simp [fixAdd, hb], rfl, by simpa [plug, fill_black] using hb⟩
    | f :: g :: c =>
      simp only [reduceCtorEq, false_or] at hb
      simp only [fixAdd]
      by_cases hf : f.black = true
      · exact ⟨_, by rw [if_pos hf], rfl, hb⟩
      · rw [if_neg hf]
        by_cases hg : g.sib.black = true
        · refine ⟨_, by rw [if_pos hg], ?_, ?_⟩
          · rw [items_plug, items_turn g f t ht]; simp only [plug]; rw [items_plug]
          · exact top_true c hb (black_turn g f t)
        · rw [if_neg hg]
          obtain ⟨t', h1, h2, h3⟩ := ih c ((sibBlack true (g.setBlack false)).fill ((f.setBlack true).fill t))
            (by simp at hc; omega) (by cases g <;> simp [sibBlack, Frame.setBlack, Frame.fill]) (by
              cases c with
              | nil => exact .inl rfl
              | cons f2 c => right; rw [← hb]; simp only [plug]; apply top_same; cases f2 <;> rfl)
          refine ⟨t', h1, ?_, h3⟩
          rw [h2, items_plug]
          simp only [plug]
          rw [items_plug]
          simp [items_fill, loF_sibBlack, hiF_sibBlack, loF_setBlack, hiF_setBlack]

theorem inner_loF (f : Frame α) : loF (inner f) = loF f := by
  unfold inner; split
  · split <;> rfl
  · split <;> simp [loF, T.items]
  · rfl
theorem inner_hiF (f : Frame α) : hiF (inner f) = hiF f := by
  unfold inner; split
  · split <;> simp [hiF, T.items]
  · split <;> rfl
  · rfl
theorem inner_black (f : Frame α) : (inner f).black = f.black := by
  unfold inner; split
  · split <;> rfl
  · split <;> rfl
  · rfl

theorem outer_lo (f : Frame α) (c : Ctx α) : lo (outer f ++ c) = lo c ++ loF f := by
  unfold outer; split <;> simp [lo, loF, lo_cons, T.items, items_setBlack]
theorem outer_hi (f : Frame α) (c : Ctx α) : hi (outer f ++ c) = hiF f ++ hi c := by
  unfold outer; split <;> simp [hi, hiF, hi_cons, T.items, items_setBlack]
theorem outer_black (f : Frame α) (t : T α) : (plug (outer f) t).black = f.black := by
  unfold outer; split
  · rfl
  · rfl
  · exact fill_black _ _

theorem redSib_lo (f : Frame α) (c : Ctx α) : lo ((redSib f).2 ++ c) ++ loF (redSib f).1 = lo c ++ loF f := by
  unfold redSib; split <;> simp [lo, loF, T.items]
theorem redSib_hi (f : Frame α) (c : Ctx α) : hiF (redSib f).1 ++ hi ((redSib f).2 ++ c) = hiF f ++ hi c := by
  unfold redSib; split <;> simp [hi, hiF, T.items]
theorem redSib_top (f : Frame α) (h : f.sib.black = false) :
    ∃ g, (redSib f).2 = [g] ∧ g.black = true := by
  cases f with
  | L b i d r => cases r with
    | nil => simp [Frame.sib] at h
    | node => exact ⟨_, rfl, rfl⟩
  | R b l i d => cases l with
    | nil => simp [Frame.sib] at h
    | node => exact ⟨_, rfl, rfl⟩

/-- `fixup_delete` keeps the contents. -/
theorem fixDel_items (c : Ctx α) : lo (fixDel c).2 = lo c ∧ hi (fixDel c).2 = hi c := by
  induction c with
  | nil => exact ⟨rfl, rfl⟩
  | cons f c ih =>
    obtain ⟨i1, i2⟩ := ih
    unfold fixDel
    by_cases hs : f.sib.black = true
    · rw [if_pos hs]
      simp only [rest]
      split
      · split
        · split <;> simp [lo_cons, hi_cons, i1, i2, loF_sibBlack, hiF_sibBlack, loF_setBlack, hiF_setBlack]
        · simp [lo_cons, hi_cons, loF_sibBlack, hiF_sibBlack, loF_setBlack, hiF_setBlack]
      · simp [outer_lo, outer_hi, inner_loF, inner_hiF, lo_cons, hi_cons]
    · rw [if_neg hs]
      have hs' : f.sib.black = false := by simpa using hs
      simp only [rest, redSib_red f hs', Bool.false_eq_true, if_false]
      split
      · simp [lo_cons, hi_cons, loF_sibBlack, hiF_sibBlack, loF_setBlack, hiF_setBlack, redSib_lo]
        exact redSib_hi f c
      · rw [outer_lo, outer_hi, inner_loF, inner_hiF, redSib_lo, redSib_hi, lo_cons, hi_cons]
        exact ⟨rfl, rfl⟩

/-- `fixup_delete` keeps a black root. -/
theorem fixDel_black (c : Ctx α) : ∀ t : T α, (plug c t).black = true →
    (plug (fixDel c).2 (if (fixDel c).1 then t.setBlack true else t)).black = true := by
  induction c with
  | nil => intro t _; exact black_setBlack' t
  | cons f c ih =>
    intro t ht
    unfold fixDel
    have hloc : ∀ c' : Ctx α, ∀ t' : T α, (plug c' t').black = f.black → (plug (c' ++ c) t').black = true := by
      intro c' t' e
      rw [plug_append, ← ht, plug]
      apply top_same
      rw [e, fill_black]
    by_cases hs : f.sib.black = true
    · rw [if_pos hs]
      simp only [rest, Bool.false_eq_true, if_false]
      split
      · split
        · rw [plug_paint]
          apply ih
          rw [← ht, plug]
          apply top_same
          simp [fill_black, black_sibBlack]
        · rename_i hfb
          refine top_true c (t := f.fill t) ht ?_
          simp [fill_black, black_setBlack_frame]
      · exact hloc _ _ (by rw [outer_black, inner_black])
    · rw [if_neg hs]
      have hs' : f.sib.black = false := by simpa using hs
      obtain ⟨g, hg, hgb⟩ := redSib_top f hs'
      simp only [rest, redSib_red f hs', Bool.false_eq_true, if_false, hg]
      split
      · exact top_true c (t := f.fill t) ht (by simp [fill_black, hgb])
      · rw [plug_append]
        exact top_true c (t := f.fill t) ht (by simp [fill_black, hgb])

theorem storeMoved_eq : (@storeMoved α) = Bst.storeMoved := rfl
theorem storeSwapped_eq : (@storeSwapped α) = Bst.storeSwapped := rfl

/-- Painting and repairing after the removal of a node. -/
theorem finish_ok {h : Heap α} {c : Ctx α} {t : T α} {fuel i : Nat} (hh : Holds h (plug c t))
    (hf : c.length < fuel) :
    ∃ h' t', finish fuel h i t.root = .ok h' ∧ Moves h (plug c t) h' t' ∧ t'.items = (plug c t).items ∧
      (((plug c t).black = true ∨ c = [] ∧ (h.mem i).black = true) → t'.black = true) := by
  unfold finish
  split
  · rename_i hb
    cases ht : t.root with
    | none =>
      have : t = .nil := root_isNone.1 (by simp [ht])
      subst this
      refine ⟨h, _, by cases fuel <;> rfl, .refl hh, rfl, ?_⟩
      rintro (e | ⟨e, _⟩)
      · exact e
      · subst e; rfl
    | some n =>
      obtain ⟨h', e1, e2⟩ := fixupDelete_ok fuel h c t n ht hh hf
      refine ⟨h', _, e1, e2, ?_, ?_⟩
      · rw [items_plug, (fixDel_items c).1, (fixDel_items c).2, items_plug]
        split <;> simp [items_setBlack]
      · rintro (e | ⟨e, _⟩)
        · exact fixDel_black c t e
        · subst e; exact black_setBlack' _
  · rename_i hb
    exact ⟨h, _, rfl, .refl hh, rfl, fun e => e.elim id (fun e => absurd e.2 hb)⟩

theorem removeLeaf_ok {h : Heap α} {c : Ctx α} {b : Bool} {i : Nat} {d : α} {fuel : Nat}
    (hh : Holds h (plug c (.node b .nil i d .nil))) (hf : (plug c (.node b .nil i d .nil)).size ≤ fuel)
    (hb : (plug c (.node b .nil i d .nil)).black = true) :
    ∃ h', removeNode h fuel i = .ok h' ∧
      Removed h (plug c (.node b .nil i d .nil)) i h' (plug (fixDel c).2 .nil) ∧
      (plug (fixDel c).2 (.nil : T α)).black = true := by
  have hcell := read_focus hh
  have hsz := length_le_size c (.node b .nil i d .nil)
  have hcond2 : ((h.mem i).left.isNone && (h.mem i).right.isNone) = true := by rw [hcell]; rfl
  unfold removeNode
  rw [if_pos hcond2]
  obtain ⟨h1, g1, g2⟩ := fixupDelete_ok fuel h c (.node b .nil i d .nil) i rfl hh (by simp [T.size] at hsz; omega)
  have hpaint : (if (fixDel c).1 then (T.node b .nil i d .nil).setBlack true else .node b .nil i d .nil) =
      .node (b || (fixDel c).1) .nil i d .nil := by
    cases (fixDel c).1 <;> simp [T.setBlack]
  have hblk := fixDel_black c _ hb
  rw [hpaint] at g2 hblk
  simp only [g1]
  obtain ⟨u1, u2, u3⟩ := removeOne_ok true g2.holds (.inl rfl)
  have hit := items_remove (fixDel c).2 (b || (fixDel c).1) .nil i d .nil (.inl rfl)
  have hse : storeEmpty { h1 with mem := (removeZeroOrOne true h1.mem i).1 } i =
      Bst.storeMoved { mem := (removeZeroOrOne true h1.mem i).1, root := h1.root } i
        (removeZeroOrOne true h1.mem i).2 := by
    obtain ⟨w, _⟩ := remove_ok true g2.holds (.inl rfl)
    rw [w]
    rfl
  rw [hse]
  refine ⟨_, rfl, ⟨u1, fun j hj => ?_, ?_⟩, ?_⟩
  · rw [u2 j, g2.frame j hj]
    intro hm
    apply hj
    exact (g2.perm.mem_iff).1 ((mem_of_items hit.1 hit.2).2 (.inr hm))
  · have hit2 : (plug (fixDel c).2 (.nil : T α)).items = lo c ++ hi c := by
      rw [items_plug, (fixDel_items c).1, (fixDel_items c).2]; rfl
    rw [hit2, items_plug]
    exact ⟨lo c, hi c, d, by simp [T.items], rfl⟩
  · exact top_true _ hblk rfl

theorem removeNode_ok {h : Heap α} {c : Ctx α} {b : Bool} {l : T α} {i : Nat} {d : α} {r : T α} {fuel : Nat}
    (hh : Holds h (plug c (.node b l i d r))) (hf : (plug c (.node b l i d r)).size ≤ fuel)
    (hb : (plug c (.node b l i d r)).black = true) :
    ∃ h' t', removeNode h fuel i = .ok h' ∧ Removed h (plug c (.node b l i d r)) i h' t' ∧ t'.black = true := by
  have hcell := read_focus hh
  have e2 : (h.mem i).left = l.root := by rw [hcell]
  have e3 : (h.mem i).right = r.root := by rw [hcell]
  have hsz := length_le_size c (.node b l i d r)
  have hcond : ((h.mem i).left.isNone || (h.mem i).right.isNone) = true ↔ l = .nil ∨ r = .nil := by
    rw [e2, e3, Bool.or_eq_true, root_isNone, root_isNone]
  have hcond2 : ((h.mem i).left.isNone && (h.mem i).right.isNone) = true ↔ l = .nil ∧ r = .nil := by
    rw [e2, e3, Bool.and_eq_true, root_isNone, root_isNone]
  unfold removeNode
  by_cases hleaf : l = .nil ∧ r = .nil
  · rw [if_pos (hcond2.2 hleaf)]
    obtain ⟨rfl, rfl⟩ := hleaf
    obtain ⟨h', e1, e2, e3⟩ := removeLeaf_ok hh hf hb
    rw [removeNode, if_pos (hcond2.2 ⟨rfl, rfl⟩)] at e1
    exact ⟨h', _, e1, e2, e3⟩
  · rw [if_neg (fun e => hleaf (hcond2.1 e))]
    by_cases hlr : l = .nil ∨ r = .nil
    · rw [if_pos (hcond.2 hlr)]
      obtain ⟨u1, u2, u3⟩ := removeOne_ok true hh hlr
      have hit := items_remove c b l i d r hlr
      obtain ⟨w, _⟩ := remove_ok true hh hlr
      have hck : ((Bst.storeMoved { mem := (removeZeroOrOne true h.mem i).1, root := h.root } i
        (removeZeroOrOne true h.mem i).2).mem i).black = b := by rw [u2 i u3, hcell]
      rw [storeMoved_eq]
      have hroot : (removeZeroOrOne true h.mem i).2 = (only l r).root := by rw [w]
      obtain ⟨h', t', f1, f2, f3, f4⟩ := finish_ok (fuel := fuel) (i := i) u1 (by simp [T.size] at hsz; omega)
      refine ⟨h', t', by simp only []; rw [← f1, hroot], ⟨f2.holds, fun j hj => ?_, ?_⟩, f4 ?_⟩
      · have hj2 : j ∉ (plug c (only l r)).addrs := fun hm => hj ((mem_of_items hit.1 hit.2).2 (.inr hm))
        rw [f2.frame j hj2, u2 j hj2]
      · rw [f3, hit.2]; exact ⟨_, _, d, hit.1, rfl⟩
      · rw [hck]
        cases c with
        | nil => exact .inr ⟨rfl, hb⟩
        | cons f c =>
          left
          rw [← hb]; simp only [plug]; apply top_same; cases f <;> rfl
    · rw [if_neg (fun e => hlr (hcond.1 e))]
      rw [not_or] at hlr
      obtain ⟨p, sb, s, sd, sr, er, hlo, hmin⟩ := find_min hlr.2
      have hok := ((Ok_plug _ _ _).1 hh.ok).2.2.2
      have hrr : ∃ n, r.root = some n := by
        cases r with
        | nil => exact absurd rfl hlr.2
        | node rb rl ri rd rr => exact ⟨ri, rfl⟩
      obtain ⟨n, hn⟩ := hrr
      have hh1 := height_le_size r
      have hs : successor h.mem fuel i = .ok (some s) := by
        unfold successor
        rw [e3, hn]
        simp only []
        rw [hmin h.mem _ fuel n hok hn (by simp only [T.size] at hsz; omega)]
        rfl
      simp only [hs]
      have hpe : plug c (.node b l i d r) = plug (p ++ .R b l i d :: c) (.node sb .nil s sd sr) := by
        rw [plug_append, ← er]; rfl
      have hh2 : Holds h (plug (p ++ .R b l i d :: c) (.node sb .nil s sd sr)) := hpe ▸ hh
      obtain ⟨g1, g2⟩ := swapTop_ok hh2
      have hit := items_remove (p ++ .R b l s sd :: c) sb .nil i d sr (.inl rfl)
      obtain ⟨u1, u2⟩ := remove_ok true g1 (.inl rfl)
      have hh3 : Holds { (Bst.storeSwapped { mem := swap h.mem i s, root := h.root } s) with
          mem := (removeZeroOrOne true (Bst.storeSwapped { mem := swap h.mem i s, root := h.root } s).mem i).1 }
          (plug (p ++ .R b l s sd :: c) (only .nil sr)) := by
        refine ⟨?_, u2.ok, (nodup_of_items hit.1 hit.2 g1.nodup).1⟩
        simp only []
        rw [g1.root]
        cases p with
        | nil => exact root_plug_ne _ _ _ _
        | cons f p => exact root_plug_ne _ _ _ _
      have hlen := length_le_size (p ++ .R b l i d :: c) (.node sb .nil s sd sr)
      rw [← hpe] at hlen
      obtain ⟨h', t', f1, f2, f3, f4⟩ := finish_ok (fuel := fuel) (i := i) hh3 (by
        simp [T.size] at hlen ⊢; omega)
      refine ⟨h', t', ?_, ⟨f2.holds, fun j hj => ?_, ?_⟩, f4 (.inl ?_)⟩
      · rw [storeSwapped_eq]; rw [← f1]; simp only [u1]
      · rw [hpe] at hj
        have hj2 : j ∉ (plug (p ++ .R b l s sd :: c) (only .nil sr)).addrs := by
          intro hm
          apply hj
          rw [mem_plug, ctxAddrs_append] at hm ⊢
          simp only [ctxAddrs, T.addrs, only, Frame.addr, Frame.sib, List.mem_append, List.mem_cons,
            List.nil_append] at hm ⊢
          grind
        rw [f2.frame j hj2]
        simp only []
        rw [u2.frame j hj2, g2 j hj]
      · refine ⟨lo c ++ l.items, r.items ++ hi c, d, by simp [items_plug, T.items], ?_⟩
        rw [f3, hit.2, er, items_plug]
        simp [lo_append, hi_append, lo, hi, hlo, T.items]
      · rw [plug_append, plug, ← hb]; apply top_same; rfl

end Rbt
end Verif.Collections.Tree
