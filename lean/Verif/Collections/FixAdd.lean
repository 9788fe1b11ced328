import Verif.Collections.Moves
/-! `fixup_add` on trees, and the pointer code does that. -/
namespace Verif.Collections.Tree.Rbt
variable {α : Type}

/-- The subtree after cases 4 and 5: parent frame `f` inside grandparent frame `g`, black uncle. -/
def turn (g f : Frame α) (t : T α) : T α :=
  match g, f, t with
  | .L _ gi gd u, .R pb a pi pd, .node _ b ni nd e =>
    .node true (.node pb a pi pd b) ni nd (.node false e gi gd u)
  | .L _ gi gd u, .L _ pi pd e, t => .node true t pi pd (.node false e gi gd u)
  | .R _ u gi gd, .L pb pi pd e, .node _ a ni nd b =>
    .node true (.node false u gi gd a) ni nd (.node pb b pi pd e)
  | .R _ u gi gd, .R _ e pi pd, t => .node true (.node false u gi gd e) pi pd t
  | _, _, .nil => .nil

/-- Case 3: the grandparent frame with a black sibling. -/
def sibBlack (b : Bool) : Frame α → Frame α
  | .L c i d r => .L c i d (r.setBlack b)
  | .R c l i d => .R c (l.setBlack b) i d

/-- `fixup_add` for the node `t` at path `c`; `none` where the code panics. -/
def fixAdd : Ctx α → T α → Option (T α)
  | [], t => some (t.setBlack true)
  | [f], t => if f.black then some (plug [f] t) else none
  | f :: g :: c, t =>
    if f.black then some (plug (f :: g :: c) t)
    else if g.sib.black then some (plug c (turn g f t))
    else fixAdd c ((sibBlack true (g.setBlack false)).fill ((f.setBlack true).fill t))

theorem recolor_frame {h : Heap α} {f : Frame α} {c : Ctx α} {t : T α} (b : Bool)
    (hh : Holds h (plug (f :: c) t)) :
    Moves h (plug (f :: c) t) { h with mem := setBlack h.mem f.addr b } (plug (f.setBlack b :: c) t) := by
  cases f with
  | L b0 i d r => exact recolor_node (c := c) (l := t) (r := r) (d := d) (b0 := b0) b hh
  | R b0 l i d => exact recolor_node (c := c) (l := l) (r := t) (d := d) (b0 := b0) b hh

theorem recolor_sib {h : Heap α} {f : Frame α} {c : Ctx α} {t : T α} (b : Bool)
    (hh : Holds h (plug (f :: c) t)) :
    Moves h (plug (f :: c) t) { h with mem := setBlackO h.mem f.sib.root b } (plug (sibBlack b f :: c) t) := by
  cases f with
  | L b0 i d r => exact recolor (c := .R b0 t i d :: c) (t := r) b rfl hh
  | R b0 l i d => exact recolor (c := .L b0 i d t :: c) (t := l) b rfl hh

theorem blackO_sib {h : Heap α} {f : Frame α} {c : Ctx α} {t : T α}
    (hh : Holds h (plug (f :: c) t)) : blackO h.mem f.sib.root = f.sib.black := by
  cases f with
  | L b0 i d r => exact blackO_focus (c := .R b0 t i d :: c) (t := r) hh
  | R b0 l i d => exact blackO_focus (c := .L b0 i d t :: c) (t := l) hh

theorem read_parent {h : Heap α} {c : Ctx α} {t : T α} {n : Nat} (hh : Holds h (plug c t))
    (hn : t.root = some n) : (h.mem n).parent = par c := by
  cases t with
  | nil => simp at hn
  | node b l i d r => simp at hn; subst hn; rw [read_focus hh]

theorem read_frame_parent {h : Heap α} {f : Frame α} {c : Ctx α} {t : T α}
    (hh : Holds h (plug (f :: c) t)) : (h.mem f.addr).parent = par c :=
  read_parent (c := c) (t := f.fill t) hh (fill_root f t)

theorem read_frame_black {h : Heap α} {f : Frame α} {c : Ctx α} {t : T α}
    (hh : Holds h (plug (f :: c) t)) : (h.mem f.addr).black = f.black := by
  cases f with
  | L b i d r => exact congrArg Cell.black (read_focus (show Holds h (plug c (.node b t i d r)) from hh))
  | R b l i d => exact congrArg Cell.black (read_focus (show Holds h (plug c (.node b l i d t)) from hh))

theorem read_L {h : Heap α} {b : Bool} {i : Nat} {d : α} {r : T α} {c : Ctx α} {t : T α}
    (hh : Holds h (plug (.L b i d r :: c) t)) : h.mem i = ⟨d, b, par c, t.root, r.root⟩ :=
  read_focus (c := c) (l := t) (r := r) hh

theorem read_R {h : Heap α} {b : Bool} {i : Nat} {d : α} {l : T α} {c : Ctx α} {t : T α}
    (hh : Holds h (plug (.R b l i d :: c) t)) : h.mem i = ⟨d, b, par c, l.root, t.root⟩ :=
  read_focus (c := c) (l := l) (r := t) hh

/-- Recolouring at the end of cases 4 and 5. -/
theorem finish_top {h : Heap α} {c : Ctx α} {b1 b2 : Bool} {l : T α} {i : Nat} {d : α} {l2 : T α} {j : Nat}
    {d2 : α} {r2 : T α} (hh : Holds h (plug c (.node b1 l i d (.node b2 l2 j d2 r2)))) :
    Moves h (plug c (.node b1 l i d (.node b2 l2 j d2 r2)))
      { h with mem := setBlack (setBlack h.mem i true) j false }
      (plug c (.node true l i d (.node false l2 j d2 r2))) := by
  have h1 := recolor_node true hh
  have h2 := recolor_node (c := .R true l i d :: c) (b0 := b2) (l := l2) (i := j) (d := d2) (r := r2) false h1.holds
  exact h1.trans h2

theorem finish_top' {h : Heap α} {c : Ctx α} {b1 b2 : Bool} {r : T α} {i : Nat} {d : α} {l2 : T α} {j : Nat}
    {d2 : α} {r2 : T α} (hh : Holds h (plug c (.node b1 (.node b2 l2 j d2 r2) i d r))) :
    Moves h (plug c (.node b1 (.node b2 l2 j d2 r2) i d r))
      { h with mem := setBlack (setBlack h.mem i true) j false }
      (plug c (.node true (.node false l2 j d2 r2) i d r)) := by
  have h1 := recolor_node true hh
  have h2 := recolor_node (c := .L true i d r :: c) (b0 := b2) (l := l2) (i := j) (d := d2) (r := r2) false h1.holds
  exact h1.trans h2

theorem addLeft_ok {h : Heap α} {gb : Bool} {gi : Nat} {gd : α} {u : T α} {f : Frame α} {c : Ctx α} {t : T α}
    {n : Nat} (hn : t.root = some n) (hh : Holds h (plug (f :: .L gb gi gd u :: c) t)) :
    Moves h (plug (f :: .L gb gi gd u :: c) t) (addLeft h n f.addr gi) (plug c (turn (.L gb gi gd u) f t)) := by
  cases t with
  | nil => simp at hn
  | node nb b ni nd e =>
    simp at hn; subst hn
    cases f with
    | R pb a pi pd =>
      have hr := read_R hh
      simp only [root_node] at hr
      simp only [addLeft, Frame.addr, hr, if_true]
      have h1 := rotL_ok (c := .L gb gi gd u :: c) (bx := pb) (a := a) (x := pi) (dx := pd) (by_ := nb)
        (b := b) (y := ni) (dy := nd) (e := e) hh
      have h2 := rotR_ok (c := c) (bx := gb) (a := u) (x := gi) (dx := gd) (by_ := nb)
        (b := e) (y := ni) (dy := nd) (e := .node pb a pi pd b) h1.holds
      have h3 := finish_top h2.holds
      exact h1.trans (h2.trans h3)
    | L pb pi pd e' =>
      have hr := read_L hh
      have hs : e'.root ≠ some ni := sib_ne hh rfl
      simp only [root_node] at hr
      simp only [addLeft, Frame.addr, hr, hs, if_false]
      have h2 := rotR_ok (c := c) (bx := gb) (a := u) (x := gi) (dx := gd) (by_ := pb)
        (b := e') (y := pi) (dy := pd) (e := .node nb b ni nd e) hh
      have h3 := finish_top h2.holds
      exact h2.trans h3

theorem addRight_ok {h : Heap α} {gb : Bool} {gi : Nat} {gd : α} {u : T α} {f : Frame α} {c : Ctx α} {t : T α}
    {n : Nat} (hn : t.root = some n) (hh : Holds h (plug (f :: .R gb u gi gd :: c) t)) :
    Moves h (plug (f :: .R gb u gi gd :: c) t) (addRight h n f.addr gi) (plug c (turn (.R gb u gi gd) f t)) := by
  cases t with
  | nil => simp at hn
  | node nb a ni nd b =>
    simp at hn; subst hn
    cases f with
    | L pb pi pd e =>
      have hr := read_L hh
      simp only [root_node] at hr
      simp only [addRight, Frame.addr, hr, if_true]
      have h1 := rotR_ok (c := .R gb u gi gd :: c) (bx := pb) (a := e) (x := pi) (dx := pd) (by_ := nb)
        (b := b) (y := ni) (dy := nd) (e := a) hh
      have h2 := rotL_ok (c := c) (bx := gb) (a := u) (x := gi) (dx := gd) (by_ := nb)
        (b := a) (y := ni) (dy := nd) (e := .node pb b pi pd e) h1.holds
      have h3 := finish_top' h2.holds
      exact h1.trans (h2.trans h3)
    | R pb e' pi pd =>
      have hr := read_R hh
      have hs : e'.root ≠ some ni := sib_ne hh rfl
      simp only [root_node] at hr
      simp only [addRight, Frame.addr, hr, hs, if_false]
      have h2 := rotL_ok (c := c) (bx := gb) (a := u) (x := gi) (dx := gd) (by_ := pb)
        (b := e') (y := pi) (dy := pd) (e := .node nb a ni nd b) hh
      have h3 := finish_top' h2.holds
      exact h2.trans h3

theorem fixupAdd_ok (fuel : Nat) : ∀ (h : Heap α) (c : Ctx α) (t : T α) (n : Nat) (t' : T α),
    t.root = some n → Holds h (plug c t) → c.length < fuel → fixAdd c t = some t' →
    ∃ h', fixupAdd fuel h n = .ok h' ∧ Moves h (plug c t) h' t' := by
  induction fuel with
  | zero => intro h c t n t' _ _ hl; omega
  | succ k ih =>
    intro h c t n t' hn hh hl hf
    have hp := read_parent hh hn
    unfold fixupAdd
    match c, hh, hl, hf, hp with
    | [], hh, hl, hf, hp =>
      simp only [fixAdd, Option.some.injEq] at hf
      simp only [par] at hp
      subst hf
      refine ⟨_, by simp only [hp]; rfl, ?_⟩
      have := recolor (c := []) true hn hh
      exact this
    | [f], hh, hl, hf, hp =>
      have hb := read_frame_black hh
      simp only [par] at hp
      simp only [fixAdd] at hf
      simp only [hp, hb]
      by_cases hfb : f.black = true
      · simp only [hfb, if_true, Option.some.injEq] at hf ⊢
        subst hf
        exact ⟨_, rfl, Moves.refl hh⟩
      · simp [hfb] at hf
    | f :: g :: c, hh, hl, hf, hp =>
      have hb := read_frame_black hh
      simp only [par] at hp
      simp only [fixAdd] at hf
      simp only [hp, hb]
      by_cases hfb : f.black = true
      · simp only [hfb, if_true, Option.some.injEq] at hf ⊢
        subst hf
        exact ⟨_, rfl, Moves.refl hh⟩
      · simp only [hfb] at hf ⊢
        have hgp : (h.mem f.addr).parent = some g.addr := read_frame_parent hh
        have hh1 : Holds h (plug (g :: c) (f.fill t)) := hh
        have hsib := sibling_ok hh1 (fill_root f t)
        simp only [hgp, hsib]
        have hu := blackO_sib hh1
        rw [hu]
        by_cases hus : g.sib.black = true
        · simp only [hus, if_true] at hf ⊢
          simp only [Bool.false_eq_true, if_false, Option.some.injEq] at hf ⊢
          subst hf
          cases g with
          | L gb gi gd u =>
            have hg := read_L hh1
            have hl : (h.mem (Frame.L gb gi gd u).addr).left = some f.addr := by
              simp only [Frame.addr, hg, fill_root]
            simp only [hl, if_true]
            exact ⟨_, rfl, addLeft_ok hn hh⟩
          | R gb u gi gd =>
            have hg := read_R hh1
            have hne : u.root ≠ some f.addr := sib_ne hh1 (fill_root f t)
            have hl : (h.mem (Frame.R gb u gi gd).addr).left ≠ some f.addr := by
              simp only [Frame.addr, hg]; exact hne
            have hr : (h.mem (Frame.R gb u gi gd).addr).right = some f.addr := by
              simp only [Frame.addr, hg, fill_root]
            simp only [hl, hr, if_true, if_false]
            exact ⟨_, rfl, addRight_ok hn hh⟩
        · have hus' : g.sib.black = false := by simpa using hus
          simp only [hus'] at hf ⊢
          simp only [Bool.false_eq_true, if_false, if_true] at hf ⊢
          -- recolour parent, grandparent, uncle
          have m1 := recolor_frame true hh
          have m2 := recolor_frame (f := g) (c := c) (t := (f.setBlack true).fill t) false m1.holds
          have m3 := recolor_sib (f := g.setBlack false) (c := c) (t := (f.setBlack true).fill t) true m2.holds
          have ms := m1.trans (m2.trans m3)
          have hsibeq : (g.setBlack false).sib.root = g.sib.root := by cases g <;> rfl
          rw [hsibeq] at ms m3
          have hroot : ((sibBlack true (g.setBlack false)).fill ((f.setBlack true).fill t)).root = some g.addr := by
            rw [fill_root]; cases g <;> rfl
          obtain ⟨h', e1, e2⟩ := ih _ c _ g.addr t' hroot m3.holds (by simp at hl; omega) hf
          exact ⟨h', e1, ms.trans e2⟩

end Verif.Collections.Tree.Rbt
