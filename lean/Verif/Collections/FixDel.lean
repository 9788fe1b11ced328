import Verif.Collections.FixAdd
/-! `fixup_delete` on trees, and the pointer code does that. -/
namespace Verif.Collections.Tree.Rbt
variable {α : Type}

/-- Case 6: rotate around the parent; `f` is the frame of the parent. -/
def outer : Frame α → Ctx α
  | .L pb pi pd (.node _ sl si sd sr) => [.L true pi pd sl, .L pb si sd (sr.setBlack true)]
  | .R pb (.node _ sl si sd sr) pi pd => [.R true sr pi pd, .R pb (sl.setBlack true) si sd]
  | f => [f]

/-- Case 5: rotate around the sibling when the outer nephew is black. -/
def inner : Frame α → Frame α
  | .L pb pi pd (.node sb (.node lb a li ld b) si sd sr) =>
    if sr.black then .L pb pi pd (.node true a li ld (.node false b si sd sr))
    else .L pb pi pd (.node sb (.node lb a li ld b) si sd sr)
  | .R pb (.node sb sl si sd (.node rb a ri rd b)) pi pd =>
    if sl.black then .R pb (.node true (.node false sl si sd a) ri rd b) pi pd
    else .R pb (.node sb sl si sd (.node rb a ri rd b)) pi pd
  | f => f

/-- Both children of the root are black (or absent). -/
def kidsBlack : T α → Bool
  | .nil => true
  | .node _ l _ _ r => l.black && r.black

/-- Cases 3 to 6 at frame `f` inside `c`; `rec` is the result of the recursive call on the parent. -/
def rest (rec : Bool × Ctx α) (f : Frame α) (c : Ctx α) : Ctx α :=
  if kidsBlack f.sib then
    if f.black then (if rec.1 then (sibBlack false f).setBlack true else sibBlack false f) :: rec.2
    else (sibBlack false f).setBlack true :: c
  else outer (inner f) ++ c

/-- Case 2: a red sibling; the two frames after rotating around the parent. -/
def redSib : Frame α → Frame α × List (Frame α)
  | .L _ pi pd (.node _ sl si sd sr) => (.L false pi pd sl, [.L true si sd sr])
  | .R _ (.node _ sl si sd sr) pi pd => (.R false sr pi pd, [.R true sl si sd])
  | f => (f, [])

/-- `fixup_delete` at path `c`: whether the node itself is painted black, and its path afterwards. -/
def fixDel : Ctx α → Bool × Ctx α
  | [] => (true, [])
  | f :: c =>
    if f.sib.black then (false, rest (fixDel c) f c)
    else (false, rest (false, []) (redSib f).1 ((redSib f).2 ++ c))

theorem black_setBlack_frame (b : Bool) (f : Frame α) : (f.setBlack b).black = b := by cases f <;> rfl
theorem addr_setBlack (b : Bool) (f : Frame α) : (f.setBlack b).addr = f.addr := by cases f <;> rfl
theorem addr_sibBlack (b : Bool) (f : Frame α) : (sibBlack b f).addr = f.addr := by cases f <;> rfl
theorem black_sibBlack (b : Bool) (f : Frame α) : (sibBlack b f).black = f.black := by cases f <;> rfl
theorem fill_setBlack (b : Bool) (f : Frame α) (t : T α) :
    (f.setBlack b).fill t = (f.fill t).setBlack b := by cases f <;> rfl

theorem plug_paint (b : Bool) (f : Frame α) (c : Ctx α) (t : T α) :
    plug ((if b then f.setBlack true else f) :: c) t =
      plug c (if b then (f.fill t).setBlack true else f.fill t) := by
  cases b <;> simp [plug, fill_setBlack]

theorem read_left {m : Mem α} {p : Option Nat} {t : T α} (h : Ok m p t) :
    leftO m t.root = (match t with | .nil => none | .node _ l _ _ _ => l.root) := by
  cases t with
  | nil => rfl
  | node b l i d r => simp [leftO, h.1]

theorem kids_ok {m : Mem α} {p : Option Nat} {t : T α} (h : Ok m p t) :
    (blackO m (leftO m t.root) && blackO m (rightO m t.root)) = kidsBlack t := by
  cases t with
  | nil => rfl
  | node b l i d r => simp [leftO, rightO, h.1, kidsBlack, blackO_ok h.2.1, blackO_ok h.2.2]

theorem ok_sib {h : Heap α} {f : Frame α} {c : Ctx α} {t : T α} (hh : Holds h (plug (f :: c) t)) :
    Ok h.mem (some f.addr) f.sib := by
  have := ((Ok_plug _ _ _).1 hh.ok).1
  rw [OkCtx_cons] at this
  exact this.1.2

theorem delOuter_L {h : Heap α} {pb : Bool} {pi : Nat} {pd : α} {sb : Bool} {sl : T α} {si : Nat} {sd : α}
    {sr : T α} {c : Ctx α} {t : T α} (hh : Holds h (plug (.L pb pi pd (.node sb sl si sd sr) :: c) t)) :
    Moves h (plug (.L pb pi pd (.node sb sl si sd sr) :: c) t) (delOuter h true pi (some si))
      (plug (outer (.L pb pi pd (.node sb sl si sd sr)) ++ c) t) := by
  have hp : (h.mem pi).black = pb := read_frame_black hh
  have m1 := recolor_sib pb hh
  have m2 := recolor_frame true m1.holds
  have hr : rightO (setBlack (setBlackO h.mem (some si) pb) pi true) (some si) = sr.root := by
    have := ok_sib m2.holds
    simp only [sibBlack, Frame.setBlack, Frame.sib, T.setBlack] at this
    have := this.1
    simp only [Frame.sib, root_node, sibBlack, Frame.addr] at this
    simp only [rightO, this]
  have m3 := recolor (c := .R pb sl si sd :: .R true t pi pd :: c) (t := sr) true rfl m2.holds
  have m4 := rotL_ok (c := c) (bx := true) (a := t) (x := pi) (dx := pd) (by_ := pb) (b := sl) (y := si)
    (dy := sd) (e := sr.setBlack true) m3.holds
  have ms := m1.trans (m2.trans (m3.trans m4))
  simp only [delOuter, hp, hr, if_true]
  exact ms

theorem delOuter_R {h : Heap α} {pb : Bool} {pi : Nat} {pd : α} {sb : Bool} {sl : T α} {si : Nat} {sd : α}
    {sr : T α} {c : Ctx α} {t : T α} (hh : Holds h (plug (.R pb (.node sb sl si sd sr) pi pd :: c) t)) :
    Moves h (plug (.R pb (.node sb sl si sd sr) pi pd :: c) t) (delOuter h false pi (some si))
      (plug (outer (.R pb (.node sb sl si sd sr) pi pd) ++ c) t) := by
  have hp : (h.mem pi).black = pb := read_frame_black hh
  have m1 := recolor_sib pb hh
  have m2 := recolor_frame true m1.holds
  have hr : leftO (setBlack (setBlackO h.mem (some si) pb) pi true) (some si) = sl.root := by
    have := ok_sib m2.holds
    simp only [sibBlack, Frame.setBlack, Frame.sib, T.setBlack] at this
    have := this.1
    simp only [Frame.sib, root_node, sibBlack, Frame.addr] at this
    simp only [leftO, this]
  have m3 := recolor (c := .L pb si sd sr :: .L true pi pd t :: c) (t := sl) true rfl m2.holds
  have m4 := rotR_ok (c := c) (bx := true) (a := t) (x := pi) (dx := pd) (by_ := pb) (b := sr) (y := si)
    (dy := sd) (e := sl.setBlack true) m3.holds
  have ms := m1.trans (m2.trans (m3.trans m4))
  simp only [delOuter, hp, hr, if_false, Bool.false_eq_true]
  exact ms

theorem delInner_L {h : Heap α} {pb : Bool} {pi : Nat} {pd : α} {sb lb : Bool} {a : T α} {li : Nat} {ld : α}
    {b : T α} {si : Nat} {sd : α} {sr : T α} {c : Ctx α} {t : T α}
    (hh : Holds h (plug (.L pb pi pd (.node sb (.node lb a li ld b) si sd sr) :: c) t)) :
    Moves h (plug (.L pb pi pd (.node sb (.node lb a li ld b) si sd sr) :: c) t) (delInner h true si)
      (plug (.L pb pi pd (.node true a li ld (.node false b si sd sr)) :: c) t) := by
  have hs : (h.mem si).left = some li := by
    have := (ok_sib hh).1; simp only [Frame.addr] at this; rw [this]; rfl
  have m1 := recolor (c := .L sb si sd sr :: .R pb t pi pd :: c) (t := .node lb a li ld b) true rfl hh
  have m2 := recolor_node (c := .R pb t pi pd :: c) (b0 := sb) (l := .node true a li ld b) (i := si) (d := sd)
    (r := sr) false m1.holds
  have m3 := rotR_ok (c := .R pb t pi pd :: c) (bx := false) (a := sr) (x := si) (dx := sd) (by_ := true)
    (b := b) (y := li) (dy := ld) (e := a) m2.holds
  simp only [delInner, hs, if_true]
  exact m1.trans (m2.trans m3)

theorem delInner_R {h : Heap α} {pb : Bool} {pi : Nat} {pd : α} {sb rb : Bool} {a : T α} {ri : Nat} {rd : α}
    {b : T α} {si : Nat} {sd : α} {sl : T α} {c : Ctx α} {t : T α}
    (hh : Holds h (plug (.R pb (.node sb sl si sd (.node rb a ri rd b)) pi pd :: c) t)) :
    Moves h (plug (.R pb (.node sb sl si sd (.node rb a ri rd b)) pi pd :: c) t) (delInner h false si)
      (plug (.R pb (.node true (.node false sl si sd a) ri rd b) pi pd :: c) t) := by
  have hs : (h.mem si).right = some ri := by
    have := (ok_sib hh).1; simp only [Frame.addr] at this; rw [this]; rfl
  have m1 := recolor (c := .R sb sl si sd :: .L pb pi pd t :: c) (t := .node rb a ri rd b) true rfl hh
  have m2 := recolor_node (c := .L pb pi pd t :: c) (b0 := sb) (l := sl) (i := si) (d := sd)
    (r := .node true a ri rd b) false m1.holds
  have m3 := rotL_ok (c := .L pb pi pd t :: c) (bx := false) (a := sl) (x := si) (dx := sd) (by_ := true)
    (b := a) (y := ri) (dy := rd) (e := b) m2.holds
  simp only [delInner, hs, if_false, Bool.false_eq_true]
  exact m1.trans (m2.trans m3)

theorem delNephew_ok {h : Heap α} {f : Frame α} {c : Ctx α} {t : T α} {n : Nat} (hn : t.root = some n)
    (hh : Holds h (plug (f :: c) t)) (hk : kidsBlack f.sib = false) :
    ∃ h', delNephew h n f.addr f.sib.root = .ok h' ∧
      Moves h (plug (f :: c) t) h' (plug (outer (inner f) ++ c) t) := by
  cases f with
  | L pb pi pd s =>
    cases s with
    | nil => simp [Frame.sib, kidsBlack] at hk
    | node sb sl si sd sr =>
      have hl : (h.mem pi).left = some n := by rw [read_L hh]; exact hn
      have hs := ok_sib hh
      have e1 : rightO h.mem (some si) = sr.root := by
        have := hs.1; simp only [Frame.addr] at this; simp only [rightO, this]
      have e2 : blackO h.mem sr.root = sr.black := blackO_ok hs.2.2
      simp only [Frame.addr, Frame.sib, root_node, delNephew, hl, decide_true, Bool.true_and, e1, e2,
        Bool.not_true, Bool.false_and, Bool.or_false]
      by_cases hb : sr.black = true
      · simp only [hb, if_true]
        cases sl with
        | nil => simp [Frame.sib, kidsBlack, hb] at hk
        | node lb a li ld b =>
          have m1 := delInner_L hh
          have s1 := sibling_ok m1.holds hn
          have p1 := read_parent m1.holds hn
          simp only [par, Frame.addr] at p1
          simp only [s1, p1]
          have m2 := delOuter_L m1.holds
          refine ⟨_, rfl, ?_⟩
          have : inner (.L pb pi pd (.node sb (.node lb a li ld b) si sd sr)) =
            .L pb pi pd (.node true a li ld (.node false b si sd sr)) := by simp [inner, hb]
          rw [this]
          exact m1.trans m2
      · have hb' : sr.black = false := by simpa using hb
        simp only [hb', Bool.false_eq_true, if_false]
        have m2 := delOuter_L hh
        refine ⟨_, rfl, ?_⟩
        have : inner (.L pb pi pd (.node sb sl si sd sr)) = .L pb pi pd (.node sb sl si sd sr) := by
          cases sl <;> simp [inner, hb']
        rw [this]
        exact m2
  | R pb s pi pd =>
    cases s with
    | nil => simp [Frame.sib, kidsBlack] at hk
    | node sb sl si sd sr =>
      have hl : (h.mem pi).left ≠ some n := by rw [read_R hh]; exact sib_ne hh hn
      have hs := ok_sib hh
      have e1 : leftO h.mem (some si) = sl.root := by
        have := hs.1; simp only [Frame.addr] at this; simp only [leftO, this]
      have e2 : blackO h.mem sl.root = sl.black := blackO_ok hs.2.1
      simp only [Frame.addr, Frame.sib, root_node, delNephew, hl, decide_false, Bool.true_and, e1, e2,
        Bool.not_false, Bool.false_and, Bool.false_or]
      by_cases hb : sl.black = true
      · simp only [hb, if_true]
        cases sr with
        | nil => simp [Frame.sib, kidsBlack, hb] at hk
        | node lb a li ld b =>
          have m1 := delInner_R hh
          have s1 := sibling_ok m1.holds hn
          have p1 := read_parent m1.holds hn
          simp only [par, Frame.addr] at p1
          simp only [s1, p1]
          have m2 := delOuter_R m1.holds
          refine ⟨_, rfl, ?_⟩
          have : inner (.R pb (.node sb sl si sd (.node lb a li ld b)) pi pd) =
            .R pb (.node true (.node false sl si sd a) li ld b) pi pd := by simp [inner, hb]
          rw [this]
          exact m1.trans m2
      · have hb' : sl.black = false := by simpa using hb
        simp only [hb', Bool.false_eq_true, if_false]
        have m2 := delOuter_R hh
        refine ⟨_, rfl, ?_⟩
        have : inner (.R pb (.node sb sl si sd sr) pi pd) = .R pb (.node sb sl si sd sr) pi pd := by
          cases sr <;> simp [inner, hb']
        rw [this]
        exact m2

theorem delRest_ok {rec : Heap α → Option Nat → Outcome CErr (Heap α)} {h : Heap α} {f : Frame α} {c : Ctx α}
    {t : T α} {n : Nat} (recR : Bool × Ctx α) (hn : t.root = some n) (hh : Holds h (plug (f :: c) t))
    (hrec : f.black = true → ∀ h1 t1, Holds h1 (plug c t1) → t1.root = some f.addr →
      ∃ h', rec h1 (some f.addr) = .ok h' ∧
        Moves h1 (plug c t1) h' (plug recR.2 (if recR.1 then t1.setBlack true else t1))) :
    ∃ h', delRest rec h n = .ok h' ∧ Moves h (plug (f :: c) t) h' (plug (rest recR f c) t) := by
  have hs := sibling_ok hh hn
  have hp := read_parent hh hn
  have hk := kids_ok (ok_sib hh)
  simp only [par] at hp
  unfold delRest rest
  simp only [hs, hp, hk]
  by_cases hkb : kidsBlack f.sib = true
  · simp only [hkb, if_true]
    have m1 := recolor_sib false hh
    have hb := read_frame_black m1.holds
    rw [addr_sibBlack, black_sibBlack] at hb
    simp only [] at hb
    simp only [hb]
    by_cases hfb : f.black = true
    · simp only [hfb, if_true, Bool.true_eq_false, if_false]
      obtain ⟨h', e1, e2⟩ := hrec hfb _ ((sibBlack false f).fill t) m1.holds
        (by rw [fill_root, addr_sibBlack])
      refine ⟨h', e1, m1.trans ?_⟩
      rw [plug_paint]
      exact e2
    · have hfb' : f.black = false := by simpa using hfb
      simp only [hfb', if_true, Bool.false_eq_true, if_false]
      have m2 := recolor_frame true m1.holds
      rw [addr_sibBlack] at m2
      exact ⟨_, rfl, m1.trans m2⟩
  · have hkb' : kidsBlack f.sib = false := by simpa using hkb
    simp only [hkb', Bool.false_eq_true, if_false]
    exact delNephew_ok hn hh hkb'

theorem delRed_ok {h : Heap α} {f : Frame α} {c : Ctx α} {t : T α} {n : Nat} (hn : t.root = some n)
    (hh : Holds h (plug (f :: c) t)) (hs : f.sib.black = false) :
    Moves h (plug (f :: c) t) (delRed h n f.addr f.sib.root)
      (plug ((redSib f).1 :: ((redSib f).2 ++ c)) t) := by
  have m1 := recolor_sib true hh
  have m2 := recolor_frame false m1.holds
  rw [addr_sibBlack] at m2
  cases f with
  | L pb pi pd s =>
    cases s with
    | nil => simp [Frame.sib, T.black] at hs
    | node sb sl si sd sr =>
      have hl := congrArg Cell.left (read_L m2.holds)
      simp only [hn, Frame.addr, Frame.sib] at hl
      have m3 := rotL_ok (c := c) (bx := false) (a := t) (x := pi) (dx := pd) (by_ := true)
        (b := sl) (y := si) (dy := sd) (e := sr) m2.holds
      simp only [delRed, Frame.addr, Frame.sib, hl, if_true]
      exact m1.trans (m2.trans m3)
  | R pb s pi pd =>
    cases s with
    | nil => simp [Frame.sib, T.black] at hs
    | node sb sl si sd sr =>
      have hl := congrArg Cell.left (read_R m2.holds)
      have hne := sib_ne m2.holds hn
      simp only [sibBlack, Frame.setBlack, Frame.addr, Frame.sib] at hl hne
      rw [← hl] at hne
      have m3 := rotR_ok (c := c) (bx := false) (a := t) (x := pi) (dx := pd) (by_ := true)
        (b := sr) (y := si) (dy := sd) (e := sl) m2.holds
      simp only [delRed, Frame.addr, Frame.sib, hne, if_false]
      exact m1.trans (m2.trans m3)

theorem redSib_red (f : Frame α) (hs : f.sib.black = false) : (redSib f).1.black = false := by
  cases f with
  | L pb pi pd s => cases s with
    | nil => simp [Frame.sib, T.black] at hs
    | node => rfl
  | R pb s pi pd => cases s with
    | nil => simp [Frame.sib, T.black] at hs
    | node => rfl

theorem fixupDelete_ok (fuel : Nat) : ∀ (h : Heap α) (c : Ctx α) (t : T α) (n : Nat),
    t.root = some n → Holds h (plug c t) → c.length < fuel →
    ∃ h', fixupDelete fuel h (some n) = .ok h' ∧
      Moves h (plug c t) h' (plug (fixDel c).2 (if (fixDel c).1 then t.setBlack true else t)) := by
  induction fuel with
  | zero => intro h c t n _ _ hl; omega
  | succ k ih =>
    intro h c t n hn hh hl
    have hp := read_parent hh hn
    unfold fixupDelete
    cases c with
    | nil =>
      simp only [par] at hp
      refine ⟨_, by simp only [hp]; rfl, ?_⟩
      exact recolor (c := []) true hn hh
    | cons f c =>
      simp only [par] at hp
      have hs := sibling_ok hh hn
      have hb := blackO_sib hh
      simp only [hp, hs, hb]
      unfold fixDel
      by_cases hsb : f.sib.black = true
      · simp only [hsb, if_true, Bool.true_eq_false, if_false]
        exact delRest_ok (fixDel c) hn hh (fun _ h1 t1 hh1 hr1 => ih h1 c t1 _ hr1 hh1 (by simp at hl; omega))
      · have hsb' : f.sib.black = false := by simpa using hsb
        simp only [hsb', if_true, Bool.false_eq_true, if_false]
        have m1 := delRed_ok hn hh hsb'
        obtain ⟨h', e1, e2⟩ := delRest_ok (rec := fixupDelete k) (false, []) hn m1.holds
          (fun hb => absurd hb (by rw [redSib_red f hsb']; simp))
        exact ⟨h', e1, m1.trans e2⟩

end Verif.Collections.Tree.Rbt
