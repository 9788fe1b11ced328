import Verif.Collections.TreeProps
/-! `add_many` of the two trees: all values are added in order, up to the first one that cannot be. -/
namespace Verif.Collections.Tree
variable {α : Type}

/-- Adding values one after the other: it stops at the first error; otherwise the answer is the slot of the
last value, `last` if there is none. -/
inductive Bulk (key : α → Nat) (cap : Nat) : Book α → Nat → List α → Outcome CErr Nat → Book α → Prop
  | done (b last) : Bulk key cap b last [] (.ok last) b
  | next (b last d i b' ds r b'') : Step key cap b (.add d) (.ok i) b' → Bulk key cap b' i ds r b'' →
      Bulk key cap b last (d :: ds) r b''
  | stop (b last d e b' ds) : Step key cap b (.add d) (.err e) b' → Bulk key cap b last (d :: ds) (.err e) b'

/-- `add_many`: nothing happens if there is not enough room for all values. -/
inductive Many (key : α → Nat) (cap : Nat) : Book α → List α → Outcome CErr Nat → Book α → Prop
  | full (b ds) : cap < b.used + ds.length → Many key cap b ds (.err .outOfSpace) b
  | room (b ds r b') : b.used + ds.length ≤ cap → Bulk key cap b 0 ds r b' → Many key cap b ds r b'

theorem addLoop_ok {key : α → Nat} {cap : Nat} {add : TreeState α → α → Outcome CErr Nat × TreeState α}
    (P : TreeState α → Book α → Prop)
    (hadd : ∀ s b d, P s b → ∃ b', Step key cap b (.add d) (add s d).1 b' ∧ P (add s d).2 b') (ds : List α) :
    ∀ s b last, P s b → ∃ b', Bulk key cap b last ds (addLoop add s last ds).1 b' ∧ P (addLoop add s last ds).2 b' := by
  induction ds with
  | nil => intro s b last h; exact ⟨b, .done b last, h⟩
  | cons d ds ih =>
    intro s b last h
    obtain ⟨b1, h1, h2⟩ := hadd s b d h
    simp only [addLoop]
    revert h1 h2
    generalize add s d = x
    obtain ⟨r, s'⟩ := x
    intro h1 h2
    simp only [] at h1 h2
    cases r with
    | ok i =>
      obtain ⟨b2, h3, h4⟩ := ih s' b1 i h2
      exact ⟨b2, .next _ _ _ _ _ _ _ _ h1 h3, h4⟩
    | err e => exact ⟨b1, .stop _ _ _ _ _ _ h1, h2⟩
    | panic => cases h1

theorem addMany_ok {key : α → Nat} {cap : Nat} {add : TreeState α → α → Outcome CErr Nat × TreeState α}
    (P : TreeState α → Book α → Prop) (hcap : ∀ s b, P s b → s.st.cap = cap ∧ s.st.length = b.used)
    (hadd : ∀ s b d, P s b → ∃ b', Step key cap b (.add d) (add s d).1 b' ∧ P (add s d).2 b') (ds : List α)
    (s : TreeState α) (b : Book α) (h : P s b) :
    ∃ b', Many key cap b ds (addMany add s ds).1 b' ∧ P (addMany add s ds).2 b' := by
  obtain ⟨hc, hl⟩ := hcap s b h
  unfold addMany
  rw [hc, hl]
  by_cases hf : cap < b.used + ds.length
  · rw [if_pos hf]; exact ⟨b, .full b ds hf, h⟩
  · rw [if_neg hf]
    obtain ⟨b', h1, h2⟩ := addLoop_ok P hadd ds s b 0 h
    exact ⟨b', .room _ _ _ _ (by omega) h1, h2⟩

theorem final_of {exec : TreeState α → Op α → Outcome CErr Nat × TreeState α} {key : α → Nat} {cap : Nat}
    (P : TreeState α → Book α → Prop)
    (hstep : ∀ s b op, P s b → Legal key cap b op → ∃ b', Step key cap b op (exec s op).1 b' ∧ P (exec s op).2 b')
    (ops : List (Op α)) (hp : ∀ op ∈ ops, Plain op) : ∀ s b, P s b →
      ∃ b', History key cap b (trace exec s ops) b' ∧ P (final exec s ops) b' := by
  induction ops with
  | nil => intro s b h; exact ⟨b, .nil b, h⟩
  | cons op ops ih =>
    intro s b h
    have hl : Legal key cap b op := by
      have := hp op (by simp)
      cases op with
      | add d => trivial
      | delete k => trivial
      | deleteAt i => exact this.elim
      | put i d => exact this.elim
    obtain ⟨b', h1, h2⟩ := hstep s b op h hl
    obtain ⟨b2, h3, h4⟩ := ih (fun o ho => hp o (by simp [ho])) _ _ h2
    exact ⟨b2, .cons _ _ _ _ _ _ h1 h3, h4⟩

/-- C22 for `add_many`, after any history of additions and deletions. -/
theorem rbt_add_many (key : α → Nat) (m0 : Mem α) {cap : Nat} (hc : 0 < cap) (h0 : (m0 (cap - 1)).right = none)
    (ops : List (Op α)) (hp : ∀ op ∈ ops, Plain op) (ds : List α) :
    ∃ s0 b b', Rbt.withCapacity m0 cap = .ok s0 ∧ History key cap ⟨[], 0⟩ (trace (Rbt.exec key) s0 ops) b ∧
      Many key cap b ds (addMany (Rbt.add key) (final (Rbt.exec key) s0 ops) ds).1 b' ∧
      Agrees key cap (addMany (Rbt.add key) (final (Rbt.exec key) s0 ops) ds).2 b' := by
  obtain ⟨st, h1, h2⟩ := init_inv key m0 hc h0
  refine ⟨⟨st, none⟩, ?_⟩
  obtain ⟨b, h3, h4⟩ := final_of (exec := Rbt.exec key) (cap := cap) (key := key)
    (fun s b => ∃ t fl, Inv key cap s b t fl ∧ t.black = true) (by
      rintro s b op ⟨t, fl, h, hb⟩ hl
      obtain ⟨b', t', fl', h3, h4, h5⟩ := Rbt.step h hb op hl
      exact ⟨b', h3, t', fl', h4, h5⟩) ops hp _ _ ⟨_, _, h2, rfl⟩
  obtain ⟨b', h5, h6⟩ := addMany_ok (add := Rbt.add key) (cap := cap) (key := key)
    (fun s b => ∃ t fl, Inv key cap s b t fl ∧ t.black = true)
    (by rintro s b ⟨t, fl, h, _⟩; exact ⟨h.hcap, h.used⟩)
    (by
      rintro s b d ⟨t, fl, h, hb⟩
      obtain ⟨b', t', h3, h4, h5⟩ := Rbt.add_step h hb d
      exact ⟨b', h3, t', _, h4, h5⟩) ds _ _ h4
  obtain ⟨t, fl, h7, _⟩ := h6
  exact ⟨b, b', by simp [Rbt.withCapacity, h1], h3, h5, h7.agrees⟩

/-- C24 for `add_many`. -/
theorem bst_add_many (key : α → Nat) (m0 : Mem α) {cap : Nat} (hc : 0 < cap) (h0 : (m0 (cap - 1)).right = none)
    (ops : List (Op α)) (hp : ∀ op ∈ ops, Plain op) (ds : List α) :
    ∃ s0 b b', Bst.withCapacity m0 cap = .ok s0 ∧ History key cap ⟨[], 0⟩ (trace (Bst.exec key) s0 ops) b ∧
      Many key cap b ds (addMany (Bst.add key) (final (Bst.exec key) s0 ops) ds).1 b' ∧
      Agrees key cap (addMany (Bst.add key) (final (Bst.exec key) s0 ops) ds).2 b' := by
  obtain ⟨st, h1, h2⟩ := init_inv key m0 hc h0
  refine ⟨⟨st, none⟩, ?_⟩
  obtain ⟨b, h3, h4⟩ := final_of (exec := Bst.exec key) (cap := cap) (key := key)
    (fun s b => ∃ t fl, Inv key cap s b t fl) (by
      rintro s b op ⟨t, fl, h⟩ hl
      obtain ⟨b', t', fl', h3, h4⟩ := Bst.step h op hl
      exact ⟨b', h3, t', fl', h4⟩) ops hp _ _ ⟨_, _, h2⟩
  obtain ⟨b', h5, h6⟩ := addMany_ok (add := Bst.add key) (cap := cap) (key := key)
    (fun s b => ∃ t fl, Inv key cap s b t fl)
    (by rintro s b ⟨t, fl, h⟩; exact ⟨h.hcap, h.used⟩)
    (by
      rintro s b d ⟨t, fl, h⟩
      obtain ⟨b', t', h3, h4⟩ := Bst.add_step h d
      exact ⟨b', h3, t', _, h4⟩) ds _ _ h4
  obtain ⟨t, fl, h7⟩ := h6
  exact ⟨b, b', by simp [Bst.withCapacity, h1], h3, h5, h7.agrees⟩

/-- Three values into a tree of five slots holding two; then two more do not fit. -/
example : (Rbt.withCapacity blank 5 >>= fun s0 =>
    .ok (addMany (Rbt.add id) (final (Rbt.exec id) s0 [.add 5, .add 3]) [4, 9, 1]).1) = .ok (.ok 4) := by
  decide +kernel
example : (Rbt.withCapacity blank 5 >>= fun s0 =>
    .ok (addMany (Rbt.add id) (final (Rbt.exec id) s0 [.add 5, .add 3]) [4, 9, 1, 2]).1) = .ok (.err .outOfSpace) := by
  decide +kernel

end Verif.Collections.Tree
