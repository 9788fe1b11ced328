import Verif.Collections.TreeProps
/-!
C23, balance of the red-black tree. Insertions keep the tree balanced (`rbt_balanced_partial`); deletions
do not: `rbt_degenerates` gives, for every `n`, a history after which a tree of `n + 1` values has height
`n + 1`.
-/
namespace Verif.Collections.Tree
variable {α : Type}

/-- The red-black conditions with black height `n`: no red node has a red child and every path down has
`n` black nodes. -/
def RB : Nat → T α → Prop
  | n, .nil => n = 0
  | n, .node b l _ _ r =>
    if b then ∃ k, n = k + 1 ∧ RB k l ∧ RB k r
    else l.black = true ∧ r.black = true ∧ RB n l ∧ RB n r

theorem RB_black {n : Nat} {l : T α} {i : Nat} {d : α} {r : T α} :
    RB (n + 1) (.node true l i d r) ↔ RB n l ∧ RB n r := by
  simp only [RB, if_true, Nat.add_right_cancel_iff]
  constructor
  · rintro ⟨k, rfl, h⟩; exact h
  · exact fun h => ⟨n, rfl, h⟩

theorem RB_red {n : Nat} {l : T α} {i : Nat} {d : α} {r : T α} :
    RB n (.node false l i d r) ↔ l.black = true ∧ r.black = true ∧ RB n l ∧ RB n r := by
  simp [RB]

theorem RB_size {n : Nat} {t : T α} (h : RB n t) : 2 ^ n ≤ t.size + 1 := by
  induction t generalizing n with
  | nil => simp [RB] at h; subst h; simp
  | node b l i d r ihl ihr =>
    cases b with
    | true =>
      simp only [RB, if_true] at h
      obtain ⟨k, rfl, h1, h2⟩ := h
      have := ihl h1; have := ihr h2
      rw [Nat.pow_succ]; simp only [T.size]; omega
    | false =>
      rw [RB_red] at h
      have := ihl h.2.2.1
      simp only [T.size]; omega

theorem RB_height {n : Nat} {t : T α} (h : RB n t) : t.height ≤ 2 * n + (if t.black then 0 else 1) := by
  induction t generalizing n with
  | nil => simp [T.height]
  | node b l i d r ihl ihr =>
    cases b with
    | true =>
      simp only [RB, if_true] at h
      obtain ⟨k, rfl, h1, h2⟩ := h
      have h3 := ihl h1; have h4 := ihr h2
      have h5 : 2 * k + (if l.black = true then 0 else 1) ≤ 2 * k + 1 := by split <;> omega
      have h6 : 2 * k + (if r.black = true then 0 else 1) ≤ 2 * k + 1 := by split <;> omega
      simp only [T.height, black_node, if_true]; omega
    | false =>
      rw [RB_red] at h
      have h3 := ihl h.2.2.1; have h4 := ihr h.2.2.2
      rw [if_pos h.1] at h3
      rw [if_pos h.2.1] at h4
      simp only [T.height, black_node, Bool.false_eq_true, if_false]; omega

/-- A red-black tree with a black root is at most `2 log2 (n + 1)` deep. -/
theorem RB_depth {n : Nat} {t : T α} (h : RB n t) (hb : t.black = true) : t.height ≤ 2 * (t.size + 1).log2 := by
  have h1 := RB_height h
  rw [if_pos hb] at h1
  have h2 : n ≤ (t.size + 1).log2 := (Nat.le_log2 (by omega)).2 (RB_size h)
  omega

/-- The surroundings of a subtree of black height `n`. -/
def CtxRB : Nat → Ctx α → Prop
  | _, [] => True
  | n, f :: c =>
    RB n f.sib ∧ (if f.black then CtxRB (n + 1) c
      else f.sib.black = true ∧ (∀ g c', c = g :: c' → g.black = true) ∧ CtxRB n c)

theorem RB_plug {c : Ctx α} {n : Nat} {t : T α} (hc : CtxRB n c) (ht : RB n t)
    (hb : t.black = true ∨ ∀ f c', c = f :: c' → f.black = true) : ∃ m, RB m (plug c t) := by
  induction c generalizing n t with
  | nil => exact ⟨n, ht⟩
  | cons f c ih =>
    obtain ⟨h1, h2⟩ := hc
    by_cases hf : f.black = true
    · rw [if_pos hf] at h2
      refine ih h2 (t := f.fill t) ?_ (.inl (by rw [fill_black]; exact hf))
      cases f with
      | L b i d r => simp only [Frame.black] at hf; subst hf; exact RB_black.2 ⟨ht, h1⟩
      | R b l i d => simp only [Frame.black] at hf; subst hf; exact RB_black.2 ⟨h1, ht⟩
    · rw [if_neg hf] at h2
      have htb : t.black = true := hb.resolve_right (fun h => hf (h f c rfl))
      refine ih h2.2.2 (t := f.fill t) ?_ (.inr h2.2.1)
      cases f with
      | L b i d r => simp only [Frame.black] at hf; simp at hf; subst hf; exact RB_red.2 ⟨htb, h2.1, ht, h1⟩
      | R b l i d => simp only [Frame.black] at hf; simp at hf; subst hf; exact RB_red.2 ⟨h2.1, htb, h1, ht⟩

theorem RB_unplug {c : Ctx α} {m : Nat} {t : T α} (h : RB m (plug c t)) :
    ∃ n, CtxRB n c ∧ RB n t ∧ (t.black = true ∨ ∀ f c', c = f :: c' → f.black = true) := by
  induction c generalizing t with
  | nil => exact ⟨m, trivial, h, .inr (by simp)⟩
  | cons f c ih =>
    obtain ⟨n, h1, h2, h3⟩ := ih (t := f.fill t) h
    by_cases hf : f.black = true
    · cases n with
      | zero =>
        cases f with
        | L b i d r => simp only [Frame.black] at hf; subst hf; simp [Frame.fill, RB] at h2
        | R b l i d => simp only [Frame.black] at hf; subst hf; simp [Frame.fill, RB] at h2
      | succ n =>
        refine ⟨n, ?_⟩
        cases f with
        | L b i d r =>
          simp only [Frame.black] at hf; subst hf
          have := RB_black.1 h2
          exact ⟨⟨this.2, by simpa [Frame.black] using h1⟩, this.1, .inr (by rintro f c' ⟨rfl, _⟩; rfl)⟩
        | R b l i d =>
          simp only [Frame.black] at hf; subst hf
          have := RB_black.1 h2
          exact ⟨⟨this.1, by simpa [Frame.black] using h1⟩, this.2, .inr (by rintro f c' ⟨rfl, _⟩; rfl)⟩
    · have h3' : ∀ g c', c = g :: c' → g.black = true := h3.resolve_left (by rw [fill_black]; exact hf)
      refine ⟨n, ?_⟩
      cases f with
      | L b i d r =>
        simp only [Frame.black] at hf; simp at hf; subst hf
        have := RB_red.1 h2
        exact ⟨⟨this.2.2.2, by simpa [Frame.black, Frame.sib] using ⟨this.2.1, h3', h1⟩⟩, this.2.2.1, .inl this.1⟩
      | R b l i d =>
        simp only [Frame.black] at hf; simp at hf; subst hf
        have := RB_red.1 h2
        exact ⟨⟨this.2.2.1, by simpa [Frame.black, Frame.sib] using ⟨this.1, h3', h1⟩⟩, this.2.2.2, .inl this.2.1⟩

theorem RB_paint {n : Nat} {t : T α} (h : RB n t) (hr : t.black = false) : RB (n + 1) (t.setBlack true) := by
  cases t with
  | nil => simp at hr
  | node b l i d r =>
    simp at hr; subst hr
    have := RB_red.1 h
    exact RB_black.2 ⟨this.2.2.1, this.2.2.2⟩

/-- `fixup_add` restores the red-black conditions. -/
theorem fixAdd_RB : ∀ (k : Nat) (c : Ctx α) (n : Nat) (l : T α) (i : Nat) (d : α) (r : T α) (t' : T α), c.length ≤ k →
    CtxRB n c → l.black = true → r.black = true → RB n l → RB n r →
    Rbt.fixAdd c (.node false l i d r) = some t' → ∃ m, RB m t' := by
  intro k
  induction k with
  | zero =>
    intro c n l i d r t' hc hcx hl hr hL hR he
    cases c with
    | nil => simp only [Rbt.fixAdd, Option.some.injEq] at he; subst he; exact ⟨n + 1, RB_black.2 ⟨hL, hR⟩⟩
    | cons f c => simp at hc
  | succ k ih =>
    intro c n l i d r t' hc hcx hl hr hL hR he
    have hred : RB n (.node false l i d r) := RB_red.2 ⟨hl, hr, hL, hR⟩
    match c with
    | [] => simp only [Rbt.fixAdd, Option.some.injEq] at he; subst he; exact ⟨n + 1, RB_black.2 ⟨hL, hR⟩⟩
    | [f] =>
      simp only [Rbt.fixAdd] at he
      by_cases hf : f.black = true
      · rw [if_pos hf] at he
        injection he with he; subst he
        exact RB_plug hcx hred (.inr (by simp; exact hf))
      · rw [if_neg hf] at he; exact absurd he (by simp)
    | f :: g :: c =>
      simp only [Rbt.fixAdd] at he
      by_cases hf : f.black = true
      · rw [if_pos hf] at he
        injection he with he; subst he
        exact RB_plug hcx hred (.inr (by simp; exact hf))
      · rw [if_neg hf] at he
        obtain ⟨h1, h2⟩ := hcx
        rw [if_neg hf] at h2
        obtain ⟨h3, h4, h5⟩ := h2
        have hg : g.black = true := h4 g c rfl
        obtain ⟨h6, h7⟩ := h5
        rw [if_pos hg] at h7
        simp only [Bool.not_eq_true] at hf
        by_cases hs : g.sib.black = true
        · rw [if_pos hs] at he
          injection he with he; subst he
          refine RB_plug h7 (t := Rbt.turn g f (.node false l i d r)) ?_ (.inl (Rbt.black_turn _ _ _))
          cases g <;> cases f <;> simp only [Frame.black, Frame.sib] at * <;> subst hf <;>
            simp only [Rbt.turn] <;> simp [RB_black, RB_red, hl, hr, hL, hR, hs, h1, h3, h6]
        · rw [if_neg hs] at he
          simp only [Bool.not_eq_true] at hs
          have hp := RB_paint h6 hs
          have hs2 := black_setBlack' g.sib
          cases g with
          | L gb gi gd gr =>
            cases f with
            | L fb fi fd fr =>
              exact ih c (n + 1) (.node true (.node false l i d r) fi fd fr) gi gd (gr.setBlack true) t'
                (by simp at hc; omega) h7 rfl hs2 (RB_black.2 ⟨hred, h1⟩) hp he
            | R fb fl fi fd =>
              exact ih c (n + 1) (.node true fl fi fd (.node false l i d r)) gi gd (gr.setBlack true) t'
                (by simp at hc; omega) h7 rfl hs2 (RB_black.2 ⟨h1, hred⟩) hp he
          | R gb gl gi gd =>
            cases f with
            | L fb fi fd fr =>
              exact ih c (n + 1) (gl.setBlack true) gi gd (.node true (.node false l i d r) fi fd fr) t'
                (by simp at hc; omega) h7 hs2 rfl hp (RB_black.2 ⟨hred, h1⟩) he
            | R fb fl fi fd =>
              exact ih c (n + 1) (gl.setBlack true) gi gd (.node true fl fi fd (.node false l i d r)) t'
                (by simp at hc; omega) h7 hs2 rfl hp (RB_black.2 ⟨h1, hred⟩) he

theorem plug_pathTo (key : α → Nat) (k : Nat) (t : T α) (c : Ctx α) : plug (pathTo key k t c) .nil = plug c t := by
  induction t generalizing c with
  | nil => rfl
  | node b l i d r ihl ihr => simp only [pathTo]; split <;> simp only [ihl, ihr, plug, Frame.fill]

/-- The tree after adding the values one after the other, whatever the answers. -/
def addAll (key : α → Nat) : TreeState α → List α → TreeState α
  | s, [] => s
  | s, d :: ds => addAll key (Rbt.add key s d).2 ds

theorem addAll_inv {key : α → Nat} {cap : Nat} (ds : List α) : ∀ (s : TreeState α) (b : Book α) (t : T α) (fl : List Nat)
    (n : Nat), Inv key cap s b t fl → t.black = true → RB n t →
    ∃ b' t' fl' n', Inv key cap (addAll key s ds) b' t' fl' ∧ t'.black = true ∧ RB n' t' := by
  induction ds with
  | nil => intro s b t fl n h hb hr; exact ⟨b, t, fl, n, h, hb, hr⟩
  | cons d ds ih =>
    intro s b t fl n h hb hr
    cases fl with
    | nil =>
      refine ih _ b t [] n ?_ hb hr
      unfold Rbt.add; rw [add_full d h.free]; exact h
    | cons x fl =>
      by_cases hd : b.has key (key d)
      · exact ih _ _ t fl n (Rbt.add_dup h d hd).2 hb hr
      · obtain ⟨_, t', e, h2, h3⟩ := Rbt.add_new h hb d hd
        rw [← show plug (pathTo key (key d) t []) .nil = t from plug_pathTo _ _ _ _] at hr
        obtain ⟨m, g1, g2, g3⟩ := RB_unplug hr
        obtain ⟨m', hm⟩ := fixAdd_RB _ _ m .nil x d .nil t' (Nat.le_refl _) g1 rfl rfl g2 g2 e
        exact ih _ _ t' fl m' h2 h3 hm

/-- C23 for trees built by insertions: the height is at most `2 log2 (n + 1)` for `n` stored values.
(C23 is false once values are deleted, see `rbt_degenerates`.) -/
theorem rbt_balanced_partial (key : α → Nat) (m0 : Mem α) {cap : Nat} (hc : 0 < cap)
    (h0 : (m0 (cap - 1)).right = none) (ds : List α) :
    ∃ s0, Rbt.withCapacity m0 cap = .ok s0 ∧ ∃ h vs, treeHeight (addAll key s0 ds) = .ok h ∧
      values (addAll key s0 ds) = .ok vs ∧ h ≤ 2 * (vs.length + 1).log2 ∧
      ∃ t n, Holds ⟨(addAll key s0 ds).st.mem, (addAll key s0 ds).root⟩ t ∧ t.black = true ∧ RB n t := by
  obtain ⟨st, h1, h2⟩ := init_inv key m0 hc h0
  refine ⟨⟨st, none⟩, by simp [Rbt.withCapacity, h1], ?_⟩
  obtain ⟨b, t, fl, n, h3, h4, h5⟩ := addAll_inv ds _ _ _ _ 0 h2 rfl rfl
  have hroot : (addAll key ⟨st, none⟩ ds).root = t.root := h3.holds.root
  refine ⟨t.height, t.items.map (·.2), ?_, ?_, ?_, t, n, h3.holds, h4, h5⟩
  · simp only [treeHeight, hroot]; exact height_ok h3.holds.ok h3.height_le
  · simp only [values, hroot]; exact dfs_ok h3.holds.ok h3.height_le
  · rw [List.length_map, ← size_eq]; exact RB_depth h5 h4

/-! ### Deletion -/

/-- The tree is a list: every node is black and has no left child. -/
def Vine : List Nat → T Nat → Prop
  | ks, .nil => ks = []
  | ks, .node b l _ d r => b = true ∧ l = .nil ∧ ∃ ks', ks = d :: ks' ∧ Vine ks' r

theorem Vine_height {ks : List Nat} {t : T Nat} (h : Vine ks t) : t.height = ks.length ∧ t.items.map (·.2) = ks := by
  induction t generalizing ks with
  | nil => simp [Vine] at h; subst h; simp [T.height, T.items]
  | node b l i d r ihl ihr =>
    obtain ⟨rfl, rfl, ks', rfl, h⟩ := h
    have := ihr h
    simp [T.height, T.items, this.1, this.2]

/-- The frames of a vine, and its last node. -/
theorem Vine_last {pre : List Nat} {m : Nat} {t : T Nat} (h : Vine (pre ++ [m]) t) :
    ∃ c i, t = plug c (.node true .nil i m .nil) ∧ (∀ r ks, Vine ks r → Vine (pre ++ ks) (plug c r)) ∧
      (∀ k, (∀ x ∈ pre, x < k) → ∀ (u : T Nat), pathTo id k (plug c u) [] = pathTo id k u c) ∧
      ∀ u : T Nat, (plug c u).items.map (·.2) = pre ++ u.items.map (·.2) := by
  suffices H : ∀ (pre : List Nat) (t : T Nat), Vine (pre ++ [m]) t → ∀ c0 : Ctx Nat,
      ∃ c i, plug c0 t = plug (c ++ c0) (.node true .nil i m .nil) ∧
      (∀ r ks, Vine ks r → Vine (pre ++ ks) (plug c r)) ∧
      (∀ k, (∀ x ∈ pre, x < k) → ∀ (u : T Nat), pathTo id k (plug c u) c0 = pathTo id k u (c ++ c0)) ∧
      (∀ u : T Nat, (plug c u).items.map (·.2) = pre ++ u.items.map (·.2)) by
    have := H pre t h []
    simpa [plug] using this
  intro pre
  induction pre with
  | nil =>
    intro t h c0
    cases t with
    | nil => simp [Vine] at h
    | node b l i d r =>
      obtain ⟨rfl, rfl, ks', e, h⟩ := h
      simp at e
      obtain ⟨rfl, rfl⟩ := e
      have hr : r = .nil := by
        cases r with
        | nil => rfl
        | node => simp [Vine] at h
      subst hr
      exact ⟨[], i, rfl, fun r ks hv => hv, fun _ _ _ => rfl, fun _ => rfl⟩
  | cons p pre ih =>
    intro t h c0
    cases t with
    | nil => simp [Vine] at h
    | node b l i d r =>
      obtain ⟨rfl, rfl, ks', e, h⟩ := h
      simp only [List.cons_append, List.cons.injEq] at e
      obtain ⟨rfl, rfl⟩ := e
      obtain ⟨c, j, h1, h2, h3, h4⟩ := ih r h (.R true .nil i p :: c0)
      refine ⟨c ++ [.R true .nil i p], j, ?_, ?_, ?_, ?_⟩
      · rw [List.append_assoc]; exact h1
      · intro r ks hv
        rw [plug_append]
        exact ⟨rfl, rfl, pre ++ ks, rfl, h2 r ks hv⟩
      · intro k hk u
        rw [plug_append, List.append_assoc]
        simp only [plug, Frame.fill, pathTo, id_eq]
        have := hk p (by simp)
        rw [if_neg (by omega)]
        exact h3 k (fun x hx => hk x (by simp [hx])) u
      · intro u; rw [plug_append]; simp [plug, Frame.fill, T.items, h4]

/-- Deleting a leaf by key. -/
theorem Rbt.delete_leaf {key : α → Nat} {cap : Nat} {s : TreeState α} {b : Book α} {t : T α} {fl : List Nat}
    (h : Inv key cap s b t fl) (hb : t.black = true) {c : Ctx α} {bb : Bool} {i : Nat} {d : α}
    (ht : t = plug c (.node bb .nil i d .nil)) :
    (Rbt.exec key s (.delete (key d))).1 = .ok 0 ∧
    Inv key cap (Rbt.exec key s (.delete (key d))).2 (b.remove i) (plug (Rbt.fixDel c).2 .nil) (i :: fl) ∧
    (plug (Rbt.fixDel c).2 (.nil : T α)).black = true := by
  have hg := getNode_ok (k := key d) (fuel := s.st.cap) h.holds.ok (by rw [h.items]; exact h.asc) h.height_le
  have hroot : s.root = t.root := h.holds.root
  have hm : (i, d) ∈ b.items := by rw [← h.items, ht, items_plug]; simp [T.items]
  have hs : slotOf key (key d) b.items = some i := by
    cases hs : slotOf key (key d) b.items with
    | none => exact absurd ⟨_, hm, rfl⟩ (slotOf_eq_none hs)
    | some j =>
      obtain ⟨d', h1, h2⟩ := slotOf_some hs
      have := eq_of_key h.asc hm h1 h2.symm
      simp at this; rw [this.1]
  obtain ⟨h', e1, e2, e3⟩ := Rbt.removeLeaf_ok (fuel := s.st.cap) (ht ▸ h.holds) (ht ▸ h.size_le) (ht ▸ hb)
  simp only [Rbt.exec, Rbt.delete, hroot, hg, h.items, hs]
  unfold Rbt.deleteNode
  rw [e1]
  exact ⟨rfl, h.delete (ht ▸ e2), e3⟩

/-- One round: from the list `pre ++ [m]` to the list `pre ++ [a, b]`, by adding `b` and `a` and deleting
`m`. -/
theorem vine_round {cap : Nat} {s : TreeState Nat} {bk : Book Nat} {t : T Nat} {fl : List Nat} {pre : List Nat}
    {m a b : Nat} (hi : Inv id cap s bk t fl) (hb : t.black = true) (hv : Vine (pre ++ [m]) t)
    (hpre : ∀ x ∈ pre, x < a) (hab : a < b) (hbm : b < m) (hfl : 2 ≤ fl.length) :
    ∃ bk' t' fl', Inv id cap (final (Rbt.exec id) s [.add b, .add a, .delete m]) bk' t' fl' ∧ t'.black = true ∧
      Vine (pre ++ [a, b]) t' ∧ fl'.length + 1 = fl.length := by
  obtain ⟨c, i, e1, e2, e3, e4⟩ := Vine_last hv
  have hvals : ∀ {bk : Book Nat} {s : TreeState Nat} {t : T Nat} {fl : List Nat}, Inv id cap s bk t fl → ∀ k,
      k ∉ t.items.map (·.2) → ¬ bk.has id (id k) := by
    rintro bk s t fl h k hk ⟨e, he, hke⟩
    exact hk (by rw [h.items]; exact List.mem_map.2 ⟨e, he, hke⟩)
  have hk1 : t.items.map (·.2) = pre ++ [m] := (Vine_height hv).2
  match fl, hfl with
  | n1 :: n2 :: fl, _ =>
    -- add b
    obtain ⟨-, t1, f1, i1, b1⟩ := Rbt.add_new hi hb b (hvals hi b (by
      rw [hk1]; intro hm; rcases List.mem_append.1 hm with hm | hm
      · have := hpre b hm; omega
      · simp at hm; omega))
    have hp1 : pathTo id (id b) t [] = .L true i m .nil :: c := by
      rw [e1, e3 (id b) (fun x hx => by have := hpre x hx; simp; omega)]
      simp [pathTo, hbm]
    have ht1 : t1 = plug c (.node true (.node false .nil n1 b .nil) i m .nil) := by
      rw [hp1] at f1
      cases c with
      | nil => simpa [Rbt.fixAdd, Frame.black, plug, Frame.fill] using f1.symm
      | cons g c => simpa [Rbt.fixAdd, Frame.black, plug, Frame.fill] using f1.symm
    -- add a
    have hk2 : t1.items.map (·.2) = pre ++ [b, m] := by
      rw [ht1, e4]; simp [T.items]
    obtain ⟨-, t2, f2, i2, b2⟩ := Rbt.add_new i1 b1 a (hvals i1 a (by
      rw [hk2]; intro hm; rcases List.mem_append.1 hm with hm | hm
      · have := hpre a hm; omega
      · simp at hm; omega))
    have hp2 : pathTo id (id a) t1 [] = .L false n1 b .nil :: .L true i m .nil :: c := by
      rw [ht1, e3 (id a) (fun x hx => hpre x hx)]
      have : a < m := by omega
      simp [pathTo, hab, this]
    have ht2 : t2 = plug c (.node true (.node false .nil n2 a .nil) n1 b (.node false .nil i m .nil)) := by
      rw [hp2] at f2
      simpa [Rbt.fixAdd, Frame.black, Frame.sib, Rbt.turn] using f2.symm
    -- delete m
    have hmem : (i, m) ∈ t2.items := by rw [ht2, items_plug]; simp [T.items]
    obtain ⟨h1, h2, h3⟩ := Rbt.delete_leaf i2 b2 (c := .R true (.node false .nil n2 a .nil) n1 b :: c) (bb := false)
      (i := i) (d := m) ht2
    have hfd : (Rbt.fixDel (.R true (.node false .nil n2 a .nil) n1 b :: c)).2 =
        .R true .nil n1 b :: .R true .nil n2 a :: c := by
      simp [Rbt.fixDel, Frame.sib, Rbt.redSib, Rbt.rest, Rbt.kidsBlack, Frame.black, Frame.setBlack, Rbt.sibBlack,
        T.setBlack]
    rw [hfd] at h2 h3
    refine ⟨_, _, _, h2, h3, ?_, by simp⟩
    refine e2 (.node true .nil n2 a (.node true .nil n1 b .nil)) [a, b] ?_
    exact ⟨rfl, rfl, [b], rfl, rfl, rfl, [], rfl, rfl⟩

/-- The operations of `n` rounds, starting from the list `0, …, r - 1, m`. -/
def rounds : Nat → Nat → Nat → List (Op Nat)
  | 0, _, _ => []
  | n + 1, r, m => [.add (m - 1), .add r, .delete m] ++ rounds n (r + 1) (m - 1)

theorem final_append (exec : TreeState α → Op α → Outcome CErr Nat × TreeState α) (s : TreeState α)
    (xs ys : List (Op α)) : final exec s (xs ++ ys) = final exec (final exec s xs) ys := by
  induction xs generalizing s with
  | nil => rfl
  | cons x xs ih => exact ih _

theorem vine_rounds {cap : Nat} (n : Nat) : ∀ (s : TreeState Nat) (bk : Book Nat) (t : T Nat) (fl : List Nat) (r m : Nat),
    Inv id cap s bk t fl → t.black = true → Vine (List.range r ++ [m]) t → r + 2 * n ≤ m → n + 1 ≤ fl.length →
    ∃ bk' t' fl', Inv id cap (final (Rbt.exec id) s (rounds n r m)) bk' t' fl' ∧
      Vine (List.range (r + n) ++ [m - n]) t' := by
  induction n with
  | zero => intro s bk t fl r m hi hb hv _ _; exact ⟨bk, t, fl, hi, hv⟩
  | succ n ih =>
    intro s bk t fl r m hi hb hv hm hfl
    obtain ⟨bk', t', fl', h1, h2, h3, h4⟩ := vine_round (a := r) (b := m - 1) hi hb hv (by simp) (by omega) (by omega)
      (by omega)
    have h3' : Vine (List.range (r + 1) ++ [m - 1]) t' := by
      rw [List.range_succ, List.append_assoc]; exact h3
    obtain ⟨bk2, t2, fl2, h5, h6⟩ := ih _ _ _ _ (r + 1) (m - 1) h1 h2 h3' (by omega) (by omega)
    refine ⟨bk2, t2, fl2, ?_, ?_⟩
    · simp only [rounds, final_append]; exact h5
    · rw [show r + (n + 1) = r + 1 + n by omega, show m - (n + 1) = m - 1 - n by omega]; exact h6

/-- The history that turns a red-black tree into a list of `n + 1` nodes. -/
def degenerate (n : Nat) : List (Op Nat) := .add (2 * n) :: rounds n 0 (2 * n)

theorem rounds_plain (n : Nat) : ∀ r m, ∀ op ∈ rounds n r m, Plain op := by
  induction n with
  | zero => intro r m op h; simp [rounds] at h
  | succ n ih =>
    intro r m op h
    simp only [rounds, List.cons_append, List.nil_append, List.mem_cons] at h
    rcases h with rfl | rfl | rfl | h
    · trivial
    · trivial
    · trivial
    · exact ih _ _ op h

/-- C23 is false: for every `n` there is a history of insertions and deletions after which the tree of the
`n + 1` values `0, …, n` has height `n + 1`. -/
theorem rbt_degenerates (n : Nat) (m0 : Mem Nat) {cap : Nat} (hc : n + 2 ≤ cap) (h0 : (m0 (cap - 1)).right = none) :
    (∀ op ∈ degenerate n, Plain op) ∧ ∃ s0, Rbt.withCapacity m0 cap = .ok s0 ∧
      values (final (Rbt.exec id) s0 (degenerate n)) = .ok (List.range (n + 1)) ∧
      treeHeight (final (Rbt.exec id) s0 (degenerate n)) = .ok (n + 1) := by
  refine ⟨?_, ?_⟩
  · intro op h
    rcases List.mem_cons.1 h with rfl | h
    · trivial
    · exact rounds_plain _ _ _ op h
  obtain ⟨st, h1, h2⟩ := init_inv id m0 (show 0 < cap by omega) h0
  refine ⟨⟨st, none⟩, by simp [Rbt.withCapacity, h1], ?_⟩
  obtain ⟨fl, hfl⟩ : ∃ fl, List.range' 0 cap = 0 :: fl := by
    cases cap with
    | zero => omega
    | succ k => exact ⟨_, List.range'_succ⟩
  have hlen : fl.length + 1 = cap := by
    have := congrArg List.length hfl; simp at this; omega
  rw [hfl] at h2
  obtain ⟨-, t1, f1, i1, b1⟩ := Rbt.add_new h2 rfl (2 * n) (by simp [Book.has])
  simp only [pathTo, Rbt.fixAdd, T.setBlack, Option.some.injEq] at f1
  subst f1
  obtain ⟨bk, t, fl', h3, h4⟩ := vine_rounds n _ _ _ fl 0 (2 * n) i1 b1 ⟨rfl, rfl, [], by simp, rfl⟩ (by omega)
    (by omega)
  have hks : List.range (0 + n) ++ [2 * n - n] = List.range (n + 1) := by
    rw [List.range_succ, show 2 * n - n = n by omega, Nat.zero_add]
  rw [hks] at h4
  obtain ⟨v1, v2⟩ := Vine_height h4
  have hroot := h3.holds.root
  simp only [degenerate, final, Rbt.exec]
  simp only [] at hroot
  constructor
  · simp only [values, hroot]; rw [dfs_ok h3.holds.ok h3.height_le, v2]
  · simp only [treeHeight, hroot]; rw [height_ok h3.holds.ok h3.height_le, v1]; simp

/-- So no logarithmic bound holds: with 16 values the height is 16, above `2 log2 17 = 8`. -/
theorem rbt_not_balanced (m0 : Mem Nat) (h0 : (m0 31).right = none) :
    ∃ ops s0 vs h, Rbt.withCapacity m0 32 = .ok s0 ∧ values (final (Rbt.exec id) s0 ops) = .ok vs ∧
      treeHeight (final (Rbt.exec id) s0 ops) = .ok h ∧ 2 * (vs.length + 1).log2 < h := by
  obtain ⟨-, s0, h1, h2, h3⟩ := rbt_degenerates 15 m0 (cap := 32) (by omega) h0
  refine ⟨_, s0, _, _, h1, h2, h3, ?_⟩
  decide

/-- Seven ascending insertions: height 4 (not 7), within `2 log2 8 = 6`. -/
example : (Rbt.withCapacity blank 7 >>= fun s0 => treeHeight (addAll id s0 [1, 2, 3, 4, 5, 6, 7])) = .ok 4 := by
  decide +kernel

end Verif.Collections.Tree
