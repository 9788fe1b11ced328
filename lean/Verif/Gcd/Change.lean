import Verif.Gcd.Search
namespace Verif.Gcd
variable {σ : Type}

theorem holds_uniform {l : List (Block σ)} {e : Nat} (h : Tiles 0 l e) {b : Block σ} (hb : b ∈ l) {base len : Nat}
    (hh : b.Holds base len) : Uniform l base len b.st :=
  ⟨hh.1, fun a h1 h2 => cellAt_mem h hb (by have := hh.2.1; omega) (by have := hh.2.2; omega)⟩

/-- In a coalesced map the block at `base` contains every range starting there whose addresses agree. -/
theorem uniform_aux {s e : Nat} {l : List (Block σ)} (h : Tiles s l e) (hc : Coalesced l) {base n : Nat} {c : σ}
    (hu : ∀ a, base ≤ a → a < base + n → cellAt l a = some c) {b : Block σ} (hb : b ∈ l) (h1 : b.base ≤ base)
    (h2 : base < b.base + b.len) : base + n ≤ b.base + b.len := by
  induction l generalizing s with
  | nil => cases hb
  | cons x l ih =>
    obtain ⟨hx1, hx2, hx3⟩ := h
    rcases List.mem_cons.1 hb with heq | hb'
    · subst heq
      refine Nat.le_of_not_lt fun hlt => ?_
      cases l with
      | nil =>
        have hu' := hu (b.base + b.len) (by omega) hlt
        simp only [cellAt] at hu'
        rw [if_neg (by omega)] at hu'
        cases hu'
      | cons y l =>
        have e1 := hu base (Nat.le_refl _) (by omega)
        have e2 := hu (b.base + b.len) (by omega) hlt
        obtain ⟨hy1, hy2, hy3⟩ := hx3
        simp only [cellAt] at e1 e2
        rw [if_pos ⟨h1, h2⟩] at e1
        rw [if_neg (by omega), if_pos (by omega)] at e2
        exact hc.1 (by injection e1 with e1; injection e2 with e2; rw [e1, e2])
    · have hm := tiles_mem hx3 hb'
      refine ih hx3 (coalesced_tail hc) (fun a ha1 ha2 => ?_) hb'
      have := hu a ha1 ha2
      simp only [cellAt] at this
      rw [if_neg (by omega)] at this
      exact this

theorem uniform_holds {l : List (Block σ)} {e : Nat} (h : Good l e) {base len : Nat} {c : σ} (hu : Uniform l base len c)
    {b : Block σ} (hb : b ∈ l) (h1 : b.base ≤ base) (h2 : base < b.base + b.len) : b.Holds base len ∧ b.st = c := by
  refine ⟨⟨hu.1, h1, uniform_aux h.tiles h.coal hu.2 hb h1 h2⟩, ?_⟩
  have e1 := hu.2 base (Nat.le_refl _) (by have := hu.1; omega)
  rw [cellAt_mem h.tiles hb h1 h2] at e1
  injection e1

theorem uniform_bounds {l : List (Block σ)} {e : Nat} (h : Tiles 0 l e) {base len : Nat} {c : σ} (hu : Uniform l base len c) :
    base + len ≤ e := by
  have := hu.1
  have := (cellAt_bounds h (hu.2 (base + len - 1) (by omega) (by omega))).2
  omega

theorem uniform_block {l : List (Block σ)} {e : Nat} (h : Good l e) {base len : Nat} {c : σ} (hu : Uniform l base len c) :
    ∃ b ∈ l, b.Holds base len ∧ b.st = c := by
  have hb := uniform_bounds h.tiles hu
  have hp := hu.1
  obtain ⟨b, hb, h1, h2, _⟩ := cellAt_some h.tiles (Nat.zero_le base) (by omega : base < e)
  exact ⟨b, hb, uniform_holds h hu hb h1 h2⟩

theorem uniform_unique {l : List (Block σ)} {base len : Nat} {c d : σ} (h1 : Uniform l base len c) (h2 : Uniform l base len d) :
    c = d := by
  have e1 := h1.2 base (Nat.le_refl _) (by have := h1.1; omega)
  have e2 := h2.2 base (Nat.le_refl _) (by have := h1.1; omega)
  rw [e1] at e2; injection e2

theorem updated_uniform {old new : List (Block σ)} {base len : Nat} {c : σ} (hp : 0 < len) (h : Updated old new base len c) :
    Uniform new base len c := ⟨hp, fun a h1 h2 => by rw [h a, if_pos ⟨h1, h2⟩]⟩

theorem updated_trans {l0 l1 l2 : List (Block σ)} {base len : Nat} {c d : σ} (h1 : Updated l0 l1 base len c)
    (h2 : Updated l1 l2 base len d) : Updated l0 l2 base len d := by
  intro a
  rw [h2 a]
  split
  · rfl
  · rename_i h; rw [h1 a, if_neg h]

variable [DecidableEq σ]

/-- How a change of a range can end. -/
inductive Change (cap : Nat) (blocks : List (Block σ)) (e base len : Nat) (tr : σ → Option σ)
    (onErr : σ → BlockErr → EfiError) : Outcome EfiError Unit × List (Block σ) → Prop
  | ok (c c' : σ) (l : List (Block σ)) : Uniform blocks base len c → tr c = some c' → Good l e → Updated blocks l base len c' →
      (blocks.length ≤ cap → l.length ≤ cap) → l.length ≤ blocks.length + 2 → Change cap blocks e base len tr onErr (.ok (), l)
  | full (c c' : σ) : Uniform blocks base len c → tr c = some c' → cap < blocks.length + 2 →
      Change cap blocks e base len tr onErr (.err .outOfResources, blocks)
  | invalid (c : σ) : Uniform blocks base len c → tr c = none →
      Change cap blocks e base len tr onErr (.err (onErr c .invalidStateTransition), blocks)
  | outside (c : σ) : (∀ c, ¬ Uniform blocks base len c) →
      Change cap blocks e base len tr onErr (.err (onErr c .blockOutsideRange), blocks)

theorem changeAt_spec {cap : Nat} {blocks : List (Block σ)} {e base len : Nat} {tr : σ → Option σ}
    {onErr : σ → BlockErr → EfiError} (hl : len < W) (he : e < W) (hpos : 0 < e) (hg : Good blocks e) :
    Change cap blocks e base len tr onErr (changeAt cap blocks base len tr onErr) := by
  obtain ⟨z, hz, hplug, hbase, hin, _⟩ := seek_spec (k := base) hg.tiles hpos
  have hmem : z.cur ∈ blocks := by rw [← hplug]; exact mem_plug z
  have hts := transition_spec (cap := cap) (z := z) (base := base) (len := len) (tr := tr) hl he (by rw [hplug]; exact hg)
  have hnot : ¬ z.cur.Holds base len → ∀ c, ¬ Uniform blocks base len c := by
    intro hn c hu
    have := uniform_bounds hg.tiles hu
    have := hu.1
    exact hn (uniform_holds hg hu hmem hbase (hin (by omega))).1
  unfold changeAt
  simp only [hz]
  cases ht : z.transition cap base len tr with
  | done l =>
    simp only [ht] at hts
    obtain ⟨st, h1, h2, h3, h4, h5, h6⟩ := hts
    rw [hplug] at h4
    exact .ok z.cur.st st l (holds_uniform hg.tiles hmem h2) h1 h3 h4 (by
      intro hcap; apply h5; rw [← plug_length z z.cur, hplug]; exact hcap) (by
      rw [← plug_length z z.cur, hplug] at h6; exact h6)
  | panic => simp only [ht] at hts
  | fail er b =>
    cases er with
    | outOfSpace =>
      simp only [ht] at hts
      obtain ⟨h0, h1, h2, h3⟩ := hts
      obtain ⟨c', hc'⟩ := Option.isSome_iff_exists.1 h2
      simp only [h0, hplug]
      exact .full z.cur.st c' (holds_uniform hg.tiles hmem h1) hc' (by rw [← plug_length z z.cur, hplug] at h3; exact h3)
    | block er =>
      cases er with
      | invalidStateTransition =>
        simp only [ht] at hts
        obtain ⟨h0, h1, h2⟩ := hts
        simp only [h0, hplug]
        exact .invalid z.cur.st (holds_uniform hg.tiles hmem h1) h2
      | blockOutsideRange =>
        simp only [ht] at hts
        obtain ⟨h0, h1⟩ := hts
        simp only [h0, hplug]
        exact .outside z.cur.st (hnot h1)

end Verif.Gcd
