import Verif.Gcd.EngineLemmas
namespace Verif.Gcd
variable {σ : Type}

theorem seekFrom_spec {k : Nat} {before rest : List (Block σ)} {e : Nat} (h : Tiles 0 (before.reverse ++ rest) e)
    (hb : ∀ b ∈ before, b.base ≤ k) (hne : before ≠ [] ∨ ∃ b r, rest = b :: r ∧ b.base ≤ k) :
    ∃ z, seekFrom k before rest = some z ∧ z.plug z.cur = before.reverse ++ rest ∧ z.cur.base ≤ k ∧
      (k < e → k < z.cur.base + z.cur.len) ∧ ∀ b ∈ z.after, k < b.base := by
  induction rest generalizing before with
  | nil =>
    cases before with
    | nil => rcases hne with h | ⟨b, r, h, _⟩ <;> simp at h
    | cons p before =>
      refine ⟨⟨before, p, []⟩, rfl, by simp [Zip.plug], hb p (by simp), ?_, by simp⟩
      intro hk
      simp only [List.append_nil, List.reverse_cons] at h
      obtain ⟨m, _, h2⟩ := tiles_append.1 h
      have h3 := h2.2.2
      have h4 := h2.1
      simp only [Tiles] at h3
      show k < p.base + p.len
      omega
  | cons b after ih =>
    unfold seekFrom
    by_cases hc : b.base ≤ k
    · rw [if_pos hc]
      have h' : Tiles 0 ((b :: before).reverse ++ after) e := by simpa using h
      obtain ⟨z, h1, h2, h3⟩ := ih h' (by
        intro x hx
        rcases List.mem_cons.1 hx with hx | hx
        · subst hx; exact hc
        · exact hb x hx) (Or.inl (by simp))
      exact ⟨z, h1, by rw [h2]; simp, h3⟩
    · rw [if_neg hc]
      cases before with
      | nil =>
        rcases hne with h | ⟨b', r, h, h'⟩
        · exact absurd rfl h
        · simp only [List.cons.injEq] at h; obtain ⟨rfl, _⟩ := h; exact absurd h' hc
      | cons p before =>
        obtain ⟨m, h1, h2⟩ := tiles_append.1 h
        rw [List.reverse_cons] at h1
        obtain ⟨m', _, h4⟩ := tiles_append.1 h1
        have h5 := h4.1
        have h6 := h4.2.2
        simp only [Tiles] at h6
        have h7 := h2.1
        refine ⟨⟨before, p, b :: after⟩, rfl, by simp [Zip.plug], hb p (by simp), ?_, ?_⟩
        · intro _; show k < p.base + p.len; omega
        · intro x hx
          rcases List.mem_cons.1 hx with hx | hx
          · subst hx; omega
          · have := (tiles_mem h2.2.2 hx).1; omega

/-- The block found is the one holding the address. -/
theorem seek_spec {k : Nat} {blocks : List (Block σ)} {e : Nat} (h : Tiles 0 blocks e) (he : 0 < e) :
    ∃ z, seek k blocks = some z ∧ z.plug z.cur = blocks ∧ z.cur.base ≤ k ∧
      (k < e → k < z.cur.base + z.cur.len) ∧ ∀ b ∈ z.after, k < b.base := by
  cases blocks with
  | nil => simp only [Tiles] at h; omega
  | cons b r =>
    have := seekFrom_spec (k := k) (before := []) (rest := b :: r) (e := e) (by simpa using h) (by simp)
      (Or.inr ⟨b, r, rfl, by rw [h.1]; omega⟩)
    simpa [seek] using this

theorem seek_nil {k : Nat} : seek k ([] : List (Block σ)) = none := rfl

theorem plug_length (z : Zip σ) (b : Block σ) : (z.plug b).length = z.size := by
  simp [Zip.plug, Zip.size]; omega

theorem mem_plug (z : Zip σ) : z.cur ∈ z.plug z.cur := by simp [Zip.plug]

variable [DecidableEq σ]

/-- The search passes over this block: it is skipped, or taking the range from it fails. -/
def Passes (cand : Block σ → Cand) (len : Nat) (tr : σ → Option σ) (b : Block σ) : Prop :=
  cand b = .skip ∨ ∃ addr, cand b = .try_ addr ∧ ¬ Applies b addr len tr

/-- How a search over the blocks `rest` can end. -/
inductive Search (cap : Nat) (cand : Block σ → Cand) (len : Nat) (tr : σ → Option σ) (final : EfiError) (e : Nat)
    (blocks rest : List (Block σ)) : Outcome EfiError Nat → List (Block σ) → Prop
  | found (r1 r2 : List (Block σ)) (b : Block σ) (addr : Nat) (st : σ) (l : List (Block σ)) :
      rest = r1 ++ b :: r2 → (∀ x ∈ r1, Passes cand len tr x) → cand b = .try_ addr → tr b.st = some st → b.Holds addr len →
      Good l e → (∀ a, cellAt l a = if addr ≤ a ∧ a < addr + len then some st else cellAt blocks a) →
      (blocks.length ≤ cap → l.length ≤ cap) →
      Search cap cand len tr final e blocks rest (.ok addr) l
  | none : (∀ x ∈ rest, Passes cand len tr x) → Search cap cand len tr final e blocks rest (.err final) blocks
  | stop (r1 r2 : List (Block σ)) (b : Block σ) (er : EfiError) :
      rest = r1 ++ b :: r2 → (∀ x ∈ r1, Passes cand len tr x) → cand b = .stop er →
      Search cap cand len tr final e blocks rest (.err er) blocks
  | full (r1 r2 : List (Block σ)) (b : Block σ) (addr : Nat) :
      rest = r1 ++ b :: r2 → (∀ x ∈ r1, Passes cand len tr x) → cand b = .try_ addr → Applies b addr len tr →
      cap < blocks.length + 2 →
      Search cap cand len tr final e blocks rest (.err .outOfResources) blocks

theorem Search.cons {cap : Nat} {cand : Block σ → Cand} {len : Nat} {tr : σ → Option σ} {final : EfiError} {e : Nat}
    {blocks rest : List (Block σ)} {b : Block σ} {o : Outcome EfiError Nat} {l : List (Block σ)} (hp : Passes cand len tr b)
    (h : Search cap cand len tr final e blocks rest o l) : Search cap cand len tr final e blocks (b :: rest) o l := by
  have ext : ∀ r1 : List (Block σ), (∀ x ∈ r1, Passes cand len tr x) → ∀ x ∈ b :: r1, Passes cand len tr x := by
    intro r1 h x hx
    rcases List.mem_cons.1 hx with hx | hx
    · subst hx; exact hp
    · exact h x hx
  cases h with
  | found r1 r2 b' addr st _ h1 h2 h3 h4 h5 h6 h7 h8 =>
    exact .found (b :: r1) r2 b' addr st l (by rw [h1]; rfl) (ext r1 h2) h3 h4 h5 h6 h7 h8
  | none h1 => exact .none (ext rest h1)
  | stop r1 r2 b' er h1 h2 h3 => exact .stop (b :: r1) r2 b' er (by rw [h1]; rfl) (ext r1 h2) h3
  | full r1 r2 b' addr h1 h2 h3 h4 h5 => exact .full (b :: r1) r2 b' addr (by rw [h1]; rfl) (ext r1 h2) h3 h4 h5

theorem searchUp_spec {cap : Nat} {cand : Block σ → Cand} {len : Nat} {tr : σ → Option σ} {final : EfiError} {e : Nat}
    {before rest : List (Block σ)} (hl : len < W) (he : e < W) (hg : Good (before.reverse ++ rest) e) :
    Search cap cand len tr final e (before.reverse ++ rest) rest
      (searchUp cap cand len tr final before rest).1 (searchUp cap cand len tr final before rest).2 := by
  induction rest generalizing before with
  | nil =>
    have h := Search.none (cap := cap) (cand := cand) (len := len) (tr := tr) (final := final) (e := e)
      (blocks := before.reverse) (rest := []) (by simp)
    simpa [searchUp] using h
  | cons b after ih =>
    have hz : (Zip.mk before b after).plug b = before.reverse ++ b :: after := rfl
    have hg' : Good ((b :: before).reverse ++ after) e := by simpa using hg
    have hx : (b :: before).reverse ++ after = before.reverse ++ b :: after := by simp
    unfold searchUp
    cases hc : cand b with
    | skip =>
      simp only []
      have := ih hg'
      rw [hx] at this
      exact this.cons (Or.inl hc)
    | stop er => exact .stop [] after b er rfl (by simp) hc
    | try_ addr =>
      simp only []
      have hspec := transition_spec (cap := cap) (z := Zip.mk before b after) (base := addr) (tr := tr) hl he (by rw [hz]; exact hg)
      cases ht : (Zip.mk before b after).transition cap addr len tr with
      | done l =>
        rw [ht] at hspec
        obtain ⟨st, h1, h2, h3, h4, h5, _⟩ := hspec
        exact .found [] after b addr st l rfl (by simp) hc h1 h2 h3 h4 (by rw [← hz, plug_length]; exact h5)
      | fail er b' =>
        rw [ht] at hspec
        cases er with
        | outOfSpace =>
          obtain ⟨h1, h2, h3, h4⟩ := hspec
          have h1' : b' = b := h1
          subst h1'
          exact .full [] after b' addr rfl (by simp) hc ⟨h2, h3⟩ (by rw [← hz, plug_length]; exact h4)
        | block er =>
          have key : b' = b ∧ ¬ Applies b addr len tr := by
            cases er with
            | invalidStateTransition =>
              obtain ⟨h1, h2, h3⟩ := hspec
              exact ⟨h1, fun h => by have := h.2; simp only [] at h3; rw [h3] at this; cases this⟩
            | blockOutsideRange =>
              obtain ⟨h1, h2⟩ := hspec
              exact ⟨h1, fun h => h2 h.1⟩
          obtain ⟨rfl, hn⟩ := key
          simp only []
          have := ih hg'
          rw [hx] at this
          exact this.cons (Or.inr ⟨addr, hc, hn⟩)
      | panic => rw [ht] at hspec; exact hspec.elim

theorem searchDown_spec {cap : Nat} {cand : Block σ → Cand} {len : Nat} {tr : σ → Option σ} {final : EfiError} {e : Nat}
    {rest after : List (Block σ)} (hl : len < W) (he : e < W) (hg : Good (rest.reverse ++ after) e) :
    Search cap cand len tr final e (rest.reverse ++ after) rest
      (searchDown cap cand len tr final rest after).1 (searchDown cap cand len tr final rest after).2 := by
  induction rest generalizing after with
  | nil =>
    have h := Search.none (cap := cap) (cand := cand) (len := len) (tr := tr) (final := final) (e := e)
      (blocks := after) (rest := []) (by simp)
    simpa [searchDown] using h
  | cons b before ih =>
    have hx : (b :: before).reverse ++ after = before.reverse ++ b :: after := by simp
    have hz : (Zip.mk before b after).plug b = (b :: before).reverse ++ after := by rw [hx]; rfl
    have hg' : Good (before.reverse ++ b :: after) e := by rw [← hx]; exact hg
    unfold searchDown
    cases hc : cand b with
    | skip =>
      simp only []
      have := ih hg'
      rw [← hx] at this
      exact this.cons (Or.inl hc)
    | stop er =>
      simp only []
      rw [← hx]
      exact .stop [] before b er rfl (by simp) hc
    | try_ addr =>
      simp only []
      have hspec := transition_spec (cap := cap) (z := Zip.mk before b after) (base := addr) (tr := tr) hl he (by rw [hz]; exact hg)
      cases ht : (Zip.mk before b after).transition cap addr len tr with
      | done l =>
        rw [ht] at hspec
        obtain ⟨st, h1, h2, h3, h4, h5, _⟩ := hspec
        exact .found [] before b addr st l rfl (by simp) hc h1 h2 h3 (by rw [← hz]; exact h4)
          (by rw [← hz, plug_length]; exact h5)
      | fail er b' =>
        rw [ht] at hspec
        cases er with
        | outOfSpace =>
          obtain ⟨h1, h2, h3, h4⟩ := hspec
          have h1' : b' = b := h1
          subst h1'
          simp only []
          rw [← hx]
          exact .full [] before b' addr rfl (by simp) hc ⟨h2, h3⟩ (by rw [← hz, plug_length]; exact h4)
        | block er =>
          have key : b' = b ∧ ¬ Applies b addr len tr := by
            cases er with
            | invalidStateTransition =>
              obtain ⟨h1, h2, h3⟩ := hspec
              exact ⟨h1, fun h => by have := h.2; simp only [] at h3; rw [h3] at this; cases this⟩
            | blockOutsideRange =>
              obtain ⟨h1, h2⟩ := hspec
              exact ⟨h1, fun h => h2 h.1⟩
          obtain ⟨rfl, hn⟩ := key
          simp only []
          have := ih hg'
          rw [← hx] at this
          exact this.cons (Or.inr ⟨addr, hc, hn⟩)
      | panic => rw [ht] at hspec; exact hspec.elim

end Verif.Gcd
