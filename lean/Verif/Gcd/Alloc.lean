import Verif.Gcd.Lemmas
import Verif.Gcd.Spec
namespace Verif.Gcd

theorem tiles_after {σ : Type} {s e : Nat} {r1 r2 : List (Block σ)} {b x : Block σ} (h : Tiles s (r1 ++ b :: r2) e) (hx : x ∈ r2) :
    b.base + b.len ≤ x.base := by
  obtain ⟨m, _, h2⟩ := tiles_append.1 h
  have := (tiles_mem h2.2.2 hx).1
  have := h2.1
  omega

theorem oneShl_eq {s : Nat} (hs : s < 64) : oneShl s = 2 ^ s := by unfold oneShl; rw [Nat.mod_eq_of_lt hs]

theorem pow_le63 {s : Nat} (hs : s < 64) : 2 ^ s ≤ 2 ^ 63 := Nat.pow_le_pow_right (by omega) (by omega)

/-- `2 ^ 63` is a multiple of any alignment. -/
theorem mod63 {s : Nat} (hs : s < 64) : 2 ^ 63 % 2 ^ s = 0 := Nat.mod_eq_zero_of_dvd (Nat.pow_dvd_pow 2 (by omega))

theorem le_of_mult {m a b : Nat} (hm : 0 < m) (ha : a % m = 0) (hb : b % m = 0) (h : a < b + m) : a ≤ b := by
  obtain ⟨x, rfl⟩ := Nat.dvd_of_mod_eq_zero ha
  obtain ⟨y, rfl⟩ := Nat.dvd_of_mod_eq_zero hb
  have : x < y + 1 := by
    have h' : m * x < m * (y + 1) := by rw [Nat.mul_add]; omega
    exact Nat.lt_of_mul_lt_mul_left h'
  exact Nat.mul_le_mul_left m (by omega)

/-- `upAddr` is the first multiple of the alignment at or above `start`. -/
theorem upAddr_spec {s start : Nat} (hs : s < 64) (hst : start ≤ 2 ^ 63) :
    upAddr s start % 2 ^ s = 0 ∧ start ≤ upAddr s start ∧ upAddr s start ≤ 2 ^ 63 ∧
      ∀ a, a % 2 ^ s = 0 → start ≤ a → upAddr s start ≤ a := by
  have hW : W = 2 ^ 63 * 2 := rfl
  have hp := Nat.two_pow_pos s
  have hp63 := pow_le63 hs
  have hmod : (start - start % 2 ^ s) % 2 ^ s = 0 := by
    have := Nat.mod_add_div start (2 ^ s)
    have : start - start % 2 ^ s = 2 ^ s * (start / 2 ^ s) := by omega
    rw [this, Nat.mul_mod_right]
  have hlt := Nat.mod_lt start hp
  have hle := Nat.mod_le start (2 ^ s)
  have key : upAddr s start % 2 ^ s = 0 ∧ start ≤ upAddr s start ∧ upAddr s start < start + 2 ^ s := by
    unfold upAddr
    rw [maskShl_and (by omega) hs, oneShl_eq hs]
    simp only []
    by_cases h : start - start % 2 ^ s < start
    · rw [if_pos h]
      have : addw (start - start % 2 ^ s) (2 ^ s) = start - start % 2 ^ s + 2 ^ s := by
        unfold addw; exact Nat.mod_eq_of_lt (by omega)
      rw [this]
      refine ⟨?_, by omega, by omega⟩
      rw [Nat.add_mod_right]; exact hmod
    · rw [if_neg h]
      exact ⟨hmod, by omega, by omega⟩
  have hmin : ∀ a, a % 2 ^ s = 0 → start ≤ a → upAddr s start ≤ a := fun a h1 h2 => le_of_mult hp key.1 h1 (by omega)
  exact ⟨key.1, key.2.1, hmin _ (mod63 hs) hst, hmin⟩

/-- The first usable address of a block that starts at 0. -/
theorem alignPage {s : Nat} (hs : s < 64) : ∃ r, Base.alignUp 64 UEFI_PAGE_SIZE (oneShl s) = .ok r ∧ r % 2 ^ s = 0 ∧ 4096 ≤ r ∧
    r ≤ 2 ^ 63 ∧ ∀ a, a % 2 ^ s = 0 → 4096 ≤ a → r ≤ a := by
  have h4 : UEFI_PAGE_SIZE = 4096 := rfl
  obtain ⟨r, ⟨h1, h2, h3⟩, he⟩ := (Base.alignUp_spec 64 UEFI_PAGE_SIZE (2 ^ s) (by rw [h4]; omega)).1 ⟨s, rfl⟩
  rw [oneShl_eq hs]
  have hmin : ∀ a, a % 2 ^ s = 0 → 4096 ≤ a → r ≤ a := fun a ha hle => h3 a (Nat.dvd_of_mod_eq_zero ha) hle
  have hr : r ≤ 2 ^ 63 := hmin _ (mod63 hs) (by omega)
  rw [if_pos (by omega)] at he
  exact ⟨r, he, Nat.mod_eq_zero_of_dvd h1, h2, hr, hmin⟩

theorem subw_ge {a b : Nat} (h : b ≤ a) (ha : a < W) : subw a b = a - b := by
  unfold subw
  have : a + W - b = (a - b) + W := by omega
  rw [this, Nat.add_mod_right, Nat.mod_eq_of_lt (by omega)]

/-- A block that can host a candidate is tried at an address not above it. -/
theorem upCand_hit {ty : MemType} {shift len max a : Nat} {b : Block Cell} (hs : shift < 64) (hb : b.base + b.len ≤ 2 ^ 63)
    (hh : b.Holds a len) (hty : b.st.type = ty) (hal : a % 2 ^ shift = 0) (ha : 4096 ≤ a) (hle : a + len ≤ max)
    (hlt : b.base = 0 → a + len < max) :
    ∃ x, upCand ty shift len max b = .try_ x ∧ x ≤ a ∧ b.Holds x len := by
  have hW : W = 2 ^ 63 * 2 := rfl
  obtain ⟨hp, h1, h2⟩ := hh
  obtain ⟨u1, u2, u3, u4⟩ := upAddr_spec (start := b.base) hs (by omega)
  have u5 := u4 a hal h1
  unfold upCand
  have e1 : addw (upAddr shift b.base) len = upAddr shift b.base + len := by
    unfold addw; exact Nat.mod_eq_of_lt (by omega)
  rw [if_neg (by omega)]
  simp only []
  rw [e1, if_neg (by omega), if_neg (by simp [hty])]
  by_cases hz : upAddr shift b.base = 0
  · rw [if_pos hz]
    obtain ⟨r, r0, r1, r2, r3, r4⟩ := alignPage hs
    have r5 := r4 a hal ha
    have hbase : b.base = 0 := by omega
    have hlt' := hlt hbase
    have e2 : addw r len = r + len := by unfold addw; exact Nat.mod_eq_of_lt (by omega)
    simp only [r0]
    rw [e2, subw_ge (by omega) (by omega), if_neg (by omega)]
    exact ⟨r, rfl, r5, hp, by omega, by omega⟩
  · rw [if_neg hz]
    exact ⟨_, rfl, u5, hp, u2, by omega⟩

/-- What is known of an address that is tried. -/
theorem upCand_try {ty : MemType} {shift len max x : Nat} {b : Block Cell} (hs : shift < 64) (hb : b.base + b.len ≤ 2 ^ 63)
    (hx : b.Holds x len) (h : upCand ty shift len max b = .try_ x) :
    b.st.type = ty ∧ x % 2 ^ shift = 0 ∧ x ≠ 0 ∧ x + len ≤ max := by
  have hW : W = 2 ^ 63 * 2 := rfl
  obtain ⟨hp, h1, h2⟩ := hx
  obtain ⟨u1, u2, u3, u4⟩ := upAddr_spec (start := b.base) hs (by omega)
  unfold upCand at h
  split at h
  · cases h
  · simp only [] at h
    split at h
    · cases h
    · rename_i hle
      split at h
      · cases h
      · rename_i hty
        have hty : b.st.type = ty := Decidable.not_not.1 hty
        split at h
        · obtain ⟨r, r0, r1, r2, r3, r4⟩ := alignPage hs
          simp only [r0] at h
          split at h
          · cases h
          · rename_i hc
            injection h with h
            subst h
            have e2 : addw r len = r + len := by unfold addw; exact Nat.mod_eq_of_lt (by omega)
            rw [e2] at hc
            exact ⟨hty, r1, by omega, by omega⟩
        · rename_i hz
          injection h with h
          subst h
          have e1 : addw (upAddr shift b.base) len = upAddr shift b.base + len := by
            unfold addw; exact Nat.mod_eq_of_lt (by omega)
          rw [e1] at hle
          exact ⟨hty, u1, hz, by omega⟩

/-- The search is given up only when even the first aligned address of the block is too high. -/
theorem upCand_stop {ty : MemType} {shift len max : Nat} {er : EfiError} {b : Block Cell} (hs : shift < 64)
    (h : upCand ty shift len max b = .stop er) :
    max < upAddr shift b.base + len := by
  have hW : W = 2 ^ 63 * 2 := rfl
  unfold upCand at h
  split at h
  · cases h
  · rename_i hlen
    simp only [] at h
    split at h
    · rename_i hle
      refine Nat.lt_of_lt_of_le (Nat.lt_of_not_le hle) ?_
      unfold addw
      exact Nat.mod_le _ _
    · split at h
      · cases h
      · split at h
        · obtain ⟨r, r0, _⟩ := alignPage hs
          simp only [r0] at h
          split at h <;> cases h
        · cases h

/-- How an allocation can end, given which address may be chosen (`ok`), and which addresses rule out failure and higher or
lower results (`hit`). -/
inductive Alloc (g : Gcd) (len image : Nat) (device : Option Nat) (respect : Bool) (ok : Nat → Prop) (hit : Nat → Prop)
    (best : Nat → Nat → Prop) : Ret Nat → Prop
  | ok (addr : Nat) (c : Cell) (g' : Gcd) : g.cap = SLOTS → Uniform g.blocks addr len c → c.allocated = false →
      c.type ≠ .nonExistent → c.type ≠ .unaccepted → (respect = true → c.image = 0 ∨ c.image = image) → ok addr →
      Updated g.blocks g'.blocks addr len { c with allocated := true, image := image, device := device.getD c.device } →
      SameBut g g' → Inv g' → (∀ a, hit a → best addr a) → Alloc g len image device respect ok hit best (.ok addr, g')
  | err (er : EfiError) : ((∃ a, hit a) → SLOTS < g.blocks.length + 2) → Alloc g len image device respect ok hit best (.err er, g)

theorem free_block {g : Gcd} {ty : MemType} {len image a : Nat} (hg : Good g.blocks g.max) (h : FreeRange g ty len image a) :
    ∃ b ∈ g.blocks, b.Holds a len ∧ b.st.allocated = false ∧ b.st.type = ty ∧ (b.st.image = 0 ∨ b.st.image = image) ∧
      ty ≠ .nonExistent ∧ ty ≠ .unaccepted := by
  obtain ⟨ht1, ht2, c, hu, h1, h2, h3⟩ := h
  obtain ⟨b, hb, hh, hst⟩ := uniform_block hg hu
  rw [← hst] at h1 h2 h3
  exact ⟨b, hb, hh, h1, h2, h3, ht1, ht2⟩

/-- Which candidates bottom-up allocation is bound to consider. -/
def UpHit (g : Gcd) (ty : MemType) (shift len image max a : Nat) : Prop :=
  Candidate g ty shift len image a ∧ 4096 ≤ a ∧ a + len ≤ max ∧ (a + len < max ∨ ∀ c, ¬ Uniform g.blocks 0 (a + len) c)

theorem allocUp_spec {g : Gcd} {ty : MemType} {shift len image max : Nat} {device : Option Nat} (hi : Inv g) (hs : shift < 64)
    (hp : 0 < len) (hl : len < W) :
    Alloc g len image device true
      (fun a => Candidate g ty shift len image a ∧ a + len ≤ max)
      (UpHit g ty shift len image max) (fun r a => r ≤ a)
      (g.allocUp ty shift len image device max) := by
  have hself : ({ g with blocks := g.blocks } : Gcd) = g := rfl
  have hmax := hi.lt
  unfold Gcd.allocUp
  rw [if_neg (by omega)]
  simp only []
  rcases hi.map with ⟨hc, hb⟩ | ⟨hc, hg, hlen⟩
  · have e1 : ∀ er : EfiError, searchUp g.cap (upCand ty shift len max) len (allocTr image device true) er [] g.blocks = (.err er, []) := by
      intro er; rw [hb]; rfl
    rw [e1]
    simp only []
    rw [← hb, hself]
    refine .err _ ?_
    rintro ⟨a, ⟨⟨⟨_, _, c, hu, _⟩, _⟩, _⟩⟩
    exact absurd (hb ▸ hu) uniform_nil
  · have hsrch := searchUp_spec (cap := g.cap) (cand := upCand ty shift len max) (tr := allocTr image device true)
      (final := if max = W - 1 then .outOfResources else .notFound) (before := []) hl hi.ltW (by simpa using hg)
    simp only [List.reverse_nil, List.nil_append] at hsrch
    have hmem : ∀ b ∈ g.blocks, b.base + b.len ≤ 2 ^ 63 ∧ 0 < b.len := by
      intro b hb
      have := tiles_mem hg.tiles hb
      omega
    -- a block with a candidate in it is not passed over
    have hhit : ∀ a, UpHit g ty shift len image max a → ∃ b ∈ g.blocks, b.Holds a len ∧ ∃ x, upCand ty shift len max b = .try_ x ∧
        x ≤ a ∧ Applies b x len (allocTr image device true) := by
      rintro a ⟨⟨hf, hal, hnz⟩, h4, hle, hlt⟩
      obtain ⟨b, hb, hh, h1, h2, h3, ht1, ht2⟩ := free_block hg hf
      obtain ⟨x, hx1, hx2, hx3⟩ := upCand_hit (max := max) hs (hmem b hb).1 hh h2 hal h4 hle (by
        intro h0
        rcases hlt with h | h
        · exact h
        · refine absurd (holds_uniform hg.tiles hb (base := 0) (len := a + len) ⟨by omega, by omega, ?_⟩) (h _)
          have := hh.2.2
          omega)
      refine ⟨b, hb, hh, x, hx1, hx2, hx3, ?_⟩
      rw [allocTr_ok h1 (by rw [h2]; exact ht1) (by rw [h2]; exact ht2) (fun _ => h3)]
      rfl
    have hnpass : ∀ b x, upCand ty shift len max b = .try_ x → Applies b x len (allocTr image device true) →
        ¬ Passes (upCand ty shift len max) len (allocTr image device true) b := by
      intro b x hx ha hpass
      rcases hpass with h | ⟨y, hy, hna⟩
      · rw [hx] at h; cases h
      · rw [hx] at hy; injection hy with hy; subst hy; exact hna ha
    revert hsrch
    generalize searchUp g.cap (upCand ty shift len max) len (allocTr image device true) _ [] g.blocks = r
    obtain ⟨r1, r2⟩ := r
    intro hsrch
    cases hsrch with
    | found p1 p2 b addr st _ h1 h2 h3 h4 h5 h6 h7 h8 =>
      have hb : b ∈ g.blocks := by rw [h1]; simp
      obtain ⟨t1, t2, t3, t4, t5⟩ := allocTr_some h4
      obtain ⟨c1, c2, c3, c4⟩ := upCand_try hs (hmem b hb).1 h5 h3
      have hu := holds_uniform hg.tiles hb h5
      rw [t5] at h7
      refine .ok addr b.st { g with blocks := r2 } hc hu t1 t2 t3 t4 ⟨⟨⟨c1 ▸ t2, c1 ▸ t3, b.st, hu, t1, c1, t4 rfl⟩, c2, c3⟩, c4⟩ h7 (sameBut_mk g r2)
        ⟨hi.pos, hi.lt, Or.inr ⟨hc, h6, by rw [hc] at h8; exact h8 hlen⟩⟩ ?_
      intro a ha
      obtain ⟨b', hb', hh', x, hx1, hx2, hx3⟩ := hhit a ha
      rw [h1] at hb'
      rcases List.mem_append.1 hb' with hb' | hb'
      · exact absurd (h2 b' hb') (hnpass b' x hx1 hx3)
      · rcases List.mem_cons.1 hb' with hb' | hb'
        · subst hb'
          rw [h3] at hx1; injection hx1 with hx1; subst hx1; exact hx2
        · have := tiles_after (h1 ▸ hg.tiles) hb'
          have := h5.2.2
          have := hh'.2.1
          omega
    | none h1 =>
      simp only [hself]
      refine .err _ ?_
      rintro ⟨a, ha⟩
      obtain ⟨b', hb', hh', x, hx1, hx2, hx3⟩ := hhit a ha
      exact absurd (h1 b' hb') (hnpass b' x hx1 hx3)
    | stop p1 p2 b er h1 h2 h3 =>
      simp only [hself]
      refine .err _ ?_
      rintro ⟨a, ha⟩
      obtain ⟨b', hb', hh', x, hx1, hx2, hx3⟩ := hhit a ha
      have hb : b ∈ g.blocks := by rw [h1]; simp
      have hst := upCand_stop hs h3
      obtain ⟨u1, u2, u3, u4⟩ := upAddr_spec (s := shift) (start := b.base) hs (by have := (hmem b hb).1; omega)
      obtain ⟨⟨hf, hal, hnz⟩, h4, hle, hlt⟩ := ha
      rw [h1] at hb'
      rcases List.mem_append.1 hb' with hb' | hb'
      · exact absurd (h2 b' hb') (hnpass b' x hx1 hx3)
      · rcases List.mem_cons.1 hb' with hb' | hb'
        · subst hb'; rw [hx1] at h3; cases h3
        · have := tiles_after (h1 ▸ hg.tiles) hb'
          have := hh'.2.1
          have := u4 a hal (by omega)
          omega
    | full p1 p2 b addr h1 h2 h3 h4 h5 =>
      simp only [hself]
      exact .err _ (fun _ => by rw [hc] at h5; exact h5)

/-- The part of the block up to and including `max`. -/
theorem usableLen_spec {σ : Type} [DecidableEq σ] {max : Nat} {b : Block σ} (hb : b.base + b.len ≤ 2 ^ 63) (hp : 0 < b.len) (hm : b.base ≤ max) :
    b.base + usableLen max b ≤ b.base + b.len ∧ b.base + usableLen max b ≤ max + 1 ∧
      ∀ e, e ≤ b.base + b.len → e ≤ max + 1 → e ≤ b.base + usableLen max b := by
  have hW : W = 2 ^ 63 * 2 := rfl
  have hstop : b.stop = b.base + b.len := stop_eq (e := 2 ^ 63) hb (by omega)
  unfold usableLen
  rw [hstop, subw_ge (by omega) (by omega)]
  by_cases h : b.base + b.len - 1 > max
  · rw [if_pos h]; exact ⟨by omega, by omega, fun e h1 h2 => by omega⟩
  · rw [if_neg h]; exact ⟨by omega, by omega, fun e h1 h2 => by omega⟩

/-- `downAddr` is the last multiple of the alignment that leaves room for `len`. -/
theorem downAddr_spec {σ : Type} [DecidableEq σ] {s len max : Nat} {b : Block σ} (hs : s < 64) (hb : b.base + b.len ≤ 2 ^ 63) (hp : 0 < b.len)
    (hm : b.base ≤ max) (hlen : len ≤ usableLen max b) :
    downAddr s len max b % 2 ^ s = 0 ∧ downAddr s len max b + len ≤ b.base + usableLen max b ∧
      ∀ a, a % 2 ^ s = 0 → a + len ≤ b.base + usableLen max b → a ≤ downAddr s len max b := by
  have hW : W = 2 ^ 63 * 2 := rfl
  obtain ⟨u1, u2, u3⟩ := usableLen_spec hb hp hm
  have e1 : addw b.base (usableLen max b) = b.base + usableLen max b := by
    unfold addw; exact Nat.mod_eq_of_lt (by omega)
  unfold downAddr
  rw [e1, maskShl_and (by omega) hs]
  have hpow := Nat.two_pow_pos s
  generalize hx : b.base + usableLen max b - len = x
  have hlt := Nat.mod_lt x hpow
  have hle := Nat.mod_le x (2 ^ s)
  have hmod : (x - x % 2 ^ s) % 2 ^ s = 0 := by
    have := Nat.mod_add_div x (2 ^ s)
    have : x - x % 2 ^ s = 2 ^ s * (x / 2 ^ s) := by omega
    rw [this, Nat.mul_mod_right]
  refine ⟨hmod, by omega, fun a h1 h2 => le_of_mult hpow h1 hmod (by omega)⟩

theorem downCand_hit {ty : MemType} {shift len max a : Nat} {final : EfiError} {b : Block Cell} (hs : shift < 64)
    (hb : b.base + b.len ≤ 2 ^ 63) (hbp : 0 < b.len) (hm : b.base ≤ max) (hh : b.Holds a len) (hty : b.st.type = ty)
    (hal : a % 2 ^ shift = 0) (ha : a ≠ 0) (hle : a + len ≤ max + 1) :
    ∃ x, downCand ty shift len max final b = .try_ x ∧ a ≤ x ∧ b.Holds x len := by
  obtain ⟨hp, h1, h2⟩ := hh
  obtain ⟨u1, u2, u3⟩ := usableLen_spec hb hbp hm
  have u4 := u3 _ h2 hle
  obtain ⟨d1, d2, d3⟩ := downAddr_spec (s := shift) (len := len) hs hb hbp hm (by omega)
  have d4 := d3 a hal u4
  unfold downCand
  rw [if_neg (by omega), if_neg (by omega), if_neg (by simp [hty]), if_neg (by omega)]
  exact ⟨_, rfl, d4, hp, by omega, by omega⟩

theorem downCand_try {ty : MemType} {shift len max x : Nat} {final : EfiError} {b : Block Cell} (hs : shift < 64)
    (hb : b.base + b.len ≤ 2 ^ 63) (hbp : 0 < b.len) (hm : b.base ≤ max) (h : downCand ty shift len max final b = .try_ x) :
    b.st.type = ty ∧ x % 2 ^ shift = 0 ∧ x ≠ 0 ∧ x + len ≤ max + 1 := by
  unfold downCand at h
  split at h
  · cases h
  · rename_i h1
    obtain ⟨u1, u2, u3⟩ := usableLen_spec hb hbp hm
    obtain ⟨d1, d2, d3⟩ := downAddr_spec (s := shift) (len := len) hs hb hbp hm (by omega)
    split at h
    · cases h
    · split at h
      · cases h
      · rename_i hty
        split at h
        · cases h
        · rename_i hz
          injection h with h
          subst h
          exact ⟨Decidable.not_not.1 hty, d1, hz, by omega⟩

/-- The search is given up only at the block that starts at 0. -/
theorem downCand_stop {ty : MemType} {shift len max : Nat} {final er : EfiError} {b : Block Cell}
    (h : downCand ty shift len max final b = .stop er) : b.base = 0 := by
  unfold downCand at h
  split at h
  · cases h
  · split at h
    · cases h
    · split at h
      · cases h
      · split at h
        · omega
        · cases h

/-- Which candidates top-down allocation is bound to consider. -/
def DownHit (g : Gcd) (ty : MemType) (shift len image max a : Nat) : Prop :=
  Candidate g ty shift len image a ∧ a + len ≤ max + 1

theorem allocDownMax_spec {g : Gcd} {ty : MemType} {shift len image max : Nat} {device : Option Nat} (hi : Inv g) (hs : shift < 64)
    (hp : 0 < len) (hl : len < W) :
    Alloc g len image device true (DownHit g ty shift len image max) (DownHit g ty shift len image max) (fun r a => a ≤ r)
      (g.allocDownMax ty shift len image device max) := by
  have hself : ({ g with blocks := g.blocks } : Gcd) = g := rfl
  have hmax := hi.lt
  unfold Gcd.allocDownMax
  simp only []
  generalize hfin : (if max = W - 1 then EfiError.outOfResources else EfiError.notFound) = final
  rcases hi.map with ⟨hc, hb⟩ | ⟨hc, hg, hlen⟩
  · rw [hb, seek_nil]
    simp only []
    refine .err _ ?_
    rintro ⟨a, ⟨⟨⟨_, _, c, hu, _⟩, _⟩, _⟩⟩
    exact absurd (hb ▸ hu) uniform_nil
  · obtain ⟨z, hz, hplug, hbase, hin, hafter⟩ := seek_spec (k := max) hg.tiles hi.pos
    simp only [hz]
    have hpl : (z.cur :: z.before).reverse ++ z.after = g.blocks := by
      rw [← hplug]; simp [Zip.plug]
    have hsrch := searchDown_spec (cap := g.cap) (cand := downCand ty shift len max final) (tr := allocTr image device true)
      (final := final) (rest := z.cur :: z.before) (after := z.after) hl hi.ltW (by rw [hpl]; exact hg)
    rw [hpl] at hsrch
    have hmem : ∀ b ∈ g.blocks, b.base + b.len ≤ 2 ^ 63 ∧ 0 < b.len := by
      intro b hb
      have := tiles_mem hg.tiles hb
      omega
    have hrm : ∀ b ∈ z.cur :: z.before, b ∈ g.blocks := by
      intro b hb
      rw [← hpl]
      exact List.mem_append_left _ (List.mem_reverse.2 hb)
    have hrb : ∀ b ∈ z.cur :: z.before, b.base ≤ max := by
      intro b hb
      rcases List.mem_cons.1 hb with h | h
      · rw [h]; exact hbase
      · have ht : Tiles 0 (z.before.reverse ++ z.cur :: z.after) g.max := by rw [← hplug] at hg; exact hg.tiles
        obtain ⟨m, t1, t2⟩ := tiles_append.1 ht
        have := tiles_mem t1 (List.mem_reverse.2 h)
        have := t2.1
        omega
    -- a block after another one in the search order lies below it
    have hbelow : ∀ p1 p2 (b x : Block Cell), z.cur :: z.before = p1 ++ b :: p2 → x ∈ p2 → x.base + x.len ≤ b.base := by
      intro p1 p2 b x h1 hx
      have ht : Tiles 0 (p2.reverse ++ b :: (p1.reverse ++ z.after)) g.max := by
        have := hg.tiles
        rw [← hpl, h1] at this
        simpa using this
      obtain ⟨m, t1, t2⟩ := tiles_append.1 ht
      have := tiles_mem t1 (List.mem_reverse.2 hx)
      have := t2.1
      omega
    have hhit : ∀ a, DownHit g ty shift len image max a → ∃ b ∈ z.cur :: z.before, b.Holds a len ∧
        ∃ x, downCand ty shift len max final b = .try_ x ∧ a ≤ x ∧ Applies b x len (allocTr image device true) := by
      rintro a ⟨⟨hf, hal, hnz⟩, hle⟩
      obtain ⟨b, hb, hh, h1, h2, h3, ht1, ht2⟩ := free_block hg hf
      have hh1 := hh.2.1
      have hb' : b ∈ z.cur :: z.before := by
        rw [← hpl] at hb
        rcases List.mem_append.1 hb with h | h
        · exact List.mem_reverse.1 h
        · have := hafter b h
          omega
      obtain ⟨x, hx1, hx2, hx3⟩ := downCand_hit (max := max) (final := final) hs (hmem b hb).1 (hmem b hb).2 (hrb b hb') hh h2 hal hnz hle
      refine ⟨b, hb', hh, x, hx1, hx2, hx3, ?_⟩
      rw [allocTr_ok h1 (by rw [h2]; exact ht1) (by rw [h2]; exact ht2) (fun _ => h3)]
      rfl
    have hnpass : ∀ b x, downCand ty shift len max final b = .try_ x → Applies b x len (allocTr image device true) →
        ¬ Passes (downCand ty shift len max final) len (allocTr image device true) b := by
      intro b x hx ha hpass
      rcases hpass with h | ⟨y, hy, hna⟩
      · rw [hx] at h; cases h
      · rw [hx] at hy; injection hy with hy; subst hy; exact hna ha
    revert hsrch
    generalize searchDown g.cap (downCand ty shift len max final) len (allocTr image device true) final (z.cur :: z.before) z.after = r
    obtain ⟨r1, r2⟩ := r
    intro hsrch
    cases hsrch with
    | found p1 p2 b addr st _ h1 h2 h3 h4 h5 h6 h7 h8 =>
      have hb' : b ∈ z.cur :: z.before := by rw [h1]; simp
      have hb := hrm b hb'
      obtain ⟨t1, t2, t3, t4, t5⟩ := allocTr_some h4
      obtain ⟨c1, c2, c3, c4⟩ := downCand_try hs (hmem b hb).1 (hmem b hb).2 (hrb b hb') h3
      have hu := holds_uniform hg.tiles hb h5
      rw [t5] at h7
      refine .ok addr b.st { g with blocks := r2 } hc hu t1 t2 t3 t4 ⟨⟨⟨c1 ▸ t2, c1 ▸ t3, b.st, hu, t1, c1, t4 rfl⟩, c2, c3⟩, c4⟩ h7 (sameBut_mk g r2)
        ⟨hi.pos, hi.lt, Or.inr ⟨hc, h6, by rw [hc] at h8; exact h8 hlen⟩⟩ ?_
      intro a ha
      obtain ⟨b', hb', hh', x, hx1, hx2, hx3⟩ := hhit a ha
      rw [h1] at hb'
      rcases List.mem_append.1 hb' with hb' | hb'
      · exact absurd (h2 b' hb') (hnpass b' x hx1 hx3)
      · rcases List.mem_cons.1 hb' with hb' | hb'
        · subst hb'
          rw [h3] at hx1; injection hx1 with hx1; subst hx1; exact hx2
        · have := hbelow p1 p2 b b' h1 hb'
          have := h5.2.1
          have := hh'.2.2
          omega
    | none h1 =>
      simp only [hself]
      refine .err _ ?_
      rintro ⟨a, ha⟩
      obtain ⟨b', hb', hh', x, hx1, hx2, hx3⟩ := hhit a ha
      exact absurd (h1 b' hb') (hnpass b' x hx1 hx3)
    | stop p1 p2 b er h1 h2 h3 =>
      simp only [hself]
      refine .err _ ?_
      rintro ⟨a, ha⟩
      obtain ⟨b', hb', hh', x, hx1, hx2, hx3⟩ := hhit a ha
      have hst := downCand_stop h3
      rw [h1] at hb'
      rcases List.mem_append.1 hb' with hb' | hb'
      · exact absurd (h2 b' hb') (hnpass b' x hx1 hx3)
      · rcases List.mem_cons.1 hb' with hb' | hb'
        · subst hb'; rw [hx1] at h3; cases h3
        · have := hbelow p1 p2 b b' h1 hb'
          have := hh'.1
          have := hh'.2.2
          have := hh'.2.1
          omega
    | full p1 p2 b addr h1 h2 h3 h4 h5 =>
      simp only [hself]
      exact .err _ (fun _ => by rw [hc] at h5; exact h5)

theorem allocAddress_spec {g : Gcd} {ty : MemType} {shift len image addr : Nat} {device : Option Nat} (hi : Inv g)
    (hs : shift < 64) (hp : 0 < len) (hl : len < W) (ha : addr < W) :
    Alloc g len image device false (fun a => a = addr ∧ a % 2 ^ shift = 0 ∧ ∃ c, Uniform g.blocks a len c ∧ c.type = ty)
      (fun a => a = addr ∧ a % 2 ^ shift = 0 ∧ ty ≠ .nonExistent ∧ ty ≠ .unaccepted ∧
        ∃ c, Uniform g.blocks a len c ∧ c.allocated = false ∧ c.type = ty) (fun _ _ => True)
      (g.allocAddress ty shift len image device addr) := by
  have hal : (addr = addr &&& maskShl shift) ↔ addr % 2 ^ shift = 0 := by
    rw [maskShl_and ha hs]
    have := Nat.mod_le addr (2 ^ shift)
    omega
  unfold Gcd.allocAddress
  rw [if_neg (by omega)]
  -- what the check on the block at `addr` means
  have hfit : (fitsAddress g ty shift addr = true ∧ (g.blocks = [] ∨ (addr % 2 ^ shift = 0 ∧
      ∀ c, Uniform g.blocks addr len c → c.type = ty))) ∨
      (fitsAddress g ty shift addr = false ∧ ¬ (addr % 2 ^ shift = 0 ∧ ∃ c, Uniform g.blocks addr len c ∧ c.type = ty)) := by
    unfold fitsAddress
    rcases hi.map with ⟨_, hb⟩ | ⟨_, hg, _⟩
    · rw [hb, seek_nil]
      exact .inl ⟨rfl, .inl rfl⟩
    · obtain ⟨z, hz, hplug, hbase, hin, _⟩ := seek_spec (k := addr) hg.tiles hi.pos
      have hst : ∀ c, Uniform g.blocks addr len c → z.cur.st = c := by
        intro c hu
        have := uniform_bounds hg.tiles hu
        exact (uniform_holds hg hu (by rw [← hplug]; exact mem_plug z) hbase (hin (by omega))).2
      simp only [hz]
      by_cases h : z.cur.st.type = ty ∧ addr = addr &&& maskShl shift
      · exact .inl ⟨decide_eq_true h, .inr ⟨hal.1 h.2, fun c hu => by rw [← hst c hu]; exact h.1⟩⟩
      · refine .inr ⟨decide_eq_false h, ?_⟩
        rintro ⟨h1, c, hu, h2⟩
        exact h ⟨by rw [hst c hu]; exact h2, hal.2 h1⟩
  rcases hfit with ⟨hf, hok⟩ | ⟨hf, hno⟩
  · rw [hf, if_neg (by simp)]
    rcases change_cases (g := g) (base := addr) (len := len) (tr := allocTr image device false) (onErr := fun _ _ => .notFound)
      hi hl with ⟨c, c', g', he, h1, h2, h3, h4, h5, h6, _⟩ | ⟨er, he, h1⟩
    · simp only [he]
      obtain ⟨t1, t2, t3, t4, t5⟩ := allocTr_some h3
      rw [t5] at h4
      rcases hok with hok | hok
      · exact absurd (hok ▸ h2) uniform_nil
      · exact .ok addr c g' h1 h2 t1 t2 t3 t4 ⟨rfl, hok.1, c, h2, hok.2 c h2⟩ h4 h5 h6 (fun _ _ => trivial)
    · simp only [he]
      refine .err _ ?_
      rintro ⟨a, rfl, ha1, ht1, ht2, c, hu, ha2, ha3⟩
      exact h1 ⟨c, _, hu, allocTr_ok ha2 (by rw [ha3]; exact ht1) (by rw [ha3]; exact ht2) (by simp)⟩
  · rw [hf, if_pos rfl]
    refine .err _ ?_
    rintro ⟨a, rfl, ha1, ht1, ht2, c, hu, ha2, ha3⟩
    exact absurd ⟨ha1, c, hu, ha3⟩ hno

end Verif.Gcd
