import Verif.Base.Lemmas
/-!
C01: the alignment helpers compute mathematical rounding, or report an error.
-/
namespace Verif.Base

/-! ### Specification -/

/-- `r` is the greatest multiple of `a` that is at most `v`. -/
def IsRoundDown (v a r : Nat) : Prop := a ∣ r ∧ r ≤ v ∧ ∀ m, a ∣ m → m ≤ v → m ≤ r

/-- `r` is the least multiple of `a` that is at least `v`. -/
def IsRoundUp (v a r : Nat) : Prop := a ∣ r ∧ v ≤ r ∧ ∀ m, a ∣ m → v ≤ m → r ≤ m

/-! ### Arithmetic of rounding -/

theorem isRoundDown_sub_mod (v a : Nat) : IsRoundDown v a (v - v % a) := by
  refine ⟨Nat.dvd_sub_mod v, Nat.sub_le _ _, ?_⟩
  rintro m ⟨c, rfl⟩ hm
  have h1 := Nat.div_add_mod v a
  have h2 : c ≤ v / a ∨ a = 0 := by
    rcases Nat.eq_zero_or_pos a with h | h
    · exact Or.inr h
    · left; exact (Nat.le_div_iff_mul_le h).2 (by rw [Nat.mul_comm]; exact hm)
  rcases h2 with h2 | h2
  · have := Nat.mul_le_mul_left a h2
    omega
  · subst h2; simp

theorem isRoundUp_self {v a : Nat} (h : v % a = 0) : IsRoundUp v a v :=
  ⟨Nat.dvd_of_mod_eq_zero h, Nat.le_refl _, fun _ _ hm => hm⟩

theorem isRoundUp_next {v a : Nat} (h : v % a ≠ 0) (ha : 0 < a) :
    IsRoundUp v a (v - v % a + a) := by
  have hlt := Nat.mod_lt v ha
  refine ⟨Nat.dvd_add (Nat.dvd_sub_mod v) (Nat.dvd_refl a), by omega, ?_⟩
  rintro m ⟨c, rfl⟩ hm
  have h1 := Nat.div_add_mod v a
  have h2 : v / a + 1 ≤ c := by
    apply Nat.lt_of_not_le
    intro hc
    have := Nat.mul_le_mul_left a hc
    omega
  have h3 := Nat.mul_le_mul_left a h2
  rw [Nat.mul_add] at h3
  omega

/-! ### C01 -/

/-- C01 (round down): for a power-of-two alignment `align_down` returns the greatest multiple of
`align` not above `addr`; for any other alignment it returns `InvalidParameter`. -/
theorem alignDown_spec (w addr align : Nat) (ha : addr < 2 ^ w) :
    ((∃ k, align = 2 ^ k) → ∃ r, alignDown w addr align = .ok r ∧ IsRoundDown addr align r) ∧
    ((¬ ∃ k, align = 2 ^ k) → alignDown w addr align = .err .invalidParameter) := by
  constructor
  · rintro ⟨k, rfl⟩
    have hp : isPowerOfTwo (2 ^ k) = true := (isPowerOfTwo_iff _).2 ⟨k, rfl⟩
    refine ⟨addr - addr % 2 ^ k, ?_, isRoundDown_sub_mod _ _⟩
    simp [alignDown, hp, and_compl ha]
  · intro h
    have hp : isPowerOfTwo align = false :=
      Bool.eq_false_iff.2 (fun h' => h ((isPowerOfTwo_iff _).1 h'))
    simp [alignDown, hp]

/-- C01 (round up): for a power-of-two alignment, let `r` be the least multiple of `align` not below
`addr`. `align_up` returns `r` if it fits in the word and `InvalidParameter` otherwise; for any other
alignment it returns `InvalidParameter`. -/
theorem alignUp_spec (w addr align : Nat) (ha : addr < 2 ^ w) :
    ((∃ k, align = 2 ^ k) → ∃ r, IsRoundUp addr align r ∧
        alignUp w addr align = if r < 2 ^ w then .ok r else .err .invalidParameter) ∧
    ((¬ ∃ k, align = 2 ^ k) → alignUp w addr align = .err .invalidParameter) := by
  constructor
  · rintro ⟨k, rfl⟩
    have hp : isPowerOfTwo (2 ^ k) = true := (isPowerOfTwo_iff _).2 ⟨k, rfl⟩
    have hpos := Nat.two_pow_pos k
    by_cases hm : addr % 2 ^ k = 0
    · refine ⟨addr, isRoundUp_self hm, ?_⟩
      simp [alignUp, hp, Nat.and_two_pow_sub_one_eq_mod, hm, ha]
    · refine ⟨addr - addr % 2 ^ k + 2 ^ k, isRoundUp_next hm hpos, ?_⟩
      have e : addr ||| (2 ^ k - 1) = addr - addr % 2 ^ k + (2 ^ k - 1) := or_mask k addr
      have e2 : addr - addr % 2 ^ k + (2 ^ k - 1) + 1 = addr - addr % 2 ^ k + 2 ^ k := by omega
      simp [alignUp, hp, Nat.and_two_pow_sub_one_eq_mod, hm, e, e2]
  · intro h
    have hp : isPowerOfTwo align = false :=
      Bool.eq_false_iff.2 (fun h' => h ((isPowerOfTwo_iff _).1 h'))
    simp [alignUp, hp]

/-- C01 (ranges): if `[base, base+length)` fits in the word and so does its rounded end, `align_range`
returns the smallest aligned range `[b, b+l)` containing it. -/
theorem alignRange_spec (checks : Bool) (w base length k : Nat) (hfit : base + length < 2 ^ w)
    (hend : ∀ r, IsRoundUp (base + length) (2 ^ k) r → r < 2 ^ w) :
    ∃ b l, alignRange checks w base length (2 ^ k) = .ok (b, l) ∧
      IsRoundDown base (2 ^ k) b ∧ IsRoundUp (base + length) (2 ^ k) (b + l) := by
  have hb : base < 2 ^ w := by omega
  obtain ⟨b, hdown, hbd⟩ := (alignDown_spec w base (2 ^ k) hb).1 ⟨k, rfl⟩
  obtain ⟨e, heu, hup⟩ := (alignUp_spec w (base + length) (2 ^ k) hfit).1 ⟨k, rfl⟩
  have he := hend e heu
  have hp : isPowerOfTwo (2 ^ k) = true := (isPowerOfTwo_iff _).2 ⟨k, rfl⟩
  have hbe : b ≤ e := by have := hbd.2.1; have := heu.2.1; omega
  refine ⟨b, e - b, ?_, hbd, by rw [Nat.add_sub_cancel' hbe]; exact heu⟩
  rw [if_pos he] at hup
  have h1 : ¬ (2 ^ w ≤ base + length) := by omega
  have h2 : ¬ (e < b) := by omega
  have h3 : (e + 2 ^ w - b) % 2 ^ w = e - b := by
    have : e + 2 ^ w - b = (e - b) + 2 ^ w := by omega
    rw [this, Nat.add_mod_right, Nat.mod_eq_of_lt (by omega)]
  simp [alignRange, hp, h1, h2, Nat.mod_eq_of_lt hfit, hup, hdown, h3]

/-- C01 (ranges, error side): an alignment that is not a power of two is rejected, and a rounded end
that does not fit in the word is rejected. -/
theorem alignRange_err (checks : Bool) (w base length align : Nat) (hfit : base + length < 2 ^ w)
    (hbad : (¬ ∃ k, align = 2 ^ k) ∨
      ((∃ k, align = 2 ^ k) ∧ ∀ r, IsRoundUp (base + length) align r → 2 ^ w ≤ r)) :
    alignRange checks w base length align = .err .invalidParameter := by
  rcases hbad with h | ⟨h, hr⟩
  · have hp : isPowerOfTwo align = false :=
      Bool.eq_false_iff.2 (fun h' => h ((isPowerOfTwo_iff _).1 h'))
    simp [alignRange, hp]
  · have hp : isPowerOfTwo align = true := (isPowerOfTwo_iff _).2 h
    obtain ⟨e, heu, hup⟩ := (alignUp_spec w (base + length) align hfit).1 h
    have := hr e heu
    rw [if_neg (by omega)] at hup
    have h1 : ¬ (2 ^ w ≤ base + length) := by omega
    simp [alignRange, hp, h1, Nat.mod_eq_of_lt hfit, hup]

/-- Finding about `align_range`: when `base + length` overflows, the release build silently wraps and
returns a range that does not contain the requested one (here: base 0xF0, length 0x18 on 8 bits gives
the range [0xF0, 0xF0+0x20) modulo 2^8 whose end is below its base), while the dev build panics. -/
theorem alignRange_overflow_witness :
    alignRange true 8 0xF0 0x18 16 = .panic ∧ alignRange false 8 0xF0 0x18 16 = .ok (0xF0, 0x20) := by
  decide

/-! Non-vacuity: concrete 64-bit cases meeting the hypotheses. -/
example : alignDown 64 0x12345 0x1000 = .ok 0x12000 := by decide
example : alignUp 64 0x12345 0x1000 = .ok 0x13000 := by decide
example : alignUp 64 0xFFFFFFFFFFFFFFFF 0x1000 = .err .invalidParameter := by decide
example : alignRange true 64 1023 2048 512 = .ok (512, 2560) := by decide
example : (1023 : Nat) + 2048 < 2 ^ 64 ∧ ∀ r, IsRoundUp (1023 + 2048) (2 ^ 9) r → r < 2 ^ 64 :=
  ⟨by decide, fun _ h => Nat.lt_of_le_of_lt (h.2.2 3072 (by decide) (by decide)) (by decide)⟩

end Verif.Base
