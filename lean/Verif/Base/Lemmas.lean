import Verif.Base.Model
namespace Verif.Base

theorem isPowerOfTwo_iff (x : Nat) : isPowerOfTwo x = true ↔ ∃ k, x = 2 ^ k := by
  unfold isPowerOfTwo
  by_cases h : x = 0
  · subst h
    simp only [Bool.and_eq_true, decide_eq_true_eq, Nat.lt_irrefl, false_and, false_iff, not_exists,
      gt_iff_lt]
    intro k hk
    have := Nat.two_pow_pos k
    omega
  · have h0 : x > 0 := Nat.pos_of_ne_zero h
    simp only [Bool.and_eq_true, decide_eq_true_eq, h0, true_and, beq_iff_eq,
      Nat.and_sub_one_eq_zero_iff_isPowerOfTwo h]
    rfl

/-- Masking with `!(2^k - 1)` rounds down to a multiple of `2^k`. -/
theorem and_compl {w k addr : Nat} (ha : addr < 2 ^ w) :
    addr &&& compl w (2 ^ k - 1) = addr - addr % 2 ^ k := by
  have key : addr &&& compl w (2 ^ k - 1) = (addr / 2 ^ k) <<< k := by
    apply Nat.eq_of_testBit_eq
    intro i
    simp only [compl, Nat.testBit_and, Nat.testBit_xor, Nat.testBit_two_pow_sub_one,
      Nat.testBit_shiftLeft, Nat.testBit_div_two_pow]
    by_cases hi : i < w
    · by_cases hk : i < k
      · simp [hi, hk, Nat.not_le.mpr hk]
      · have hk' : k ≤ i := Nat.le_of_not_lt hk
        simp [hi, hk, hk', Nat.sub_add_cancel hk']
    · have : addr.testBit i = false :=
        Nat.testBit_lt_two_pow (Nat.lt_of_lt_of_le ha (Nat.pow_le_pow_right (by decide) (Nat.le_of_not_lt hi)))
      by_cases hk : k ≤ i
      · simp [this, hk, Nat.sub_add_cancel hk]
      · simp [this, hk]
  rw [key, Nat.shiftLeft_eq]
  have := Nat.div_add_mod addr (2 ^ k)
  have h2 : 2 ^ k * (addr / 2 ^ k) = addr / 2 ^ k * 2 ^ k := Nat.mul_comm _ _
  omega

/-- `addr | (2^k - 1)` is the last address of the `2^k` block containing `addr`. -/
theorem or_mask (k addr : Nat) : addr ||| (2 ^ k - 1) = addr - addr % 2 ^ k + (2 ^ k - 1) := by
  have hlt : 2 ^ k - 1 < 2 ^ k := by have := Nat.two_pow_pos k; omega
  have h1 : addr ||| (2 ^ k - 1) = (addr / 2 ^ k) * 2 ^ k + (2 ^ k - 1) := by
    have e : (addr / 2 ^ k) * 2 ^ k + (2 ^ k - 1) = 2 ^ k * (addr / 2 ^ k) ||| (2 ^ k - 1) := by
      rw [Nat.mul_comm, Nat.two_pow_add_eq_or_of_lt hlt]
    rw [e]
    apply Nat.eq_of_testBit_eq
    intro i
    rw [Nat.testBit_or, Nat.testBit_or, Nat.testBit_two_pow_sub_one, Nat.testBit_two_pow_mul,
      Nat.testBit_div_two_pow]
    by_cases hk : i < k
    · simp [hk]
    · have hk' : k ≤ i := Nat.le_of_not_lt hk
      simp [hk, hk', Nat.sub_add_cancel hk']
  rw [h1]
  have := Nat.div_add_mod addr (2 ^ k)
  have h2 : 2 ^ k * (addr / 2 ^ k) = addr / 2 ^ k * 2 ^ k := Nat.mul_comm _ _
  omega

end Verif.Base
