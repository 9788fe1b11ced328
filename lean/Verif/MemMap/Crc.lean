import Verif.MemMap.Model
/-!
The checksum: two byte strings of the same length that differ only in four consecutive bytes have different checksums.
-/
namespace Verif.MemMap

theorem xor_cancel {a b c : Nat} (h : a ^^^ c = b ^^^ c) : a = b := by
  have := congrArg (· ^^^ c) h
  simp only [Nat.xor_assoc, Nat.xor_self, Nat.xor_zero] at this
  exact this

theorem xor_cancel' {a b c : Nat} (h : c ^^^ a = c ^^^ b) : a = b := by
  rw [Nat.xor_comm c a, Nat.xor_comm c b] at h
  exact xor_cancel h

theorem crcBit_lt {s : Nat} (h : s < 2 ^ 32) : crcBit s < 2 ^ 32 := by
  unfold crcBit
  split
  · exact Nat.xor_lt_two_pow (by omega) (by decide)
  · omega

theorem top_bit {s : Nat} (h : s < 2 ^ 32) : (crcBit s).testBit 31 = decide (s % 2 = 1) := by
  unfold crcBit
  have : (s / 2).testBit 31 = false := Nat.testBit_lt_two_pow (by omega)
  split
  · rename_i h1
    rw [Nat.testBit_xor, this]
    simp only [h1]
    decide
  · rename_i h1
    rw [this]; simp [h1]

theorem crcBit_inj {s t : Nat} (hs : s < 2 ^ 32) (ht : t < 2 ^ 32) (h : crcBit s = crcBit t) : s = t := by
  have h1 := top_bit hs
  have h2 := top_bit ht
  rw [h, h2] at h1
  have hp : s % 2 = 1 ↔ t % 2 = 1 := by
    constructor <;> intro hx <;> simp [hx] at h1 <;> exact h1
  unfold crcBit at h
  by_cases hx : s % 2 = 1
  · rw [if_pos hx, if_pos (hp.1 hx)] at h
    have : s / 2 = t / 2 := xor_cancel h
    have := hp.1 hx
    omega
  · have hy : ¬ t % 2 = 1 := fun hy => hx (hp.2 hy)
    rw [if_neg hx, if_neg hy] at h
    omega

theorem crcBits_lt {n s : Nat} (h : s < 2 ^ 32) : crcBits n s < 2 ^ 32 := by
  induction n generalizing s with
  | zero => exact h
  | succ n ih => exact ih (crcBit_lt h)

theorem crcBits_inj {n s t : Nat} (hs : s < 2 ^ 32) (ht : t < 2 ^ 32) (h : crcBits n s = crcBits n t) : s = t := by
  induction n generalizing s t with
  | zero => exact h
  | succ n ih => exact crcBit_inj hs ht (ih (crcBit_lt hs) (crcBit_lt ht) h)

theorem byte_lt (b : UInt8) : b.toNat < 2 ^ 32 := by have := b.toNat_lt; omega

theorem crcByte_lt {s : Nat} (h : s < 2 ^ 32) (b : UInt8) : crcByte s b < 2 ^ 32 :=
  crcBits_lt (Nat.xor_lt_two_pow h (byte_lt b))

theorem crcByte_inj {s t : Nat} (hs : s < 2 ^ 32) (ht : t < 2 ^ 32) {b : UInt8} (h : crcByte s b = crcByte t b) : s = t :=
  xor_cancel (crcBits_inj (Nat.xor_lt_two_pow hs (byte_lt b)) (Nat.xor_lt_two_pow ht (byte_lt b)) h)

theorem crc_lt {s : Nat} (h : s < 2 ^ 32) (l : List UInt8) : l.foldl crcByte s < 2 ^ 32 := by
  induction l generalizing s with
  | nil => exact h
  | cons b l ih => exact ih (crcByte_lt h b)

/-- The same bytes keep different checksums apart. -/
theorem crc_suffix {s t : Nat} (hs : s < 2 ^ 32) (ht : t < 2 ^ 32) {l : List UInt8} (h : l.foldl crcByte s = l.foldl crcByte t) : s = t := by
  induction l generalizing s t with
  | nil => exact h
  | cons b l ih => exact crcByte_inj hs ht (ih (crcByte_lt hs b) (crcByte_lt ht b) h)

theorem crcBits_add (m n s : Nat) : crcBits (m + n) s = crcBits n (crcBits m s) := by
  induction m generalizing s with
  | zero => rw [Nat.zero_add]; rfl
  | succ m ih => rw [Nat.succ_add]; exact ih (crcBit s)

/-- Bits still to come may be added to the state ahead of time. -/
theorem crcBit_xor (s v : Nat) : crcBit (s ^^^ (2 * v)) = crcBit s ^^^ v := by
  have h1 : (s ^^^ (2 * v)) % 2 = s % 2 := by
    have := Nat.testBit_xor s (2 * v) 0
    simp only [Nat.testBit_zero] at this
    have h2 : ¬ (2 * v) % 2 = 1 := by omega
    simp only [h2, decide_false, Bool.xor_false, decide_eq_decide] at this
    omega
  have h2 : (s ^^^ (2 * v)) / 2 = (s / 2) ^^^ v := by
    rw [Nat.xor_div_two]
    congr 1; omega
  unfold crcBit
  rw [h1, h2]
  split
  · rw [Nat.xor_assoc, Nat.xor_comm v, ← Nat.xor_assoc]
  · rfl

theorem crcBits_xor (n s v : Nat) : crcBits n (s ^^^ (2 ^ n * v)) = crcBits n s ^^^ v := by
  induction n generalizing s with
  | zero => rw [Nat.pow_zero, Nat.one_mul]; rfl
  | succ n ih =>
    show crcBits n (crcBit _) = crcBits n (crcBit s) ^^^ v
    rw [Nat.pow_succ, Nat.mul_comm (2 ^ n) 2, Nat.mul_assoc, crcBit_xor, ih]

/-- Four bytes at once. -/
theorem crc_four (s : Nat) (b0 b1 b2 b3 : UInt8) :
    [b0, b1, b2, b3].foldl crcByte s = crcBits 32 (s ^^^ leVal [b0, b1, b2, b3]) := by
  have hv : leVal [b0, b1, b2, b3] = b0.toNat ^^^ (2 ^ 8 * (b1.toNat ^^^ (2 ^ 8 * (b2.toNat ^^^ (2 ^ 8 * b3.toNat))))) := by
    have key : ∀ (b : UInt8) (n : Nat), b.toNat + 256 * n = b.toNat ^^^ (2 ^ 8 * n) := by
      intro b n
      apply Nat.eq_of_testBit_eq
      intro i
      rw [Nat.add_comm, show (256 : Nat) = 2 ^ 8 from rfl, Nat.testBit_two_pow_mul_add _ b.toNat_lt, Nat.testBit_xor,
        Nat.testBit_two_pow_mul]
      by_cases hi : i < 8
      · simp [hi, Nat.not_le.2 hi]
      · have : b.toNat.testBit i = false :=
          Nat.testBit_lt_two_pow (Nat.lt_of_lt_of_le b.toNat_lt (Nat.pow_le_pow_right (by omega) (by omega)))
        simp [hi, this, Nat.le_of_not_lt hi]
    simp only [leVal]
    rw [Nat.mul_zero, Nat.add_zero, key b2, key b1, key b0]
  rw [hv, show (32 : Nat) = 8 + 24 from rfl, crcBits_add, ← Nat.xor_assoc, crcBits_xor]
  rw [show (24 : Nat) = 8 + 16 from rfl, crcBits_add, ← Nat.xor_assoc, crcBits_xor]
  rw [show (16 : Nat) = 8 + 8 from rfl, crcBits_add, ← Nat.xor_assoc, crcBits_xor]
  rfl

/-- Byte strings of the same length that differ only within four consecutive bytes have different checksums. -/
theorem crc32_detects {pre suf u v : List UInt8} (hu : u.length = 4) (hv : v.length = 4) (hne : u ≠ v) :
    crc32 (pre ++ u ++ suf) ≠ crc32 (pre ++ v ++ suf) := by
  intro h
  unfold crc32 at h
  have h := xor_cancel h
  rw [List.foldl_append, List.foldl_append, List.foldl_append, List.foldl_append] at h
  have h0 : pre.foldl crcByte 0xFFFFFFFF < 2 ^ 32 := crc_lt (by decide) pre
  generalize pre.foldl crcByte 0xFFFFFFFF = s at h h0
  have h := crc_suffix (crc_lt h0 u) (crc_lt h0 v) h
  have four : ∀ l : List UInt8, l.length = 4 → ∃ a b c d, l = [a, b, c, d] := by
    intro l hl
    match l, hl with
    | [a, b, c, d], _ => exact ⟨a, b, c, d, rfl⟩
  obtain ⟨a, b, c, d, rfl⟩ := four u hu
  obtain ⟨a', b', c', d', rfl⟩ := four v hv
  rw [crc_four, crc_four] at h
  have hlt : ∀ l : List UInt8, l.length = 4 → leVal l < 2 ^ 32 := fun l hl => by
    have := leVal_lt l
    rw [hl] at this
    exact this
  have h := crcBits_inj (Nat.xor_lt_two_pow h0 (hlt _ hu)) (Nat.xor_lt_two_pow h0 (hlt _ hv)) h
  exact hne (leVal_inj rfl (xor_cancel' h))

theorem crc32_lt (l : List UInt8) : crc32 l < 2 ^ 32 := Nat.xor_lt_two_pow (crc_lt (by decide) l) (by decide)

/-- The check value of CRC-32/ISO-HDLC: the checksum of "123456789". -/
example : crc32 [0x31, 0x32, 0x33, 0x34, 0x35, 0x36, 0x37, 0x38, 0x39] = 0xCBF43926 := by decide +kernel

/-- The checksum cannot tell all strings apart. -/
theorem crc32_collides : ∃ u v : List UInt8, u.length = v.length ∧ u ≠ v ∧ crc32 u = crc32 v :=
  ⟨[0, 0, 0, 0, 0], [1, 150, 48, 7, 119], by decide, by decide, by decide +kernel⟩

/-- The checksum is CRC-32 as IEEE 802.3 defines it: the published check value, the checksum of the
ASCII string "123456789". -/
theorem crc32_check : crc32 [0x31, 0x32, 0x33, 0x34, 0x35, 0x36, 0x37, 0x38, 0x39] = 0xCBF43926 := by
  decide +kernel

end Verif.MemMap
