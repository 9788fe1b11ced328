import Verif.Resources.Spec
import Verif.Gcd.RangeProps
/-! Attribute arithmetic and the single steps of adding a resource. -/
namespace Verif.Resources
open Verif.Gcd Verif.Hob

/-! ### Bits -/

theorem and_eq_iff (x m c n : Nat) (hm : m < 2 ^ n) (hc : c < 2 ^ n) :
    x &&& m = c ↔ ∀ i, i < n → (x.testBit i && m.testBit i) = c.testBit i := by
  constructor
  · intro h i _
    rw [← h, Nat.testBit_and]
  · intro h
    apply Nat.eq_of_testBit_eq
    intro i
    rw [Nat.testBit_and]
    by_cases hi : i < n
    · exact h i hi
    · have hp : 2 ^ n ≤ 2 ^ i := Nat.pow_le_pow_right (by omega) (by omega)
      rw [Nat.testBit_lt_two_pow (x := m) (by omega), Nat.testBit_lt_two_pow (x := c) (by omega), Bool.and_false]

theorem and_pow_ne_zero (x i : Nat) : x &&& 2 ^ i ≠ 0 ↔ x.testBit i = true := by
  constructor
  · intro h
    rcases hb : x.testBit i with _ | _
    · exfalso
      apply h
      apply Nat.eq_of_testBit_eq
      intro j
      rw [Nat.testBit_and, Nat.testBit_two_pow, Nat.zero_testBit]
      by_cases e : i = j
      · subst e; rw [hb]; rfl
      · simp [e]
    · rfl
  · intro h e
    have : (x &&& 2 ^ i).testBit i = true := by
      rw [Nat.testBit_and, h, Nat.testBit_two_pow]; simp
    rw [e] at this
    simp at this

theorem and_pow_eq (x i : Nat) : x &&& 2 ^ i = 2 ^ i ↔ x.testBit i = true := by
  rw [← and_pow_ne_zero]
  constructor
  · intro h e
    rw [h] at e
    exact absurd e (by have := Nat.two_pow_pos i; omega)
  · intro h
    have hb := (and_pow_ne_zero x i).1 h
    apply Nat.eq_of_testBit_eq
    intro j
    rw [Nat.testBit_and, Nat.testBit_two_pow]
    by_cases e : i = j
    · subst e; simp [hb]
    · simp [e]

theorem mask_iff (x c : Nat) (hc : c < 2 ^ 24) :
    x &&& MEMORY_ATTRIBUTE_MASK = c ↔
      ∀ i, i < 24 → (x.testBit i && MEMORY_ATTRIBUTE_MASK.testBit i) = c.testBit i :=
  and_eq_iff x _ c 24 (by decide) hc

theorem tested_iff (x : Nat) : x &&& MEMORY_ATTRIBUTE_MASK = TESTED ↔
    (∀ i ∈ [7, 8, 9, 14, 15, 16, 18, 23], x.testBit i = false) ∧ x.testBit 0 = true ∧ x.testBit 1 = true ∧
      x.testBit 2 = true := by
  rw [mask_iff x TESTED (by decide)]
  simp only [Nat.forall_lt_succ_right, Nat.not_lt_zero, false_implies, implies_true, true_and]
  simp [MEMORY_ATTRIBUTE_MASK, TESTED, Nat.testBit]
  grind

theorem untested_iff (x : Nat) :
    (x &&& MEMORY_ATTRIBUTE_MASK = INITIALIZED ∨ x &&& MEMORY_ATTRIBUTE_MASK = PRESENT) ↔
    (∀ i ∈ [7, 8, 9, 14, 15, 16, 18, 23], x.testBit i = false) ∧ x.testBit 0 = true ∧ x.testBit 2 = false := by
  rw [mask_iff x INITIALIZED (by decide), mask_iff x PRESENT (by decide)]
  simp only [Nat.forall_lt_succ_right, Nat.not_lt_zero, false_implies, implies_true, true_and]
  simp [MEMORY_ATTRIBUTE_MASK, INITIALIZED, PRESENT, Nat.testBit]
  grind

theorem not_has {d : ResourceDescriptor} {i : Nat} : ¬ Has d i ↔ d.attr.toNat.testBit i = false := by
  unfold Has; simp

theorem plain_iff {d : ResourceDescriptor} :
    Plain d ↔ ∀ i ∈ [7, 8, 9, 14, 15, 16, 18, 23], d.attr.toNat.testBit i = false := by
  unfold Plain
  exact ⟨fun h i hi => not_has.1 (h i hi), fun h i hi => not_has.2 (h i hi)⟩

theorem pow_mask {x i m : Nat} (h : m = 2 ^ i) : (x &&& m = m) = (x.testBit i = true) := by
  rw [h]; exact propext (and_pow_eq x i)

theorem pow_mask_zero {x i m : Nat} (h : m = 2 ^ i) : (x &&& m = 0) = (x.testBit i = false) := by
  rw [h]
  apply propext
  have := and_pow_ne_zero x i
  cases hb : x.testBit i <;> simp_all

/-- The code finds the kind of memory the descriptor stands for. -/
theorem mapsTo_iff {d : ResourceDescriptor} {ty : MemType} : MapsTo d ty ↔ memKind d = ty ∧ ty ≠ .nonExistent := by
  have e25 : MORE_RELIABLE = 2 ^ 25 := by decide
  have e23 : PERSISTENT = 2 ^ 23 := by decide
  constructor
  · intro h
    unfold memKind SYSTEM_MEMORY MEMORY_MAPPED_IO FIRMWARE_DEVICE MEMORY_MAPPED_IO_PORT MEMORY_RESERVED
    cases h with
    | tested h0 h1 h2 h3 h4 h5 =>
      have hp := plain_iff.1 h1
      have h23 := hp 23 (by simp)
      have hn : d.attr.toNat.testBit 2 ≠ false := by rw [show _ = true from h4]; simp
      rw [if_pos h0, systemKind, if_neg (by rw [pow_mask e23]; simp [h23]), untestedKind,
        if_neg (fun h => hn ((untested_iff _).1 h).2.2), testedKind, if_pos ((tested_iff _).2 ⟨hp, h2, h3, h4⟩),
        if_neg (by rw [pow_mask e25]; exact h5)]
      exact ⟨rfl, by simp⟩
    | reliable h0 h1 h2 h3 h4 h5 =>
      have hp := plain_iff.1 h1
      have h23 := hp 23 (by simp)
      have hn : d.attr.toNat.testBit 2 ≠ false := by rw [show _ = true from h4]; simp
      rw [if_pos h0, systemKind, if_neg (by rw [pow_mask e23]; simp [h23]), untestedKind,
        if_neg (fun h => hn ((untested_iff _).1 h).2.2), testedKind, if_pos ((tested_iff _).2 ⟨hp, h2, h3, h4⟩),
        if_pos (by rw [pow_mask e25]; exact h5)]
      exact ⟨rfl, by simp⟩
    | untested h0 h1 h2 h3 =>
      have hp := plain_iff.1 h1
      have h23 := hp 23 (by simp)
      rw [if_pos h0, systemKind, if_neg (by rw [pow_mask e23]; simp [h23]), untestedKind,
        if_pos ((untested_iff _).2 ⟨hp, h2, not_has.1 h3⟩)]
      exact ⟨rfl, by simp⟩
    | persistent h0 h1 =>
      rw [if_pos h0, systemKind, if_pos (by rw [pow_mask e23]; exact h1)]
      exact ⟨rfl, by simp⟩
    | device h => rcases h with h | h <;> rw [h] <;> exact ⟨rfl, by simp⟩
    | reserved h => rcases h with h | h <;> rw [h] <;> exact ⟨rfl, by simp⟩
  · rintro ⟨h, hne⟩
    subst h
    unfold memKind at hne ⊢
    split at hne
    · rename_i h0
      rw [if_pos h0]
      unfold systemKind at hne ⊢
      split at hne
      · rename_i h1; rw [if_pos h1]; exact .persistent h0 ((pow_mask e23).mp h1)
      · rename_i h1
        rw [if_neg h1]
        unfold untestedKind at hne ⊢
        split at hne
        · rename_i h2
          rw [if_pos h2]
          rw [untested_iff] at h2
          exact .untested h0 (plain_iff.2 h2.1) h2.2.1 (not_has.2 h2.2.2)
        · rename_i h2
          rw [if_neg h2]
          unfold testedKind at hne ⊢
          split at hne
          · rename_i h3
            rw [if_pos h3]
            rw [tested_iff] at h3
            split
            · rename_i h4; rw [pow_mask e25] at h4; exact .reliable h0 (plain_iff.2 h3.1) h3.2.1 h3.2.2.1 h3.2.2.2 h4
            · rename_i h4; rw [pow_mask e25] at h4; exact .tested h0 (plain_iff.2 h3.1) h3.2.1 h3.2.2.1 h3.2.2.2 h4
          · exact absurd rfl hne
    · rename_i h0
      rw [if_neg h0]
      split at hne
      · rename_i h1; rw [if_pos h1]; exact .device h1
      · rename_i h1
        rw [if_neg h1]
        split at hne
        · rename_i h2; rw [if_pos h2]; exact .reserved h2
        · exact absurd rfl hne

theorem capsLoop_testBit (ty : MemType) (attr j : Nat) : ∀ (l : List (Nat × Nat × Bool)) (acc : Nat),
    (capsLoop ty attr (l.map (fun e => (2 ^ e.1, 2 ^ e.2.1, e.2.2)) ++ [(0, 0, false)]) acc).testBit j = true ↔
      acc.testBit j = true ∨
        ∃ e ∈ l, e.2.1 = j ∧ attr.testBit e.1 = true ∧ (e.2.2 = true ∨ (ty ≠ .systemMemory ∧ ty ≠ .moreReliable))
  | [], acc => by simp [capsLoop]
  | e :: l, acc => by
    have ih := capsLoop_testBit ty attr j l
    have hz : (2 : Nat) ^ e.1 ≠ 0 := by have := Nat.two_pow_pos e.1; omega
    simp only [List.map_cons, List.cons_append, capsLoop, if_neg hz, and_pow_ne_zero]
    split
    · rename_i h
      rw [ih, Nat.testBit_or, Nat.testBit_two_pow]
      simp only [Bool.or_eq_true, decide_eq_true_eq, List.mem_cons, exists_eq_or_imp]
      constructor
      · rintro ((h1 | h1) | h1)
        · exact .inl h1
        · exact .inr (.inl ⟨h1, h.2, h.1⟩)
        · exact .inr (.inr h1)
      · rintro (h1 | h1 | h1)
        · exact .inl (.inl h1)
        · exact .inl (.inr h1.1)
        · exact .inr h1
    · rename_i h
      rw [ih]
      simp only [List.mem_cons, exists_eq_or_imp]
      constructor
      · rintro (h1 | h1)
        · exact .inl h1
        · exact .inr (.inr h1)
      · rintro (h1 | h1 | h1)
        · exact .inl h1
        · exact absurd ⟨h1.2.2, h1.2.1⟩ h
        · exact .inr h1

/-- The table of the code, as bit numbers. -/
def conversionBits : List (Nat × Nat × Bool) :=
  [(10, 0, true), (17, 4, true), (11, 1, true), (12, 2, true), (13, 3, true), (20, 13, true), (21, 12, true), (22, 14, true),
   (19, 17, true), (0, 56, false), (1, 57, false), (2, 58, false), (24, 15, true), (25, 16, true)]

theorem getCapabilities_testBit {d : ResourceDescriptor} {ty : MemType} (j : Nat) :
    (getCapabilities ty d.attr.toNat).testBit j = true ↔ Capable d ty j := by
  have h := capsLoop_testBit ty d.attr.toNat j conversionBits 0
  have e : conversions = conversionBits.map (fun e => (2 ^ e.1, 2 ^ e.2.1, e.2.2)) ++ [(0, 0, false)] := by decide
  unfold getCapabilities
  rw [e, h, Nat.zero_testBit]
  simp only [Bool.false_eq_true, false_or]
  have hm : ∀ e, e ∈ conversionBits ↔ e ∈ capabilityBits := by
    intro e; simp only [conversionBits, capabilityBits, List.mem_cons, List.not_mem_nil, or_false]; grind
  unfold Capable Has
  constructor
  · rintro ⟨e, h1, h2⟩; exact ⟨e, (hm e).1 h1, h2⟩
  · rintro ⟨e, h1, h2⟩; exact ⟨e, (hm e).2 h1, h2⟩

theorem getCapabilities_lt {d : ResourceDescriptor} {ty : MemType} : getCapabilities ty d.attr.toNat < W := by
  unfold W
  apply Nat.lt_pow_two_of_testBit
  intro i hi
  rcases hb : (getCapabilities ty d.attr.toNat).testBit i with _ | _
  · rfl
  · obtain ⟨e, h1, h2, _⟩ := (getCapabilities_testBit i).1 hb
    have : ∀ e ∈ capabilityBits, e.2.1 < 64 := by decide
    have := this e h1
    omega

theorem capability_extra (j : Nat) : (0x8000000000026000 : Nat).testBit j = true ↔ j ∈ [13, 14, 17, 63] := by
  by_cases h : j < 64
  · have : ∀ j, j < 64 → ((0x8000000000026000 : Nat).testBit j = true ↔ j ∈ [13, 14, 17, 63]) := by decide +kernel
    exact this j h
  · have hp : 2 ^ 64 ≤ 2 ^ j := Nat.pow_le_pow_right (by omega) (by omega)
    rw [Nat.testBit_lt_two_pow (by omega)]
    simp only [List.mem_cons, List.not_mem_nil, or_false, Bool.false_eq_true, false_iff]
    omega

theorem placed_caps {d : ResourceDescriptor} {ty : MemType} (j : Nat) :
    (getCapabilities ty d.attr.toNat ||| 0x8000000000026000 |||
      (if ty = .memoryMappedIo then 0x4000000000000000 else 0)).testBit j = true ↔
    Capable d ty j ∨ j ∈ [13, 14, 17, 63] ∨ (j = 62 ∧ ty = .memoryMappedIo) := by
  have e62 : (0x4000000000000000 : Nat) = 2 ^ 62 := by decide
  rw [Nat.testBit_or, Nat.testBit_or, Bool.or_eq_true, Bool.or_eq_true, getCapabilities_testBit, capability_extra, or_assoc]
  have : (if ty = MemType.memoryMappedIo then 0x4000000000000000 else 0 : Nat).testBit j = true ↔
      (j = 62 ∧ ty = .memoryMappedIo) := by
    split
    · rename_i h
      rw [e62, Nat.testBit_two_pow]
      simp only [decide_eq_true_eq, h, and_true]
      exact eq_comm
    · rename_i h
      simp [h]
  rw [this]

theorem wanted_eq (ty : MemType) (x : Nat) : wanted ty x = attributesOf ty (some x) := by
  unfold wanted attributesOf CACHE_ATTRIBUTE_MASK MEMORY_RP
  split <;> rename_i h <;> simp

theorem wanted_lt (ty : MemType) (x : Nat) : wanted ty x < W := by
  have h1 : x &&& 0x101F ≤ 0x101F := Nat.and_le_right
  rw [wanted_eq]
  unfold attributesOf W
  simp only []
  apply Nat.or_lt_two_pow
  · omega
  · split <;> omega

/-! ### Ranges -/

theorem pieces_spec {a f : Nat × Nat} (hf : f.1 ≤ f.2) (x : Nat) :
    (∃ r ∈ pieces a f, r.1 ≤ x ∧ x < r.2) ↔ In a x ∧ ¬ In f x ∧ ¬ (f.1 ≤ a.1 ∧ a.1 < f.2) := by
  unfold pieces removeOverlap In
  split
  · rename_i h
    by_cases h1 : a.1 < f.1 <;> by_cases h2 : f.2 < a.2 <;> simp [h1, h2, List.takeWhile] <;> omega
  · rename_i h
    simp [List.takeWhile]
    omega

/-- What the code makes of a range that begins inside the free memory: nothing, whatever lies behind it. -/
theorem pieces_starts_in {a f : Nat × Nat} (h1 : f.1 ≤ a.1) (h2 : a.1 < f.2) (h3 : a.1 < a.2) : pieces a f = [] := by
  unfold pieces removeOverlap
  rw [if_pos (by omega), if_neg (by omega)]
  simp [List.takeWhile]

theorem pieces_bounds {a f : Nat × Nat} {m : Nat} (ha : a.1 ≤ a.2) (hm : a.2 < m) (hf : f.1 ≤ f.2) :
    ∀ r ∈ pieces a f, r.1 < m ∧ r.2 < m := by
  unfold pieces removeOverlap
  split
  · rename_i h
    by_cases h1 : a.1 < f.1 <;> by_cases h2 : f.2 < a.2 <;> simp [h1, h2, List.takeWhile] <;> omega
  · simp [List.takeWhile]; omega

end Verif.Resources
