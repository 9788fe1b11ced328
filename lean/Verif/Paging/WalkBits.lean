import Verif.Paging.WalkOk
/-!
The attributes the services compute, bit by bit.
-/
namespace Verif.Paging
open Verif.Gcd

theorem andNot_testBit {a b : Nat} (hb : b < W) (i : Nat) : (andNot a b).testBit i = (a.testBit i && (decide (i < 64) && !b.testBit i)) := by
  unfold andNot
  rw [Nat.testBit_and]
  have : W - 1 - b = 2 ^ 64 - (b + 1) := by have : W = 2 ^ 64 := by decide
                                            omega
  rw [this, Nat.testBit_two_pow_sub_succ (by have : W = 2 ^ 64 := by decide
                                             omega)]

theorem testBit_ge {a i : Nat} (h : a < W) (hi : 64 ≤ i) : a.testBit i = false := by
  apply Nat.testBit_lt_two_pow
  have : W = 2 ^ 64 := by decide
  exact Nat.lt_of_lt_of_le (by omega) (Nat.pow_le_pow_right (by decide) hi)

theorem testBit_lt64 {a i : Nat} (h : a < W) (hi : a.testBit i = true) : i < 64 := by
  apply Classical.byContradiction
  intro hc
  rw [testBit_ge h (by omega)] at hi
  cases hi

/-- Clearing attributes removes those, and no others. -/
theorem andNot_bits {a b : Nat} (ha : a < W) (hb : b < W) (i : Nat) : (andNot a b).testBit i = (a.testBit i && !b.testBit i) := by
  rw [andNot_testBit hb]
  by_cases hi : i < 64
  · simp [hi]
  · rw [testBit_ge ha (by omega)]; simp

theorem andNot_lt {a b : Nat} (ha : a < W) : andNot a b < W := mask_lt _ ha

theorem bit_of_and_eq {a m : Nat} (h : a &&& m = a) {i : Nat} (hi : m.testBit i = false) : a.testBit i = false := by
  rw [← h, Nat.testBit_and, hi, Bool.and_false]

theorem bit_of_and_zero {a m : Nat} (h : a &&& m = 0) {i : Nat} (hi : m.testBit i = true) : a.testBit i = false := by
  have : (a &&& m).testBit i = false := by rw [h]; exact Nat.zero_testBit i
  rwa [Nat.testBit_and, hi, Bool.and_true] at this

/-- What the new attributes are, bit by bit: the access attributes are the requested ones, the cache attributes the requested ones if
any are requested, the others are left alone. (0x26000 the access attributes, 0x101F the cache attributes.) -/
theorem newAttributes_bits {access old : Nat} {cache : Option Nat} (ho : old < W) (ha : access &&& 0x26000 = access)
    (hc : ∀ c, cache = some c → c &&& 0x101F = c) (i : Nat) :
    (newAttributes access cache old).testBit i =
      if Nat.testBit 0x26000 i then access.testBit i
      else match cache with
        | some c => if Nat.testBit 0x101F i then c.testBit i else old.testBit i
        | none => old.testBit i := by
  have e1 : MEMORY_ACCESS_MASK = 0x26000 := by decide
  have e2 : CACHE_ATTRIBUTE_MASK = 0x101F := by decide
  have d : 0x26000 &&& 0x101F = 0 := by decide
  have dis : Nat.testBit 0x26000 i = true → Nat.testBit 0x101F i = false := fun h => by
    have h2 : (0x26000 &&& 0x101F : Nat).testBit i = false := by rw [d]; exact Nat.zero_testBit i
    rw [Nat.testBit_and, h, Bool.true_and] at h2
    exact h2
  have l1 : Nat.testBit 0x26000 i = true → i < 64 := testBit_lt64 (by decide)
  have l2 : Nat.testBit 0x101F i = true → i < 64 := testBit_lt64 (by decide)
  have l3 : old.testBit i = true → i < 64 := testBit_lt64 ho
  have l4 : access.testBit i = true → i < 64 := testBit_lt64 (by rw [← ha]; exact Nat.lt_of_le_of_lt Nat.and_le_right (by decide))
  have ka := bit_of_and_eq (i := i) ha
  unfold newAttributes
  rw [e1, e2]
  cases cache with
  | none =>
    dsimp only
    rw [Nat.testBit_or, andNot_testBit (by decide)]
    cases hM : Nat.testBit 0x26000 i
    · rw [ka hM]
      cases ho' : old.testBit i
      · simp
      · simp [l3 ho']
    · simp
  | some c =>
    have kc := bit_of_and_eq (i := i) (hc c rfl)
    dsimp only
    rw [Nat.testBit_or, andNot_testBit (by decide), Nat.testBit_or, andNot_testBit (by decide)]
    cases hM : Nat.testBit 0x26000 i
    · rw [ka hM]
      cases hC : Nat.testBit 0x101F i
      · rw [kc hC]
        cases ho' : old.testBit i
        · simp
        · simp [l3 ho']
      · simp
    · rw [dis hM, kc (dis hM)]
      simp [l1 hM]

theorem newAttributes_lt {access old : Nat} {cache : Option Nat} (ho : old < W) (ha : access < W) (hc : ∀ c, cache = some c → c < W) :
    newAttributes access cache old < W := by
  unfold newAttributes
  cases cache with
  | none => exact or_lt (andNot_lt ho) ha
  | some c => exact or_lt (andNot_lt (or_lt (andNot_lt ho) ha)) (hc c rfl)

/-- The new attributes have the requested access. -/
theorem newAttributes_access {access old : Nat} {cache : Option Nat} (ho : old < W) (ha : access &&& 0x26000 = access)
    (hc : ∀ c, cache = some c → c &&& 0x101F = c) : newAttributes access cache old &&& 0x26000 = access := by
  apply Nat.eq_of_testBit_eq
  intro i
  rw [Nat.testBit_and, newAttributes_bits ho ha hc]
  cases hM : Nat.testBit 0x26000 i
  · rw [bit_of_and_eq ha hM]; simp
  · simp

theorem cache_disjoint {i : Nat} (hC : Nat.testBit 0x101F i = true) : Nat.testBit 0x26000 i = false := by
  have h2 : (0x26000 &&& 0x101F : Nat).testBit i = false := by rw [show 0x26000 &&& 0x101F = 0 from by decide]; exact Nat.zero_testBit i
  rw [Nat.testBit_and, hC, Bool.and_true] at h2
  exact h2

theorem newAttributes_cache {access old : Nat} {cache : Option Nat} (ho : old < W) (ha : access &&& 0x26000 = access)
    (hc : ∀ c, cache = some c → c &&& 0x101F = c) :
    newAttributes access cache old &&& 0x101F = match cache with | some c => c | none => old &&& 0x101F := by
  apply Nat.eq_of_testBit_eq
  intro i
  rw [Nat.testBit_and, newAttributes_bits ho ha hc]
  cases hC : Nat.testBit 0x101F i
  · cases cache with
    | none => simp [hC]
    | some c => dsimp only; rw [bit_of_and_eq (hc c rfl) hC]; simp
  · rw [cache_disjoint hC]
    cases cache <;> simp [hC]

theorem newAttributes_pt {access old : Nat} {cache : Option Nat} (ho : old < W) (ha : access &&& 0x26000 = access) (h0 : access ≠ 0)
    (hc : ∀ c, cache = some c → c &&& 0x101F = c) : newAttributes access cache old &&& PT_MASK ≠ 0 := by
  intro h
  apply h0
  have := newAttributes_access ho ha hc
  rw [← this, show (0x26000 : Nat) = PT_MASK &&& 0x26000 from by decide, ← Nat.and_assoc, h, Nat.zero_and]

/-! ### The kinds of access and caching -/

theorem and_and_of {a m k : Nat} (h : m &&& k = k) : (a &&& m) &&& k = a &&& k := by rw [Nat.and_assoc, h]

theorem accessOf_mask (a : Nat) : AccessType.ofAttributes (a &&& 0x26000) = AccessType.ofAttributes a := by
  unfold AccessType.ofAttributes
  rw [and_and_of (by decide), and_and_of (by decide)]

theorem cachingOf_mask (a : Nat) : CachingType.ofAttributes (a &&& 0x101F) = CachingType.ofAttributes a := by
  unfold CachingType.ofAttributes
  rw [and_and_of (by decide)]

/-- The attributes asked for stand for the access asked for. -/
theorem accessAttributes_spec {t : AccessType} {a : Nat} (h : accessAttributes t = some a) :
    a &&& 0x26000 = a ∧ a ≠ 0 ∧ a < W ∧ AccessType.ofAttributes a = t ∧ (a.testBit 13 = true ∨ a.testBit 14 = true ∨ a.testBit 17 = true) := by
  cases t <;> cases h <;> decide

theorem cacheAttributes_spec {t : Option CachingType} {c : Option Nat} (h : cacheAttributes t = some c) :
    (∀ x, c = some x → x &&& 0x101F = x ∧ x < W ∧ CachingType.ofAttributes x = t) ∧ (t = none → c = none) ∧ (∀ k, t = some k → ∃ x, c = some x) := by
  cases t with
  | none => simp only [cacheAttributes] at h; injection h with h; subst h; exact ⟨fun x hx => (by cases hx), fun _ => rfl, fun k hk => (by cases hk)⟩
  | some t =>
    cases t <;> cases h <;>
      exact ⟨fun x hx => by injection hx with hx; subst hx; decide, fun hk => (by cases hk), fun _ _ => ⟨_, rfl⟩⟩

end Verif.Paging
