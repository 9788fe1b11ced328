import Verif.SdkBoot.MemType
import Verif.Base.Props
/-!
C132: memory types survive their conversion, and the address helpers round.
-/
namespace Verif.SdkBoot.MemType

/-! ### Specification -/

/-- The values that are memory types: the sixteen of the UEFI specification, and those left to OEMs and operating systems. -/
def IsType (v : Nat) : Prop := v ≤ 15 ∨ 0x70000000 ≤ v ∧ v < 2 ^ 32

/-- The memory types there can be: `CustomMemoryType` is made by `fromEfi` only. -/
def Made (t : MemoryType) : Prop := ∃ v, v < 2 ^ 32 ∧ fromEfi v = .ok t ∨ t ∈ [.reservedMemoryType, .loaderCode, .loaderData, .bootServicesCode, .bootServicesData,
  .runtimeServicesCode, .runtimeServicesData, .conventionalMemory, .unusableMemory, .acpiReclaimMemory, .acpiMemoryNvs, .memoryMappedIo,
  .memoryMappedIoPortSpace, .palCode, .persistentMemory, .unacceptedMemoryType]

/-! ### Theorems -/

theorem small (v : Nat) (h : v ≤ 15) : ∃ t, fromEfi v = .ok t ∧ toEfi t = v := by
  have : ∀ v : Fin 16, ∃ t, fromEfi v.1 = .ok t ∧ toEfi t = v.1 := by
    intro ⟨v, hv⟩
    match v, hv with
    | 0, _ | 1, _ | 2, _ | 3, _ | 4, _ | 5, _ | 6, _ | 7, _ | 8, _ | 9, _ | 10, _ | 11, _ | 12, _ | 13, _ | 14, _ | 15, _ => exact ⟨_, rfl, rfl⟩
    | n + 16, h => exfalso; omega
  exact this ⟨v, by omega⟩

theorem large (v : Nat) (h : 15 < v) : fromEfi v = if 0x70000000 ≤ v ∧ v ≤ 0x7FFFFFFF then .ok (.oem v)
    else if 0x80000000 ≤ v ∧ v ≤ 0xFFFFFFFF then .ok (.os v) else .error .invalidParameter := by
  unfold fromEfi
  rw [if_neg (by omega), if_neg (by omega), if_neg (by omega), if_neg (by omega), if_neg (by omega), if_neg (by omega), if_neg (by omega), if_neg (by omega),
    if_neg (by omega), if_neg (by omega), if_neg (by omega), if_neg (by omega), if_neg (by omega), if_neg (by omega), if_neg (by omega), if_neg (by omega)]

/-- A value that is a memory type is converted, and converting back gives it again. -/
theorem value_back (v : Nat) (h : IsType v) : ∃ t, fromEfi v = .ok t ∧ toEfi t = v := by
  by_cases hs : v ≤ 15
  · exact small v hs
  · rw [large v (by omega)]
    unfold IsType at h
    by_cases h1 : v ≤ 0x7FFFFFFF
    · rw [if_pos (by omega)]; exact ⟨_, rfl, rfl⟩
    · rw [if_neg (by omega), if_pos (by omega)]; exact ⟨_, rfl, rfl⟩

/-- Any other value is refused. -/
theorem value_refused (v : Nat) (h : ¬ IsType v) : fromEfi v = .error .invalidParameter := by
  unfold IsType at h
  rw [large v (by omega), if_neg (by omega), if_neg (by omega)]

/-- A memory type goes to a value that is one, and converting back gives it again. -/
theorem type_back (t : MemoryType) (h : Made t) : IsType (toEfi t) ∧ fromEfi (toEfi t) = .ok t := by
  obtain ⟨v, ⟨_, he⟩ | h⟩ := h
  · by_cases hv : IsType v
    · obtain ⟨t', h1, h2⟩ := value_back v hv
      rw [he] at h1
      injection h1 with h1
      subst h1
      rw [h2]
      exact ⟨hv, he⟩
    · rw [value_refused v hv] at he
      cases he
  · have : ∀ t ∈ [MemoryType.reservedMemoryType, .loaderCode, .loaderData, .bootServicesCode, .bootServicesData,
        .runtimeServicesCode, .runtimeServicesData, .conventionalMemory, .unusableMemory, .acpiReclaimMemory, .acpiMemoryNvs, .memoryMappedIo,
        .memoryMappedIoPortSpace, .palCode, .persistentMemory, .unacceptedMemoryType], toEfi t ≤ 15 ∧ fromEfi (toEfi t) = .ok t := by
      intro t ht
      simp only [List.mem_cons, List.not_mem_nil, or_false] at ht
      rcases ht with rfl | rfl | rfl | rfl | rfl | rfl | rfl | rfl | rfl | rfl | rfl | rfl | rfl | rfl | rfl | rfl <;> exact ⟨by decide, rfl⟩
    exact ⟨.inl (this t h).1, (this t h).2⟩

/-- Different memory types have different values. -/
theorem injective (t u : MemoryType) (ht : Made t) (hu : Made u) (h : toEfi t = toEfi u) : t = u := by
  have h1 := (type_back t ht).2
  rw [h, (type_back u hu).2] at h1
  injection h1 with h1
  exact h1.symm

/-- The memory types of the specification are the values of the specification, in its order; the ranges for OEMs and operating systems are kept apart. -/
theorem order : [MemoryType.reservedMemoryType, .loaderCode, .loaderData, .bootServicesCode, .bootServicesData, .runtimeServicesCode, .runtimeServicesData,
    .conventionalMemory, .unusableMemory, .acpiReclaimMemory, .acpiMemoryNvs, .memoryMappedIo, .memoryMappedIoPortSpace, .palCode, .persistentMemory,
    .unacceptedMemoryType].map toEfi = List.range 16 ∧ (∀ v w, fromEfi v = .ok (.oem w) → w = v ∧ 0x70000000 ≤ v ∧ v < 0x80000000) ∧
    ∀ v w, fromEfi v = .ok (.os w) → w = v ∧ 0x80000000 ≤ v ∧ v < 2 ^ 32 := by
  refine ⟨by decide, fun v w h => ?_, fun v w h => ?_⟩
  · by_cases hs : v ≤ 15
    · have : ∀ v : Fin 16, ∀ w, fromEfi v.1 ≠ .ok (.oem w) := by
        intro ⟨v, hv⟩ w
        match v, hv with
        | 0, _ | 1, _ | 2, _ | 3, _ | 4, _ | 5, _ | 6, _ | 7, _ | 8, _ | 9, _ | 10, _ | 11, _ | 12, _ | 13, _ | 14, _ | 15, _ => intro h; cases h
        | n + 16, h => exfalso; omega
      exact absurd h (this ⟨v, by omega⟩ w)
    · rw [large v (by omega)] at h
      split at h
      · injection h with h; injection h with h; exact ⟨h.symm, by omega, by omega⟩
      · split at h
        · injection h with h; cases h
        · cases h
  · by_cases hs : v ≤ 15
    · have : ∀ v : Fin 16, ∀ w, fromEfi v.1 ≠ .ok (.os w) := by
        intro ⟨v, hv⟩ w
        match v, hv with
        | 0, _ | 1, _ | 2, _ | 3, _ | 4, _ | 5, _ | 6, _ | 7, _ | 8, _ | 9, _ | 10, _ | 11, _ | 12, _ | 13, _ | 14, _ | 15, _ => intro h; cases h
        | n + 16, h => exfalso; omega
      exact absurd h (this ⟨v, by omega⟩ w)
    · rw [large v (by omega)] at h
      split at h
      · injection h with h; cases h
      · split at h
        · injection h with h; injection h with h; exact ⟨h.symm, by omega, by omega⟩
        · cases h

/-- The address helper rounds down to the greatest multiple, and panics if the alignment is no power of two. -/
theorem align_down_spec (addr align : Nat) (ha : addr < 2 ^ 64) :
    ((∃ k, align = 2 ^ k) → ∃ r, alignDown addr align = some r ∧ Base.IsRoundDown addr align r) ∧ ((¬ ∃ k, align = 2 ^ k) → alignDown addr align = none) := by
  have h := Base.alignDown_spec 64 addr align ha
  unfold Base.alignDown at h
  unfold alignDown
  cases hp : Base.isPowerOfTwo align with
  | true =>
    rw [hp] at h
    refine ⟨fun hk => ?_, fun hk => ?_⟩
    · obtain ⟨r, h1, h2⟩ := h.1 hk
      injection h1 with h1
      exact ⟨r, by rw [if_pos rfl, h1], h2⟩
    · exact absurd ((Base.isPowerOfTwo_iff _).1 hp) hk
  | false =>
    refine ⟨fun hk => ?_, fun _ => rfl⟩
    rw [(Base.isPowerOfTwo_iff _).2 hk] at hp
    cases hp

/-- The address helper rounds up to the least multiple; it panics if that does not fit in 64 bits or the alignment is no power of two. -/
theorem align_up_spec (addr align : Nat) (ha : addr < 2 ^ 64) :
    ((∃ k, align = 2 ^ k) → ∃ r, Base.IsRoundUp addr align r ∧ alignUp addr align = if r < 2 ^ 64 then some r else none) ∧
    ((¬ ∃ k, align = 2 ^ k) → alignUp addr align = none) := by
  have h := Base.alignUp_spec 64 addr align ha
  unfold Base.alignUp at h
  unfold alignUp
  cases hp : Base.isPowerOfTwo align with
  | true =>
    rw [hp] at h
    refine ⟨fun hk => ?_, fun hk => ?_⟩
    · obtain ⟨r, h1, h2⟩ := h.1 hk
      refine ⟨r, h1, ?_⟩
      simp only [Bool.not_true, Bool.false_eq_true, if_false, beq_iff_eq] at h2
      rw [if_pos rfl]
      by_cases h3 : addr &&& (align - 1) = 0
      · rw [if_pos h3] at h2 ⊢
        by_cases h4 : r < 2 ^ 64
        · rw [if_pos h4] at h2 ⊢; injection h2 with h2; rw [h2]
        · rw [if_neg h4] at h2; cases h2
      · rw [if_neg h3] at h2 ⊢
        by_cases h5 : (addr ||| (align - 1)) + 1 < 2 ^ 64
        · rw [if_pos h5] at h2 ⊢
          by_cases h4 : r < 2 ^ 64
          · rw [if_pos h4] at h2 ⊢; injection h2 with h2; rw [h2]
          · rw [if_neg h4] at h2; cases h2
        · rw [if_neg h5] at h2 ⊢
          by_cases h4 : r < 2 ^ 64
          · rw [if_pos h4] at h2; cases h2
          · rw [if_neg h4]
    · exact absurd ((Base.isPowerOfTwo_iff _).1 hp) hk
  | false =>
    refine ⟨fun hk => ?_, fun _ => rfl⟩
    rw [(Base.isPowerOfTwo_iff _).2 hk] at hp
    cases hp

/-! ### Cases -/

example : fromEfi 0x7FFFFFFF = .ok (.oem 0x7FFFFFFF) ∧ fromEfi 0x80000000 = .ok (.os 0x80000000) ∧ fromEfi 16 = .error .invalidParameter ∧
    fromEfi 9 = .ok .acpiReclaimMemory := ⟨rfl, rfl, rfl, rfl⟩
example : Made (.oem 0x70000001) := ⟨0x70000001, .inl ⟨by decide, rfl⟩⟩
example : alignUp 0x1001 0x1000 = some 0x2000 ∧ alignDown 0x1FFF 0x1000 = some 0x1000 ∧ alignUp (2 ^ 64 - 1) 2 = none ∧ alignUp 5 3 = none := by decide

end Verif.SdkBoot.MemType
