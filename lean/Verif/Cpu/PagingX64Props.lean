import Verif.Cpu.PagingX64
/-!
C131: the page table of x64 with its cache attributes.
-/
namespace Verif.Cpu.PagingX64

/-! ### Specification -/

/-- Only known attributes: no bit outside the two masks. -/
def Known (a : Attrs) : Prop := ∀ i, i < 64 → a.toNat.testBit i = true → i ∈ [0, 1, 2, 3, 4, 12, 13, 14, 17]

/-- The cache type an attribute asks for. -/
def Asks (a : Attrs) (t : CacheType) : Prop :=
  (a, t) ∈ [((1 : Attrs), CacheType.uncacheable), (2, .writeCombining), (4, .writeThrough), (8, .writeBack), (0x1000, .writeProtected)]

/-- The crates do what their calls say: a successful change of the cache type holds for the range and nothing else, a successful mapping is what a query of
the range gives, and the two do not affect each other. -/
structure Honest {σ : Type} (P : Parts σ) : Prop where
  set : ∀ {b n t s s'}, P.setCache b n t s = (.ok (), s') → ∀ a, P.cacheAt s' a = if b ≤ a ∧ a < b + n then t else P.cacheAt s a
  map : ∀ {b n x s s'}, P.map b n x s = (.ok (), s') → P.query s' b n = .ok x
  mapCache : ∀ b n x s a, P.cacheAt (P.map b n x s).2 a = P.cacheAt s a

/-! ### Bits -/

theorem known_iff (a : Attrs) : Known a ↔ a = (a &&& CACHE) ||| (a &&& ACCESS) := by
  have hm : ∀ i, i < 64 → ((0x1000 ||| 0x1F ||| 0x26000 : Nat).testBit i = true ↔ i ∈ [0, 1, 2, 3, 4, 12, 13, 14, 17]) := by decide
  have e : (a &&& CACHE) ||| (a &&& ACCESS) = a &&& 0x2701F := by
    rw [show (0x2701F : UInt64) = CACHE ||| ACCESS by decide]
    apply UInt64.toBitVec_inj.1
    simp only [UInt64.toBitVec_or, UInt64.toBitVec_and]
    ext i hi
    simp only [BitVec.getElem_or, BitVec.getElem_and]
    cases a.toBitVec[i] <;> simp
  rw [e]
  constructor
  · intro h
    apply UInt64.toNat_inj.1
    rw [UInt64.toNat_and]
    apply Nat.eq_of_testBit_eq
    intro i
    rw [Nat.testBit_and]
    cases hb : a.toNat.testBit i with
    | false => rfl
    | true =>
      by_cases hi : i < 64
      · have := (hm i hi).2 (h i hi hb)
        exact this.symm
      · rw [Nat.testBit_lt_two_pow (Nat.lt_of_lt_of_le a.toNat_lt (Nat.pow_le_pow_right (by omega) (by omega)))] at hb
        cases hb
  · intro h i hi hb
    rw [h, UInt64.toNat_and, Nat.testBit_and, Bool.and_eq_true] at hb
    exact (hm i hi).1 hb.2

theorem typeOf_some {a : Attrs} {t : CacheType} : typeOf a = some t ↔ Asks a t := by
  unfold typeOf Asks UC WC WT WB WP
  constructor
  · intro h
    split at h
    · cases h; subst a; decide
    split at h
    · cases h; subst a; decide
    split at h
    · cases h; subst a; decide
    split at h
    · cases h; subst a; decide
    split at h
    · cases h; subst a; decide
    · cases h
  · intro h
    simp only [List.mem_cons, Prod.mk.injEq, List.not_mem_nil, or_false] at h
    rcases h with ⟨rfl, rfl⟩ | ⟨rfl, rfl⟩ | ⟨rfl, rfl⟩ | ⟨rfl, rfl⟩ | ⟨rfl, rfl⟩ <;> decide

theorem asks_attr {a : Attrs} {t : CacheType} (h : Asks a t) : attrOf t = a ∧ a ≠ 0 := by
  unfold Asks at h
  simp only [List.mem_cons, Prod.mk.injEq, List.not_mem_nil, or_false] at h
  rcases h with ⟨rfl, rfl⟩ | ⟨rfl, rfl⟩ | ⟨rfl, rfl⟩ | ⟨rfl, rfl⟩ | ⟨rfl, rfl⟩ <;> decide

variable {σ : Type} {P : Parts σ}

/-! ### Theorems -/

/-- Attributes with an unknown bit are refused, and so are cache attributes that are not exactly one, and any without MTRRs. Nothing is changed then. -/
theorem refused (address size : Nat) (attrs : Attrs) (s : σ)
    (h : ¬ Known attrs ∨ (attrs &&& CACHE ≠ 0 ∧ (P.supported s = false ∨ ∀ t, ¬ Asks (attrs &&& CACHE) t))) :
    mapRegion P address size attrs s = (.error .invalidParameter, [], s) := by
  unfold mapRegion
  by_cases hk : Known attrs
  · rw [if_neg (by rw [ne_eq, Classical.not_not]; exact (known_iff attrs).1 hk)]
    rcases h with h | ⟨h1, h2⟩
    · exact absurd hk h
    · have : applyCaching P address size (attrs &&& CACHE) s = (.error .unsupported, [], s) := by
        unfold applyCaching
        rw [if_pos h1]
        split
        · rfl
        · next hs =>
          rcases h2 with h2 | h2
          · exact absurd h2 hs
          · have : typeOf (attrs &&& CACHE) = none := by
              cases ht : typeOf (attrs &&& CACHE) with
              | none => rfl
              | some t => exact absurd (typeOf_some.1 ht) (h2 t)
            rw [this]
      rw [this]
      rfl
  · rw [if_pos (fun h => hk ((known_iff attrs).2 h))]

/-- What a success has done: one call of the page table, with the access attributes and the range given; before it at most one of the MTRRs, with the range given
and the type asked for, and exactly if the first address did not have that type. -/
theorem success_calls {address size : Nat} {attrs : Attrs} {s s' : σ} {l : List Call} (h : mapRegion P address size attrs s = (.ok (), l, s')) :
    Known attrs ∧ ((attrs &&& CACHE = 0 ∧ l = [.map address size (attrs &&& ACCESS)]) ∨
      ∃ t, Asks (attrs &&& CACHE) t ∧ P.supported s = true ∧
        l = (if P.cacheAt s address = t then [] else [.setCache address size t]) ++ [.map address size (attrs &&& ACCESS)]) := by
  unfold mapRegion at h
  split at h
  · cases h
  next hk =>
  refine ⟨(known_iff attrs).2 (Classical.not_not.1 hk), ?_⟩
  unfold applyCaching at h
  split at h
  · next l1 s1 he =>
    obtain ⟨-, h2⟩ := Prod.mk.inj h
    obtain ⟨h2, -⟩ := Prod.mk.inj h2
    subst h2
    split at he
    · next hc =>
      split at he
      · cases he
      next hs =>
      split at he
      · cases he
      next t ht =>
      refine .inr ⟨t, typeOf_some.1 ht, by simpa using hs, ?_⟩
      split at he
      · next hne =>
        rw [if_neg hne]
        split at he
        · cases he; rfl
        · cases he
      · next hne =>
        rw [if_pos (Classical.not_not.1 hne)]
        cases he; rfl
    · next hc =>
      cases he
      exact .inl ⟨Classical.not_not.1 hc, rfl⟩
  · cases h

/-- The state between the two calls. -/
theorem success_state {address size : Nat} {attrs : Attrs} {s s' : σ} {l : List Call} {t : CacheType} (ha : Asks (attrs &&& CACHE) t) (h : mapRegion P address size attrs s = (.ok (), l, s')) :
    ∃ s1, P.map address size (attrs &&& ACCESS) s1 = (.ok (), s') ∧ ((P.cacheAt s address = t ∧ s1 = s) ∨ (P.cacheAt s address ≠ t ∧ P.setCache address size t s = (.ok (), s1))) := by
  unfold mapRegion at h
  split at h
  · cases h
  unfold applyCaching at h
  rw [if_pos (asks_attr ha).2, typeOf_some.2 ha] at h
  by_cases hs : P.supported s = false
  · rw [if_pos hs] at h; cases h
  rw [if_neg hs] at h
  dsimp only at h
  by_cases hc : P.cacheAt s address = t
  · rw [if_neg (by rw [ne_eq, Classical.not_not]; exact hc)] at h
    obtain ⟨h1, h2⟩ := Prod.mk.inj h
    obtain ⟨-, h3⟩ := Prod.mk.inj h2
    exact ⟨s, Prod.ext h1 h3, .inl ⟨hc, rfl⟩⟩
  · rw [if_pos hc] at h
    cases hset : P.setCache address size t s with
    | mk r s1 =>
      rw [hset] at h
      cases r with
      | error e => cases h
      | ok u =>
        obtain ⟨h1, h2⟩ := Prod.mk.inj h
        obtain ⟨-, h3⟩ := Prod.mk.inj h2
        exact ⟨s1, Prod.ext h1 h3, .inr ⟨hc, rfl⟩⟩

/-- After a success a query of the range gives the attributes that were asked for. -/
theorem reads_back (hP : Honest P) {address size : Nat} {attrs : Attrs} {s s' : σ} {l : List Call} {t : CacheType} (ha : Asks (attrs &&& CACHE) t) (hn : 0 < size)
    (h : mapRegion P address size attrs s = (.ok (), l, s')) : queryRegion P s' address size = .ok attrs := by
  have hk := (success_calls h).1
  obtain ⟨s1, hm, hs⟩ := success_state ha h
  have hc : P.cacheAt s' address = t := by
    have := hP.mapCache address size (attrs &&& ACCESS) s1 address
    rw [hm] at this
    rw [show P.cacheAt s' address = P.cacheAt s1 address from this]
    rcases hs with ⟨h1, rfl⟩ | ⟨h1, h2⟩
    · exact h1
    · rw [hP.set h2, if_pos (by omega)]
  unfold queryRegion
  rw [hP.map hm, hc, (asks_attr ha).1]
  show Except.ok ((attrs &&& ACCESS) ||| (attrs &&& CACHE)) = _
  rw [UInt64.or_comm, ← (known_iff attrs).1 hk]

/-- If all of the range had the same cache type before, or its first address another one than that asked for, then all of it has that asked for after a success, and
nothing outside has changed. In full the property asks this without the condition: see `rest_left`. -/
theorem cache_set_partial (hP : Honest P) {address size : Nat} {attrs : Attrs} {s s' : σ} {l : List Call} {t : CacheType} (ha : Asks (attrs &&& CACHE) t)
    (hu : P.cacheAt s address ≠ t ∨ ∀ a, address ≤ a → a < address + size → P.cacheAt s a = P.cacheAt s address)
    (h : mapRegion P address size attrs s = (.ok (), l, s')) (a : Nat) :
    P.cacheAt s' a = if address ≤ a ∧ a < address + size then t else P.cacheAt s a := by
  obtain ⟨s1, hm, hs⟩ := success_state ha h
  have := hP.mapCache address size (attrs &&& ACCESS) s1 a
  rw [hm] at this
  rw [show P.cacheAt s' a = P.cacheAt s1 a from this]
  rcases hs with ⟨h1, rfl⟩ | ⟨h1, h2⟩
  · rcases hu with hu | hu
    · exact absurd h1 hu
    · split
      · next hr => rw [hu a hr.1 hr.2, h1]
      · rfl
  · exact hP.set h2 a

/-- Finding: if the first address has the type asked for, a success changes the type nowhere: the addresses of the range with another type keep it. -/
theorem rest_left (hP : Honest P) {address size : Nat} {attrs : Attrs} {s s' : σ} {l : List Call} {t : CacheType} (ha : Asks (attrs &&& CACHE) t) (hb : P.cacheAt s address = t)
    (h : mapRegion P address size attrs s = (.ok (), l, s')) (a : Nat) : P.cacheAt s' a = P.cacheAt s a := by
  obtain ⟨s1, hm, hs⟩ := success_state ha h
  have := hP.mapCache address size (attrs &&& ACCESS) s1 a
  rw [hm] at this
  rw [show P.cacheAt s' a = P.cacheAt s1 a from this]
  rcases hs with ⟨_, rfl⟩ | ⟨h1, _⟩
  · rfl
  · exact absurd hb h1

/-- Without cache attributes the cache types stay, also if the page table refuses. -/
theorem no_cache_keeps (hP : Honest P) (address size : Nat) (attrs : Attrs) (s : σ) (h0 : attrs &&& CACHE = 0) (a : Nat) :
    P.cacheAt (mapRegion P address size attrs s).2.2 a = P.cacheAt s a := by
  unfold mapRegion
  split
  · rfl
  · have : applyCaching P address size (attrs &&& CACHE) s = (.ok (), [], s) := by
      unfold applyCaching
      rw [h0, if_neg (by simp)]
    rw [this]
    exact hP.mapCache _ _ _ _ _

/-- Finding: if the page table refuses, the cache types have been changed all the same. -/
theorem cache_kept_on_failure (hP : Honest P) {address size : Nat} {attrs : Attrs} {s s1 s2 : σ} {t : CacheType} {e : PtError} (hk : Known attrs) (ha : Asks (attrs &&& CACHE) t)
    (hsup : P.supported s = true) (hb : P.cacheAt s address ≠ t) (hset : P.setCache address size t s = (.ok (), s1)) (hm : P.map address size (attrs &&& ACCESS) s1 = (.error e, s2)) :
    (mapRegion P address size attrs s).1 = .error e ∧ ∀ a, address ≤ a → a < address + size → P.cacheAt (mapRegion P address size attrs s).2.2 a = t := by
  have he : mapRegion P address size attrs s = (.error e, [.setCache address size t, .map address size (attrs &&& ACCESS)], s2) := by
    unfold mapRegion
    rw [if_neg (by rw [ne_eq, Classical.not_not]; exact (known_iff attrs).1 hk)]
    unfold applyCaching
    rw [if_pos (asks_attr ha).2, typeOf_some.2 ha, if_neg (by rw [hsup]; decide)]
    dsimp only
    rw [if_pos hb, hset]
    dsimp only
    rw [hm]
    rfl
  rw [he]
  refine ⟨rfl, fun a h1 h2 => ?_⟩
  have := hP.mapCache address size (attrs &&& ACCESS) s1 a
  rw [hm] at this
  rw [show P.cacheAt s2 a = P.cacheAt s1 a from this, hP.set hset, if_pos ⟨h1, h2⟩]

/-- What an error of the MTRRs comes out as. -/
theorem mtrr_error {address size : Nat} {attrs : Attrs} {s s1 : σ} {t : CacheType} {e : MtrrError} (hk : Known attrs) (ha : Asks (attrs &&& CACHE) t)
    (hsup : P.supported s = true) (hb : P.cacheAt s address ≠ t) (hset : P.setCache address size t s = (.error e, s1)) :
    mapRegion P address size attrs s = (.error (if e = .variableRangeMtrrExhausted ∨ e = .outOfResources then .outOfResources else .invalidParameter), [.setCache address size t], s1) := by
  unfold mapRegion
  rw [if_neg (by rw [ne_eq, Classical.not_not]; exact (known_iff attrs).1 hk)]
  unfold applyCaching
  rw [if_pos (asks_attr ha).2, typeOf_some.2 ha, if_neg (by rw [hsup]; decide)]
  dsimp only
  rw [if_pos hb, hset]
  cases e <;> rfl

/-- A query gives the access attributes of the page table and the cache attribute of the first address. -/
theorem query_spec (s : σ) (address size : Nat) (x : Attrs) (h : P.query s address size = .ok x) :
    queryRegion P s address size = .ok (x ||| attrOf (P.cacheAt s address)) := by
  unfold queryRegion
  rw [h]

/-! ### A machine -/

/-- One map of cache types and one mapping; MTRRs are there. -/
structure Machine where
  cache : Nat → CacheType
  page : Attrs

def machine : Parts Machine where
  map _ _ x s := (.ok (), { s with page := x })
  unmap _ _ s := (.ok (), s)
  query s _ _ := .ok s.page
  supported _ := true
  cacheAt s a := s.cache a
  setCache b n t s := (.ok (), { s with cache := fun a => if b ≤ a ∧ a < b + n then t else s.cache a })

theorem machine_honest : Honest machine where
  set h a := by cases h; rfl
  map h := by cases h; rfl
  mapCache _ _ _ _ _ := rfl

/-- The first page is write-back, the others are not cached. -/
def split : Machine := ⟨fun a => if a < 0x1000 then .writeBack else .uncacheable, 0⟩

/-- Two pages are mapped write-back and not executable, with success. The second one is still not cached, and the query does not tell. -/
theorem second_page_uncached : ∃ l s', mapRegion machine 0 0x2000 (WB ||| XP) split = (.ok (), l, s') ∧ machine.cacheAt s' 0x1000 = .uncacheable ∧
    queryRegion machine s' 0 0x2000 = .ok (WB ||| XP) := ⟨_, _, rfl, rfl, rfl⟩

/-- The other way around all of it is set. -/
example : ∃ l s', mapRegion machine 0 0x2000 (UC ||| XP) split = (.ok (), l, s') ∧ l = [.setCache 0 0x2000 .uncacheable, .map 0 0x2000 XP] ∧
    machine.cacheAt s' 0 = .uncacheable ∧ machine.cacheAt split 0 = .writeBack := ⟨_, _, rfl, rfl, rfl, rfl⟩

example : Asks ((WB ||| XP) &&& CACHE) .writeBack := by unfold Asks WB XP CACHE; decide
example : ¬ Known 0x8000 := fun h => absurd (h 15 (by decide) (by decide)) (by decide)
example : ∀ t, ¬ Asks ((WB ||| UC) &&& CACHE) t := by
  intro t h
  have := typeOf_some.2 h
  rw [show typeOf ((WB ||| UC) &&& CACHE) = none by decide] at this
  cases this

end Verif.Cpu.PagingX64
