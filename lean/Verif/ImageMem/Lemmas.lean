import Verif.ImageMem.Spec
import Verif.Paging.WideCaps
namespace Verif.ImageMem
open Verif.Gcd Verif.Paging

variable {ns : Nat} {dbg : Bool} {f : Faults} {m m' : Mem} {base align lo hi k : Nat} {s : Section}

theorem mask_testBit {x i : Nat} : (x &&& 2 ^ i = 2 ^ i) ↔ x.testBit i = true := by
  constructor
  · intro h
    have := congrArg (fun n => n.testBit i) h
    simp only [Nat.testBit_and, Nat.testBit_two_pow_self, Bool.and_true] at this
    exact this
  · intro h
    apply Nat.eq_of_testBit_eq
    intro j
    rw [Nat.testBit_and, Nat.testBit_two_pow]
    by_cases e : i = j
    · subst e; simp [h]
    · simp [e]

theorem mask_zero {x i : Nat} : (x &&& 2 ^ i = 0) ↔ x.testBit i = false := by
  constructor
  · intro h
    have := congrArg (fun n => n.testBit i) h
    simp only [Nat.testBit_and, Nat.testBit_two_pow_self, Bool.and_true, Nat.zero_testBit] at this
    exact this
  · intro h
    apply Nat.eq_of_testBit_eq
    intro j
    rw [Nat.testBit_and, Nat.testBit_two_pow, Nat.zero_testBit]
    by_cases e : i = j
    · subst e; simp [h]
    · simp [e]

/-- The attributes computed for a section are those it is to have. -/
theorem access_of (s : Section) : Access s (sectionAccess s.flags) := by
  have e1 : CNT_CODE = 2 ^ 5 := by decide
  have e2 : MEM_READ = 2 ^ 30 := by decide
  have e3 : MEM_WRITE = 2 ^ 31 := by decide
  have h1 : (s.flags &&& CNT_CODE = CNT_CODE) ↔ s.IsCode := by rw [e1]; exact mask_testBit
  have h2 : (s.flags &&& MEM_WRITE = 0 ∧ s.flags &&& MEM_READ = MEM_READ) ↔ s.IsConstant := by
    rw [e2, e3, mask_zero, mask_testBit]; rfl
  unfold sectionAccess
  refine ⟨fun h => ?_, fun h g => ?_, fun h g => ?_⟩
  · have h := h1.2 h
    rw [if_pos h]
    split <;> decide
  · have h := fun x => h (h1.1 x)
    rw [if_pos (h2.2 g), if_neg h]; decide
  · have h := fun x => h (h1.1 x)
    rw [if_neg (fun x => g (h2.1 x)), if_neg h]; decide

theorem Access.cases {x : Nat} (h : Access s x) : (s.IsCode ∧ x = 0x20000) ∨ (¬ s.IsCode ∧ x = 0x24000) ∨ (¬ s.IsCode ∧ x = 0x4000) := by
  by_cases h1 : s.IsCode
  · exact Or.inl ⟨h1, h.code h1⟩
  · by_cases h2 : s.IsConstant
    · exact Or.inr (Or.inl ⟨h1, h.constant h1 h2⟩)
    · exact Or.inr (Or.inr ⟨h1, h.data h1 h2⟩)

theorem Access.value {x : Nat} (h : Access s x) : x = 0x20000 ∨ x = 0x24000 ∨ x = 0x4000 := by
  rcases h.cases with h | h | h
  · exact Or.inl h.2
  · exact Or.inr (Or.inl h.2)
  · exact Or.inr (Or.inr h.2)

theorem spans_unique {n n' : Nat} (h : s.Spans align n) (h' : s.Spans align n') : n = n' :=
  Nat.le_antisymm (h.2.2 _ h'.1 h'.2.1) (h'.2.2 _ h.1 h.2.1)

theorem has_iff {n a : Nat} (h : s.Spans align n) : s.Has base align a ↔ base + s.address ≤ a ∧ a < base + s.address + n := by
  constructor
  · rintro ⟨n', h', h1⟩
    rw [spans_unique h h']; exact h1
  · intro h1; exact ⟨n, h, h1⟩

/-- A number of the access attributes is supported by memory that supports them all. -/
theorem or_supported {caps x k : Nat} (h : caps ||| (0x26000 ||| k) = caps) (hx : x = 0x20000 ∨ x = 0x24000 ∨ x = 0x4000) :
    caps ||| (x ||| k) = caps ∧ x ||| caps = caps := by
  have hx' : x ||| 0x26000 = 0x26000 := by rcases hx with h | h | h <;> subst h <;> decide
  have bit : ∀ i, (x.testBit i = true → caps.testBit i = true) ∧ (k.testBit i = true → caps.testBit i = true) := fun i => by
    have h1 := congrArg (fun n => n.testBit i) h
    have h2 := congrArg (fun n => n.testBit i) hx'
    simp only [Nat.testBit_or] at h1 h2
    revert h1 h2
    cases caps.testBit i <;> cases Nat.testBit 0x26000 i <;> cases k.testBit i <;> cases x.testBit i <;> simp
  constructor
  · apply Nat.eq_of_testBit_eq
    intro i
    have := bit i
    rw [Nat.testBit_or, Nat.testBit_or]
    revert this
    cases caps.testBit i <;> cases k.testBit i <;> cases x.testBit i <;> simp
  · apply Nat.eq_of_testBit_eq
    intro i
    have := bit i
    rw [Nat.testBit_or]
    revert this
    cases caps.testBit i <;> cases x.testBit i <;> simp

/-- What is left of new attributes without the access attributes. -/
theorem andNot_new {a x k : Nat} (hk : andNot a 0x26000 = k) (ha : a < W) (hx : x = 0x20000 ∨ x = 0x24000 ∨ x = 0x4000) :
    andNot (x ||| k) 0x26000 = k ∧ (x ||| k).testBit 13 = false ∧ (x ||| k) &&& 0x2701F ≠ 0 ∧ x ||| k < W := by
  have hxW : x < W := by rcases hx with h | h | h <;> subst h <;> decide
  have hkW : k < W := by rw [← hk]; exact andNot_lt ha
  have hw := or_lt hxW hkW
  have hx' : x ||| 0x26000 = 0x26000 := by rcases hx with h | h | h <;> subst h <;> decide
  have kbit : ∀ i, k.testBit i = (a.testBit i && !Nat.testBit 0x26000 i) := fun i => by rw [← hk, andNot_bits ha (by decide)]
  refine ⟨?_, ?_, ?_, hw⟩
  · apply Nat.eq_of_testBit_eq
    intro i
    rw [andNot_bits hw (by decide), Nat.testBit_or, kbit]
    have h2 := congrArg (fun n => n.testBit i) hx'
    simp only [Nat.testBit_or] at h2
    revert h2
    cases Nat.testBit 0x26000 i <;> cases a.testBit i <;> cases x.testBit i <;> simp
  · rw [Nat.testBit_or, kbit]
    have : Nat.testBit 0x26000 13 = true := by decide
    have hx13 : x.testBit 13 = false := by rcases hx with h | h | h <;> subst h <;> decide
    rw [this, hx13]; simp
  · intro h
    have : x &&& 0x2701F ≠ 0 := by rcases hx with h | h | h <;> subst h <;> decide
    apply this
    rw [Nat.and_or_distrib_right] at h
    exact (Nat.or_eq_zero_iff.1 h).1

/-! ### The capabilities do not change -/

/-- Memory spaces with the same state everywhere have as many descriptors. -/
theorem same_length {g0 g : Gcd} (h1 : Good g0.blocks g0.max) (h2 : Good g.blocks g0.max)
    (h : ∀ a, cellAt g.blocks a = cellAt g0.blocks a) : g.blocks.length ≤ g0.blocks.length := by
  have hsub : starts g.blocks ⊆ starts g0.blocks := by
    intro a ha
    obtain ⟨b, hb, rfl⟩ := List.mem_map.1 ha
    have hbb := tiles_mem h2.tiles hb
    by_cases hz : b.base = 0
    · cases hl : g0.blocks with
      | nil =>
        have := h1.tiles
        rw [hl] at this
        simp only [Tiles] at this
        omega
      | cons x l =>
        have := h1.tiles
        rw [hl] at this
        exact List.mem_map.2 ⟨x, List.mem_cons_self, by rw [this.1, hz]⟩
    · have hc := start_changes h2.tiles h2.coal hb (by omega)
      rw [h, h] at hc
      exact change_starts h1.tiles (by omega) (by omega) hc
  have := (starts_nodup h2.tiles).length_le_of_subset hsub
  simpa [starts] using this

/-- Setting capabilities that the memory at the start of the range has anyway changes nothing. -/
theorem setCapabilities_same {len : Nat} {c : Cell} (hm : MemOk ns m) (hl : len < W) (hb : base < W) (hcW : c.caps < W)
    (hc : cellAt m.gcd.blocks base = some c) :
    ∃ g, (m.setCapabilities base len c.caps).2 = { m with gcd := g } ∧ Reachable ns g ∧ g.blocks ≠ [] ∧ g.max = m.gcd.max ∧ g.locked = m.gcd.locked ∧
      g.blocks.length ≤ m.gcd.blocks.length ∧ ∀ a, cellAt g.blocks a = cellAt m.gcd.blocks a := by
  refine ⟨(m.gcd.setCapabilities base len c.caps).2, rfl, ?_⟩
  have hre := reach_step (op := .setCapabilities base len c.caps) hm.reach ⟨hb, hl, hcW⟩
  have hre : Reachable ns (m.gcd.setCapabilities base len c.caps).2 := hre
  rcases hx : m.gcd.setCapabilities base len c.caps with ⟨r, g⟩
  rw [hx] at hre
  have hre : Reachable ns g := hre
  have he := setCapabilities_effect (base := base) (caps := c.caps) (len := len) (reachable_inv hm.reach).inv hl
  rw [hx] at he
  cases r with
  | panic => exact he.noPanic.elim
  | err e => rw [he.failed]; exact ⟨hm.reach, hm.some, rfl, rfl, Nat.le_refl _, fun _ => rfl⟩
  | ok u =>
    obtain ⟨c1, hu, _, _, hup, hsb⟩ := set_capabilities_ok hm.reach hl hx
    have h0 := hu.2 base (Nat.le_refl _) (by have := hu.1; omega)
    rw [hc] at h0; injection h0 with h0; subst h0
    have same : ∀ a, cellAt g.blocks a = cellAt m.gcd.blocks a := fun a => by
      rw [hup a]
      by_cases hin : base ≤ a ∧ a < base + len
      · rw [if_pos hin, hu.2 a hin.1 hin.2]
      · rw [if_neg hin]
    have hne : g.blocks ≠ [] := fun h => by
      have := same base
      rw [h, hc] at this; cases this
    have hmax : g.max = m.gcd.max := by rw [hsb]
    refine ⟨hre, hne, hmax, by rw [hsb], ?_, same⟩
    have hg := good_of hre hne
    rw [hmax] at hg
    exact same_length (good_of hm.reach hm.some) hg same

end Verif.ImageMem
