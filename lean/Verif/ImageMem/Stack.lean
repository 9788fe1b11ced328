import Verif.ImageMem.Safety
/-!
C64: the stack an image runs on, and where the image is put in the memory allocated for it.
-/
namespace Verif.ImageMem
open Verif.Gcd Verif.Paging

variable {ns : Nat} {dbg : Bool} {f f' f'' : Faults} {m m' : Mem} {stack len k : Nat}

/-- Pages allocated for a stack: one range of data (0x4000: not executable), with attributes `k` besides that, that supports protections. -/
structure StackPages (m : Mem) (stack len k : Nat) (c : Cell) : Prop where
  pages : stack % 4096 = 0 ∧ len % 4096 = 0
  uniform : Uniform m.gcd.blocks stack len c
  allocated : c.allocated = true
  caps : c.caps ||| (0x26000 ||| k) = c.caps
  attrs : c.attrs = 0x4000 ||| k
  plain : k &&& 0xE6000 = 0

theorem k_bits {i : Nat} (h : k &&& 0xE6000 = 0) (hi : Nat.testBit 0xE6000 i = true) : k.testBit i = false := bit_of_and_zero h hi

theorem caps_bits {caps x k : Nat} (h : caps ||| (0x26000 ||| k) = caps) (hx : x ||| 0x26000 = 0x26000) : caps ||| (x ||| k) = caps := by
  apply Nat.eq_of_testBit_eq
  intro i
  have h1 := congrArg (fun n => n.testBit i) h
  have h2 := congrArg (fun n => n.testBit i) hx
  simp only [Nat.testBit_or] at h1 h2
  rw [Nat.testBit_or, Nat.testBit_or]
  revert h1 h2
  cases caps.testBit i <;> cases Nat.testBit 0x26000 i <;> cases k.testBit i <;> cases x.testBit i <;> simp

theorem k_lt (hm : MemOk ns m) {c : Cell} (hs : StackPages m stack len k c) : k < W := by
  have hc := hs.uniform.2 stack (Nat.le_refl _) (by have := hs.uniform.1; omega)
  have := reachable_wide hm.reach _ _ hc
  rw [hs.attrs] at this
  exact Nat.lt_of_le_of_lt Nat.right_le_or this

/-- One page of a stack gets new access attributes. -/
theorem page_set {x : Nat} {c c1 : Cell} (hm : MemOk ns m) (hsy : Sync m) (hroom : m.gcd.blocks.length + 8 ≤ 4096) (hf : Calm f) (h1 : stack % 4096 = 0)
    (hu : Uniform m.gcd.blocks stack 4096 c1) (hc1 : c1 = { c with attrs := c1.attrs }) (hty : c.type ≠ .nonExistent)
    (hcaps : c.caps ||| (0x26000 ||| k) = c.caps) (hkW : k < W)
    (hx : x ||| 0x26000 = 0x26000) (hx0 : x ≠ 0) (hd : x.testBit 13 = false ∧ k.testBit 13 = false ∨ c1.attrs.testBit 13 = false) :
    ∃ m', m.step dbg ns f (.setAttributes stack 4096 (x ||| k)) = some (.ok (), m') ∧ MemOk ns m' ∧ Sync m' ∧ m'.gcd.max = m.gcd.max ∧
      m'.gcd.locked = m.gcd.locked ∧ m'.gcd.blocks.length ≤ m.gcd.blocks.length + 2 ∧
      (∀ a, cellAt m'.gcd.blocks a = (cellAt m.gcd.blocks a).map fun c => if stack ≤ a ∧ a < stack + 4096 then { c with attrs := x ||| k } else c) ∧
      (∀ t, m.table = some t → ∃ t', m'.table = some t' ∧ ∀ p, t' p = if p = stack / 4096 then mappingFor (x ||| k) else t p) ∧
      (m.table = none → m'.table = none) := by
  have hxW : x < W := Nat.lt_of_le_of_lt Nat.left_le_or (by rw [hx]; decide)
  have hW := or_lt hxW hkW
  have hbnd := uniform_bounds (good_of hm.reach hm.some).tiles hu
  have hmask : (x ||| k) &&& 0x2701F ≠ 0 := by
    intro h
    rw [Nat.and_or_distrib_right] at h
    have h := (Nat.or_eq_zero_iff.1 h).1
    apply hx0
    have : x &&& 0x26000 = x := by
      apply Nat.eq_of_testBit_eq
      intro i
      have h2 := congrArg (fun n => n.testBit i) hx
      simp only [Nat.testBit_or] at h2
      rw [Nat.testBit_and]
      revert h2
      cases Nat.testBit 0x26000 i <;> cases x.testBit i <;> simp
    rw [← this, show (0x26000 : Nat) = 0x2701F &&& 0x26000 by decide, ← Nat.and_assoc, h, Nat.zero_and]
  have hct : c1.type = c.type := by rw [hc1]
  have hcc : c1.caps = c.caps := by rw [hc1]
  obtain ⟨m', e, r1, r2, r3, r4, r5, r6⟩ := Paging.set_attributes_succeeds (dbg := dbg) (f := f) (base := stack) (len := 4096) hm hsy (by omega) hW hmask
    (fun a k1 k2 => ⟨c1, hu.2 a k1 k2, by rw [hct]; exact hty, by rw [hcc]; exact caps_bits hcaps hx⟩)
    ⟨h1, by decide, fun a k1 k2 => by rw [hu.2 a k1 k2, hu.2 _ (by omega) (by omega)]⟩ hroom (fun a => (hf a).2) (fun a => (hf a).1)
    (by
      rcases hd with ⟨hd, hd'⟩ | hd
      · exact Or.inr (Or.inl (by rw [Nat.testBit_or, hd, hd']; rfl))
      · refine Or.inr (Or.inr fun a d k1 k2 hda => ?_)
        rw [hu.2 a k1 k2] at hda; injection hda with hda; subst hda
        unfold mappingOf mappingFor
        rw [if_neg (by rw [hct]; exact hty), if_neg (by simp [hd])]
        simp)
  obtain ⟨upto, u1, u2, hset, hok, _⟩ := set_attributes_effect hm (by omega) hW hmask e (by simp) r1
  have hup := hok rfl
  subst hup
  refine ⟨m', e, r2, r3, r4, r5, ?_, r6, fun t ht => ?_, hset.noTable⟩
  · have hg := good_of r2.reach r2.some
    rw [r4] at hg
    exact exact_length (good_of hm.reach hm.some) hg r6
  · obtain ⟨t', ht', h'⟩ := hset.table t ht
    refine ⟨t', ht', fun p => ?_⟩
    rw [h' p]
    have : (stack / 4096 ≤ p ∧ p < (stack + 4096) / 4096) ↔ p = stack / 4096 := by omega
    by_cases hp : p = stack / 4096
    · rw [if_pos hp, if_pos (this.2 hp)]
    · rw [if_neg hp, if_neg fun q => hp (this.1 q)]

/-- C64 (guard page): setting up the stack of an image unmaps the page below it, so that an overflow is caught; all other pages stay mapped
as they were. (Debug and release builds.) -/
theorem guard_page {c : Cell} (hm : MemOk ns m) (hsy : Sync m) (hroom : m.gcd.blocks.length + 8 ≤ 4096) (hf : Calm f) (hs : StackPages m stack len k c) :
    ∃ m', guard dbg ns f m stack = some (.ok (), m') ∧ MemOk ns m' ∧ Sync m' ∧ m'.gcd.locked = m.gcd.locked ∧
      m'.gcd.blocks.length ≤ m.gcd.blocks.length + 2 ∧
      (∀ a, cellAt m'.gcd.blocks a =
        (cellAt m.gcd.blocks a).map fun c => if stack ≤ a ∧ a < stack + 4096 then { c with attrs := 0x6000 ||| k } else c) ∧
      ∀ t, m.table = some t → ∃ t', m'.table = some t' ∧ t' (stack / 4096) = none ∧ ∀ p, p ≠ stack / 4096 → t' p = t p := by
  have hpos := hs.uniform.1
  have hlen : 4096 ≤ len := by have := hs.pages.2; omega
  have hcell := hs.uniform.2 stack (Nat.le_refl _) (by omega)
  have hkW := k_lt hm hs
  have hty := (((reachable_inv hm.reach).cells stack c hcell).alloc hs.allocated).1
  have hbnd := uniform_bounds (good_of hm.reach hm.some).tiles hs.uniform
  obtain ⟨d, hd, _, _, _, hdc⟩ := descriptor_contains hm.reach hm.some (a := stack) (by omega)
  rw [hcell] at hdc; injection hdc with hdc
  have hattr : d.st.attrs ||| MEMORY_RP = 0x6000 ||| k := by
    rw [← hdc, hs.attrs, Nat.or_assoc, Nat.or_comm k, ← Nat.or_assoc]; rfl
  have h13 : c.attrs.testBit 13 = false := by
    rw [hs.attrs, Nat.testBit_or, k_bits hs.plain (by decide)]; decide
  obtain ⟨m', e, r2, r3, r4, r5, r6, r7, r8, r9⟩ := page_set (dbg := dbg) (f := f) (x := 0x6000) (k := k) (c := c) (c1 := c) hm hsy hroom hf hs.pages.1
    ⟨by omega, fun a k1 k2 => hs.uniform.2 a k1 (by omega)⟩ rfl hty hs.caps hkW (by decide) (by decide) (Or.inr h13)
  refine ⟨m', ?_, r2, r3, r5, r6, r7, fun t ht => ?_⟩
  · unfold guard
    rw [hd]
    dsimp only
    rw [hattr, e]
    rfl
  · obtain ⟨t', ht', h'⟩ := r8 t ht
    refine ⟨t', ht', ?_, fun p hp => by rw [h' p, if_neg hp]⟩
    rw [h' _, if_pos rfl]
    unfold mappingFor
    rw [if_pos]
    rw [Nat.testBit_or, show Nat.testBit 0x6000 13 = true by decide, Bool.true_or]

/-- C64 (stack released): when the stack is dropped, its guard page is an ordinary page again and all its pages are freed. -/
theorem stack_released {c : Cell} (hm : MemOk ns m) (hsy : Sync m) (hroom : m.gcd.blocks.length + 12 ≤ 4096) (hul : m.gcd.locked = false) (hf : Calm f)
    (hf' : Calm f') (hf'' : Calm f'') (hs : StackPages m stack len k c) :
    ∃ m1 m2 m3, guard dbg ns f m stack = some (.ok (), m1) ∧ unguard dbg ns f' m1 stack = some (.ok (), m2) ∧
      (∀ a, cellAt m2.gcd.blocks a = cellAt m.gcd.blocks a) ∧ m2.step dbg ns f'' (.free stack len) = some (.ok (), m3) ∧
      ∀ a, stack ≤ a → a < stack + len → (∃ d, cellAt m3.gcd.blocks a = some d ∧ d.allocated = false) ∧ ¬ Mapped m3 (a / 4096) := by
  obtain ⟨m1, e1, k1, k2, k3, k4, k5, _⟩ := guard_page (dbg := dbg) hm hsy (by omega) hf hs
  have hpos := hs.uniform.1
  have hlen : 4096 ≤ len := by have := hs.pages.2; omega
  have hcell := hs.uniform.2 stack (Nat.le_refl _) (by omega)
  have hkW := k_lt hm hs
  have hty := (((reachable_inv hm.reach).cells stack c hcell).alloc hs.allocated).1
  have hu1 : Uniform m1.gcd.blocks stack 4096 { c with attrs := 0x6000 ||| k } := ⟨by omega, fun a a1 a2 => by
    rw [k5, hs.uniform.2 a a1 (by omega)]
    simp [a1, a2]⟩
  have hb1 := uniform_bounds (good_of k1.reach k1.some).tiles hu1
  obtain ⟨d, hd, _, _, _, hdc⟩ := descriptor_contains k1.reach k1.some (a := stack) (by omega)
  rw [hu1.2 stack (Nat.le_refl _) (by omega)] at hdc; injection hdc with hdc
  have hattr : andNot d.st.attrs MEMORY_ATTRIBUTE_MASK ||| MEMORY_XP = 0x4000 ||| k := by
    rw [← hdc]
    show andNot (0x6000 ||| k) MEMORY_ATTRIBUTE_MASK ||| MEMORY_XP = _
    have hW := or_lt (show 0x6000 < W by decide) hkW
    rw [show MEMORY_ATTRIBUTE_MASK = 0xE6000 by decide, show MEMORY_XP = 0x4000 by decide, Nat.or_comm]
    congr 1
    apply Nat.eq_of_testBit_eq
    intro i
    rw [andNot_bits hW (by decide), Nat.testBit_or]
    have q1 : Nat.testBit 0xE6000 i = true → k.testBit i = false := k_bits hs.plain
    have q2 : (0x6000 ||| 0xE6000 : Nat).testBit i = Nat.testBit 0xE6000 i := by rw [show 0x6000 ||| 0xE6000 = 0xE6000 by decide]
    rw [Nat.testBit_or] at q2
    revert q1 q2
    cases Nat.testBit 0x6000 i <;> cases Nat.testBit 0xE6000 i <;> cases k.testBit i <;> simp
  obtain ⟨m2, e2, r2, r3, r4, r5, r6, r7, _, _⟩ := page_set (dbg := dbg) (f := f') (x := 0x4000) (k := k) (c := c) k1 k2 (by omega) hf' hs.pages.1
    hu1 rfl hty hs.caps hkW (by decide) (by decide) (Or.inl ⟨by decide, k_bits hs.plain (by decide)⟩)
  have same : ∀ a, cellAt m2.gcd.blocks a = cellAt m.gcd.blocks a := fun a => by
    rw [r7, k5]
    by_cases hin : stack ≤ a ∧ a < stack + 4096
    · rw [hs.uniform.2 a hin.1 (by omega)]
      simp only [Option.map_some, if_pos hin, ← hs.attrs]
    · cases cellAt m.gcd.blocks a with
      | none => rfl
      | some d => simp only [Option.map_some, if_neg hin]
  have hrp : c.caps.testBit 13 = true := by
    have := congrArg (fun n => n.testBit 13) hs.caps
    simp only [Nat.testBit_or] at this
    rw [show Nat.testBit 0x26000 13 = true by decide, Bool.true_or, Bool.or_true] at this
    exact this.symm
  obtain ⟨m3, e3, h3⟩ := free_pages (dbg := dbg) (f := f'') (c := c) r2 (by omega) (by rw [r5, k3]; exact hul) hs.pages.1 hs.pages.2
    ⟨hpos, fun a a1 a2 => by rw [same]; exact hs.uniform.2 a a1 a2⟩ hs.allocated hrp hf''
  refine ⟨m1, m2, m3, e1, ?_, same, e3, h3⟩
  unfold unguard
  rw [hd]
  dsimp only
  rw [hattr, e2]
  rfl

/-- C64 (stack size): the pages allocated for a stack hold the guard page and, above it, at least as many bytes as asked for and as the
minimum, rounded up to the alignment of stacks; and less than a page is wasted. -/
theorem stack_size {minSize alignment size pages len : Nat} (hsz : max size minSize < 2 ^ 64)
    (h : stackPages minSize alignment size = .ok (pages, len)) :
    size ≤ len ∧ minSize ≤ len ∧ alignment ∣ len ∧ 4096 + len ≤ pages * 4096 ∧ pages * 4096 < 4096 + len + 4096 := by
  unfold stackPages at h
  by_cases hk : ∃ j, alignment = 2 ^ j
  · obtain ⟨q, hq, e⟩ := (Base.alignUp_spec 64 _ alignment hsz).1 hk
    rw [e] at h
    split at h
    · rename_i n heq
      split at heq
      · injection heq with heq; subst heq
        injection h with h; injection h with h1 h2; subst h1; subst h2
        have h1 := hq.2.1
        have h2 := Nat.le_max_left size minSize
        have h3 := Nat.le_max_right size minSize
        exact ⟨by omega, by omega, hq.1, by omega, by omega⟩
      · cases heq
    · cases h
    · cases h
  · rw [(Base.alignUp_spec 64 _ alignment hsz).2 hk] at h; cases h

/-- C64 (placement): in the pages allocated for an image, at any page address, it begins at a multiple of its section alignment, and all of its
bytes are in those pages. -/
theorem image_placed {page size align n start : Nat} (hpg : page % 4096 = 0) (hp : page < 2 ^ 64) (hn : imagePages size align = some n)
    (h : imageStart page align = .ok start) : align ∣ start ∧ page ≤ start ∧ start + size ≤ page + n * 4096 := by
  unfold imageStart at h
  split at h
  · cases h
  by_cases hk : ∃ j, align = 2 ^ j
  · obtain ⟨q, hq, e⟩ := (Base.alignUp_spec 64 page align hp).1 hk
    rw [e] at h
    obtain ⟨j, hj⟩ := hk
    have hst : start = q := by
      split at h
      · rename_i a heq
        split at heq
        · injection heq with heq; injection h with h; omega
        · cases heq
      · cases h
      · cases h
    subst hst
    refine ⟨hq.1, hq.2.1, ?_⟩
    unfold imagePages at hn
    have hpos : 0 < align := by rw [hj]; exact Nat.two_pow_pos _
    have hup : start < page + align := by
      by_cases hm : page % align = 0
      · have := hq.2.2 page (Nat.dvd_of_mod_eq_zero hm) (Nat.le_refl _); omega
      · have hnx := Base.isRoundUp_next hm hpos
        have := hq.2.2 _ hnx.1 hnx.2.1
        have := Nat.mod_le page align
        omega
    split at hn
    · split at hn
      · injection hn with hn; omega
      · cases hn
    · injection hn with hn
      have hle : align ≤ 4096 := by omega
      have hdvd : align ∣ 4096 := by
        rw [hj] at hle ⊢
        have : j ≤ 12 := by
          apply Classical.byContradiction
          intro hc
          have := Nat.pow_lt_pow_right (a := 2) (by decide) (show 12 < j by omega)
          omega
        exact Nat.pow_dvd_pow 2 this
      have : start ≤ page := hq.2.2 page (Nat.dvd_trans hdvd (Nat.dvd_of_mod_eq_zero hpg)) (Nat.le_refl _)
      omega
  · rw [(Base.alignUp_spec 64 page align hp).2 hk] at h; cases h

end Verif.ImageMem
