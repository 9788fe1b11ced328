import Verif.Paging.InitLemmas
import Verif.Paging.InitSpec
namespace Verif.Paging
open Verif.Gcd

variable {ns : Nat} {dbg : Bool} {fs : Nat → Faults}

/-! ### Attributes -/

theorem cache_lt (a : Nat) : a &&& CACHE_ATTRIBUTE_MASK < W :=
  Nat.lt_of_le_of_lt Nat.and_le_right (by decide)

theorem testBit_or_left {a b i : Nat} (h : a.testBit i = true) : (a ||| b).testBit i = true := by
  rw [Nat.testBit_or, h]; rfl

theorem testBit_or_right {a b i : Nat} (h : b.testBit i = true) : (a ||| b).testBit i = true := by
  rw [Nat.testBit_or, h, Bool.or_true]

theorem masked_ne {a i : Nat} (h : a.testBit i = true) (hi : Nat.testBit 0x2701F i = true) : a &&& 0x2701F ≠ 0 := by
  intro e
  have : (a &&& 0x2701F).testBit i = true := by rw [Nat.testBit_and, h, hi]; rfl
  rw [e] at this
  simp at this

/-- The protection of the pages of the core is `XP` or `RO`. -/
theorem protection_cases (c : CoreSection) :
    (c.protection = 0x20000 ∧ c.flags &&& 0x20 = 0x20) ∨ (c.protection = 0x4000 ∧ ¬ c.flags &&& 0x20 = 0x20) := by
  unfold CoreSection.protection
  by_cases h : c.flags &&& 0x20 = 0x20
  · exact Or.inl ⟨by rw [if_pos h]; rfl, h⟩
  · exact Or.inr ⟨by rw [if_neg h]; rfl, h⟩

theorem xp_fits {base len x max : Nat} (h : base + len ≤ max) : SetCall.Fits max ⟨base, len, (x &&& CACHE_ATTRIBUTE_MASK) ||| MEMORY_XP⟩ :=
  ⟨h, or_lt (cache_lt _) (by decide), masked_ne (i := 14) (testBit_or_right (by decide)) (by decide)⟩

theorem xp_fits' {base len x max : Nat} (h : base + len ≤ max) : SetCall.Fits max ⟨base, len, MEMORY_XP ||| (x &&& CACHE_ATTRIBUTE_MASK)⟩ :=
  ⟨h, or_lt (by decide) (cache_lt _), masked_ne (i := 14) (testBit_or_left (by decide)) (by decide)⟩

theorem prot_fits {base len x max : Nat} (c : CoreSection) (h : base + len ≤ max) :
    SetCall.Fits max ⟨base, len, c.protection ||| (x &&& CACHE_ATTRIBUTE_MASK)⟩ := by
  rcases protection_cases c with ⟨e, _⟩ | ⟨e, _⟩ <;> rw [e]
  · exact ⟨h, or_lt (by decide) (cache_lt _), masked_ne (i := 17) (testBit_or_left (by decide)) (by decide)⟩
  · exact ⟨h, or_lt (by decide) (cache_lt _), masked_ne (i := 14) (testBit_or_left (by decide)) (by decide)⟩

/-! ### The stages -/

theorem then_at {p : Progress} {k : Init → Progress} {s' : Init} (h : p.then k = .at s') : ∃ s, p = .at s ∧ k s = .at s' := by
  cases p with
  | hangs => cases h
  | panics => cases h
  | «at» s => exact ⟨s, rfl, h⟩

theorem attemptAll_adv {l : List SetCall} : ∀ {s s' : Init}, MemOk ns s.mem → (∀ c ∈ l, c.Fits s.mem.gcd.max) →
    Init.attemptAll dbg fs s l = .at s' → Adv ns l s s' := by
  induction l with
  | nil => intro s s' hm _ h; simp only [Init.attemptAll] at h; injection h with h; subst h; exact .refl hm
  | cons c l ih =>
    intro s s' hm hf h
    simp only [Init.attemptAll] at h
    obtain ⟨s1, h1, h2⟩ := then_at h
    have a1 := attempt_adv hm (hf c (List.mem_cons_self ..)) h1
    exact a1.trans (ih a1.ok (fun c hc => by rw [a1.max]; exact hf c (List.mem_cons_of_mem _ hc)) h2)

theorem mmio_adv {l : List (Block Cell)} : ∀ {s s' : Init}, MemOk ns s.mem → (∀ b ∈ l, (mmioCall b).Fits s.mem.gcd.max) →
    Init.mmio dbg fs s l = .at s' → Adv ns (l.map mmioCall) s s' := by
  induction l with
  | nil => intro s s' hm _ h; simp only [Init.mmio] at h; injection h with h; subst h; exact .refl hm
  | cons b l ih =>
    intro s s' hm hf h
    simp only [Init.mmio] at h
    split at h
    · cases h
    · obtain ⟨s1, h1, h2⟩ := then_at h
      have a1 := attempt_adv hm (hf b (List.mem_cons_self ..)) h1
      exact a1.trans (ih a1.ok (fun c hc => by rw [a1.max]; exact hf c (List.mem_cons_of_mem _ hc)) h2)

/-- The call for a section. -/
def sectionCall (image alignment k : Nat) (c : CoreSection) : SetCall := ⟨image + c.address, c.rounded alignment, c.protection ||| k⟩

theorem desc_cell {g : Gcd} {a : Nat} {d : Block Cell} {c : Cell} (hr : Reachable ns g) (hc : cellAt g.blocks a = some c)
    (h : g.descriptorFor a = .ok d) : d.st = c := by
  have hne := ne_of_cell hc
  obtain ⟨d', e, _, _, _, b3⟩ := descriptor_contains hr hne (cellAt_bounds (good_of hr hne).tiles hc).2
  rw [h] at e; injection e with e; subst e
  rw [hc] at b3; injection b3 with b3
  exact b3.symm

theorem done_attrs {m0 m : Mem} {l : List SetCall} {a : Nat} {c0 : Cell} {d : Block Cell} (hm : MemOk ns m) (hd : Done m0 m l)
    (hc : cellAt m0.gcd.blocks a = some c0) (h : m.gcd.descriptorFor a = .ok d) :
    d.st.attrs = (lastSet l a).getD c0.attrs ∧ d.st.type = c0.type := by
  obtain ⟨c', h1, h2, _, h4, _⟩ := hd.cells a c0 hc
  rw [desc_cell hm.reach h1 h]
  exact ⟨h4, h2⟩

theorem section_adv {image alignment : Nat} {s s' : Init} {c : CoreSection} (hm : MemOk ns s.mem)
    (hf : image + c.address + c.rounded alignment ≤ s.mem.gcd.max) (h : s.section dbg fs image alignment c = .at s') :
    ∃ d, s.mem.gcd.descriptorFor image = .ok d ∧ Adv ns [sectionCall image alignment (d.st.attrs &&& CACHE_ATTRIBUTE_MASK) c] s s' := by
  unfold Init.section at h
  split at h
  · cases h
  · split at h
    · rename_i size hsz
      have hr : c.rounded alignment = size := by unfold CoreSection.rounded; rw [hsz]
      split at h
      · rename_i d hd
        have haw : addw image c.address = image + c.address := by
          unfold addw
          refine Nat.mod_eq_of_lt ?_
          have := (reachable_inv hm.reach).inv.ltW
          omega
        rw [haw] at h
        refine ⟨d, hd, ?_⟩
        have := must_adv hm (prot_fits c (by rw [hr] at hf; exact hf)) h
        unfold sectionCall
        rw [hr]; exact this
      · cases h
    · cases h

theorem sections_adv {image alignment : Nat} {l : List CoreSection} : ∀ {s s' : Init}, MemOk ns s.mem →
    (∀ c ∈ l, image + c.address + c.rounded alignment ≤ s.mem.gcd.max) → Init.sections dbg fs image alignment s l = .at s' →
    ∃ ks, ks.length = l.length ∧ (∀ k ∈ ks, ∃ x, k = x &&& CACHE_ATTRIBUTE_MASK) ∧
      Adv ns ((l.zip ks).map fun x => sectionCall image alignment x.2 x.1) s s' ∧
      ∀ m0 l0 c0 k, s'.failed = s.failed → s'.mem.refusals = s.mem.refusals → Done m0 s.mem l0 → cellAt m0.gcd.blocks image = some c0 →
        ((lastSet l0 image).getD c0.attrs) &&& CACHE_ATTRIBUTE_MASK = k → ∀ x ∈ ks, x = k := by
  induction l with
  | nil =>
    intro s s' hm _ h; simp only [Init.sections] at h; injection h with h; subst h
    exact ⟨[], rfl, by simp, .refl hm, by simp⟩
  | cons c l ih =>
    intro s s' hm hf h
    simp only [Init.sections] at h
    obtain ⟨s1, h1, h2⟩ := then_at h
    obtain ⟨d, hd, a1⟩ := section_adv hm (hf c (List.mem_cons_self ..)) h1
    obtain ⟨ks, e1, e2, a2, e3⟩ := ih a1.ok (fun c hc => by rw [a1.max]; exact hf c (List.mem_cons_of_mem _ hc)) h2
    refine ⟨(d.st.attrs &&& CACHE_ATTRIBUTE_MASK) :: ks, by simp [e1], fun k hk => ?_, a1.trans a2, ?_⟩
    · rcases List.mem_cons.1 hk with rfl | hk
      · exact ⟨_, rfl⟩
      · exact e2 k hk
    · intro m0 l0 c0 k hfa hre hdone hc hk
      have := a1.failed; have := a2.failed; have := a1.refusals; have := a2.refusals
      have hdone1 := a1.done (by omega) (by omega) m0 l0 hdone
      have hk0 : d.st.attrs &&& CACHE_ATTRIBUTE_MASK = k := by rw [(done_attrs hm hdone hc hd).1]; exact hk
      have hrest := e3 m0 _ c0 k (by omega) (by omega) hdone1 hc (by
        rw [lastSet_snoc]
        split
        · rw [hk0]
          show (c.protection ||| k) &&& CACHE_ATTRIBUTE_MASK = k
          rw [Nat.and_or_distrib_right]
          have : k &&& CACHE_ATTRIBUTE_MASK = k := by rw [← hk, Nat.and_assoc, Nat.and_self]
          rw [this]
          rcases protection_cases c with ⟨e, _⟩ | ⟨e, _⟩ <;> rw [e]
          · have : (0x20000 : Nat) &&& CACHE_ATTRIBUTE_MASK = 0 := by decide
            rw [this, Nat.zero_or]
          · have : (0x4000 : Nat) &&& CACHE_ATTRIBUTE_MASK = 0 := by decide
            rw [this, Nat.zero_or]
        · exact hk)
      intro x hx
      rcases List.mem_cons.1 hx with rfl | hx
      · exact hk0
      · exact hrest x hx

theorem zero_adv {s s' : Init} (hm : MemOk ns s.mem) (hmax : 4096 ≤ s.mem.gcd.max) (h : s.zero dbg fs = .at s') :
    ∃ d, s.mem.gcd.descriptorFor 0 = .ok d ∧
      Adv ns (if d.st.type ≠ .nonExistent then [⟨0, 4096, MEMORY_RP⟩] else []) s s' := by
  obtain ⟨d, e, _⟩ := descriptor_contains hm.reach hm.some (a := 0) (by omega)
  refine ⟨d, e, ?_⟩
  unfold Init.zero at h
  rw [e] at h
  dsimp only at h
  split at h
  · rename_i hne
    rw [if_pos hne]
    exact attempt_adv hm ⟨by simpa using hmax, by decide, by decide⟩ h
  · rename_i hne
    rw [if_neg hne]
    injection h with h; subst h
    exact .refl hm

/-- The calls, in order. -/
def plan (l : List (Block Cell)) (image len k : Nat) (pe : CorePe) (ks : List Nat) (zero : Bool) : List SetCall :=
  allocatedCalls l ++ ([⟨image, len, MEMORY_XP ||| k⟩] ++ (((pe.sections.zip ks).map fun x => sectionCall image pe.alignment x.2 x.1) ++
    ((mmioBlocks l).map mmioCall ++ (if zero then [⟨0, 4096, MEMORY_RP⟩] else []))))

theorem mem_allocated {l : List (Block Cell)} {c : SetCall} (h : c ∈ allocatedCalls l) :
    ∃ b ∈ l, b.st.allocated = true ∧ c = ⟨b.base, b.len, (b.st.attrs &&& CACHE_ATTRIBUTE_MASK) ||| MEMORY_XP⟩ := by
  unfold allocatedCalls at h
  obtain ⟨b, hb, rfl⟩ := List.mem_map.1 h
  obtain ⟨h1, h2⟩ := List.mem_filter.1 hb
  exact ⟨b, h1, h2, rfl⟩

theorem mem_mmio {l : List (Block Cell)} {b : Block Cell} : b ∈ mmioBlocks l ↔
    b ∈ l ∧ b.st.allocated = false ∧ (b.st.type = .memoryMappedIo ∨ b.st.type = .reserved) := by
  unfold mmioBlocks
  simp only [List.mem_filter, Bool.and_eq_true, Bool.not_eq_true', Bool.or_eq_true, decide_eq_true_eq]

theorem mmio_len {b : Block Cell} {max : Nat} (h : b.base + b.len ≤ max) (hmax : max < W) (hp : max % 4096 = 0) :
    addw b.len 0xFFF = b.len + 0xFFF := by
  unfold addw
  refine Nat.mod_eq_of_lt ?_
  have : W = 2 ^ 64 := by decide
  omega

theorem mmio_fits {b : Block Cell} {max : Nat} (h : b.base + b.len ≤ max) (hmax : max < W) (hp : max % 4096 = 0) :
    (mmioCall b).Fits max := by
  unfold mmioCall
  rw [mmio_len h hmax hp]
  exact xp_fits (by omega)

/-- The state paging is set up in. -/
def freshInit (m : Mem) : Init := ⟨{ m with table := some fun _ => none }, 0, []⟩

theorem fresh_done {m : Mem} : Done m (freshInit m).mem [] where
  table := ⟨_, rfl, fun _ => rfl⟩
  cells := fun a c h => ⟨c, h, rfl, rfl, rfl, fun h => ⟨h, rfl⟩⟩
  aligned := by simp
  back := fun a c h => ⟨c, h⟩
  supported := by simp [lastSet]

theorem fresh_ok {m : Mem} (h : MemOk ns m) : MemOk ns (freshInit m).mem :=
  ⟨h.reach, h.some, fun t p a ht hp => by
    simp only [freshInit] at ht
    injection ht with ht; subst ht; simp at hp, h.dflt⟩

theorem block_le {m : Mem} (hm : MemOk ns m) {b : Block Cell} (hb : b ∈ m.gcd.blocks) : b.base + b.len ≤ m.gcd.max := by
  have := tiles_mem (good_of hm.reach hm.some).tiles hb
  omega

theorem init_adv {m : Mem} {parse : Nat → Nat → Option CorePe} {image len : Nat} {rest : List (Nat × Nat)} {pe : CorePe} {s' : Init}
    (hm : MemOk ns m) (hf : CoreFits m image len pe) (hpe : parse image len = some pe)
    (h : initPaging dbg fs parse ((image, len) :: rest) m = .at s') :
    ∃ k ks zero, (∃ x, k = x &&& CACHE_ATTRIBUTE_MASK) ∧ ks.length = pe.sections.length ∧ (∀ k ∈ ks, ∃ x, k = x &&& CACHE_ATTRIBUTE_MASK) ∧
      Adv ns (plan m.gcd.blocks image len k pe ks zero) (freshInit m) s' ∧
      (s'.failed = 0 → s'.mem.refusals = m.refusals → Done m s'.mem (plan m.gcd.blocks image len k pe ks zero) ∧
        (∀ c, cellAt m.gcd.blocks 0 = some c → (zero = true ↔ c.type ≠ .nonExistent)) ∧
        ∀ c, cellAt m.gcd.blocks image = some c →
          ((lastSet (allocatedCalls m.gcd.blocks) image).getD c.attrs) &&& CACHE_ATTRIBUTE_MASK = k ∧ ∀ x ∈ ks, x = k) := by
  have hW := (reachable_inv hm.reach).inv.ltW
  unfold initPaging at h
  rw [if_neg (by have := hf.pages; omega)] at h
  obtain ⟨s1, h1, h⟩ := then_at h
  dsimp only at h
  rw [hpe] at h
  dsimp only at h
  obtain ⟨s3, h3, h⟩ := then_at h
  obtain ⟨s4, h4, h5⟩ := then_at h
  have a1 : Adv ns (allocatedCalls m.gcd.blocks) (freshInit m) s1 := attemptAll_adv (fresh_ok hm) (fun c hc => by
    obtain ⟨b, hb, _, rfl⟩ := mem_allocated hc
    exact xp_fits (block_le hm hb)) h1
  have max1 : s1.mem.gcd.max = m.gcd.max := a1.max
  unfold Init.image at h3
  split at h3
  · rename_i d hd
    obtain ⟨s2, h2, h3⟩ := then_at h3
    have a2 := must_adv a1.ok (xp_fits' (by rw [max1]; exact hf.inside)) h2
    have max2 : s2.mem.gcd.max = m.gcd.max := a2.max.trans max1
    obtain ⟨ks, e1, e2, a3, e3⟩ := sections_adv a2.ok (fun c hc => by rw [max2]; exact hf.sections c hc) h3
    have max3 : s3.mem.gcd.max = m.gcd.max := a3.max.trans max2
    have a4 := mmio_adv a3.ok (fun b hb => by
      rw [max3]; exact mmio_fits (block_le hm (mem_mmio.1 hb).1) hW hf.pages.1) h4
    have max4 : s4.mem.gcd.max = m.gcd.max := a4.max.trans max3
    obtain ⟨d0, hd0, a5⟩ := zero_adv a4.ok (by rw [max4]; have := hf.pages; omega) h5
    have eqz : (if d0.st.type ≠ .nonExistent then [⟨0, 4096, MEMORY_RP⟩] else [] : List SetCall) =
        if (decide (d0.st.type ≠ .nonExistent)) = true then [⟨0, 4096, MEMORY_RP⟩] else [] := by
      simp only [decide_eq_true_eq]
    rw [eqz] at a5
    have afull := a1.trans (a2.trans (a3.trans (a4.trans a5)))
    refine ⟨_, ks, decide (d0.st.type ≠ .nonExistent), ⟨_, rfl⟩, e1, e2, afull, fun hfa hre => ?_⟩
    have f0 : (freshInit m).failed = 0 := rfl
    have r0 : (freshInit m).mem.refusals = m.refusals := rfl
    have := a1.failed; have := a2.failed; have := a3.failed; have := a4.failed; have := a5.failed
    have := a1.refusals; have := a2.refusals; have := a3.refusals; have := a4.refusals; have := a5.refusals
    have d1 := a1.done (by omega) (by omega) m [] fresh_done
    have d2 := a2.done (by omega) (by omega) m _ d1
    have d3 := a3.done (by omega) (by omega) m _ d2
    have d4 := a4.done (by omega) (by omega) m _ d3
    refine ⟨afull.done (by omega) (by omega) m [] fresh_done, fun c hc => ?_, fun c hc => ?_⟩
    · rw [decide_eq_true_eq, (done_attrs a4.ok d4 hc hd0).2]
    · have hk := (done_attrs a1.ok d1 hc hd).1
      rw [List.nil_append] at hk d1 d2
      refine ⟨by rw [hk], ?_⟩
      refine e3 m _ c _ (by omega) (by omega) d2 hc ?_
      rw [lastSet_snoc]
      split
      · show (MEMORY_XP ||| (d.st.attrs &&& CACHE_ATTRIBUTE_MASK)) &&& CACHE_ATTRIBUTE_MASK = _
        rw [Nat.and_or_distrib_right, Nat.and_assoc, Nat.and_self]
        have : MEMORY_XP &&& CACHE_ATTRIBUTE_MASK = 0 := by decide
        rw [this, Nat.zero_or]
      · rw [hk]
  · cases h3

end Verif.Paging
