import Verif.Paging.InitStages
namespace Verif.Paging
open Verif.Gcd

variable {ns : Nat} {dbg : Bool} {fs : Nat → Faults}

/-! ### Never writable and executable -/

def NotBoth (a : Nat) : Prop := a.testBit 14 = true ∨ a.testBit 17 = true

theorem notBoth_mask {a : Nat} (h : NotBoth a) : NotBoth (a &&& PT_MASK) := by
  rw [ptMask]
  unfold NotBoth at *
  rw [testBit_mask a 14 (by decide), testBit_mask a 17 (by decide)]
  exact h

theorem notBoth_xp (x : Nat) : NotBoth ((x &&& CACHE_ATTRIBUTE_MASK) ||| MEMORY_XP) := Or.inl (testBit_or_right (by decide))

theorem mmio_notBoth (b : Block Cell) : NotBoth (mmioCall b).attrs := notBoth_xp b.st.attrs

theorem notBoth_prot (c : CoreSection) (x : Nat) : NotBoth (c.protection ||| x) := by
  rcases protection_cases c with ⟨e, _⟩ | ⟨e, _⟩ <;> rw [e]
  · exact Or.inr (testBit_or_left (by decide))
  · exact Or.inl (testBit_or_left (by decide))

theorem attemptAll_keeps {l : List SetCall} : ∀ {s : Init}, AllMapped NotBoth s.mem → (∀ c ∈ l, NotBoth c.attrs) →
    Keeps NotBoth (Init.attemptAll dbg fs s l) := by
  induction l with
  | nil => intro s h _; exact keeps_at h
  | cons c l ih =>
    intro s h hl
    simp only [Init.attemptAll]
    exact (attempt_keeps h fun _ => notBoth_mask (hl c (List.mem_cons_self ..))).then fun s hs =>
      ih hs fun c hc => hl c (List.mem_cons_of_mem _ hc)

theorem mmio_keeps {l : List (Block Cell)} : ∀ {s : Init}, AllMapped NotBoth s.mem → Keeps NotBoth (Init.mmio dbg fs s l) := by
  induction l with
  | nil => intro s h; exact keeps_at h
  | cons b l ih =>
    intro s h
    simp only [Init.mmio]
    split
    · exact keeps_panics _
    · exact (attempt_keeps h fun _ => notBoth_mask (mmio_notBoth b)).then fun s hs => ih hs

theorem sections_keeps {image alignment : Nat} {l : List CoreSection} : ∀ {s : Init}, AllMapped NotBoth s.mem →
    Keeps NotBoth (Init.sections dbg fs image alignment s l) := by
  induction l with
  | nil => intro s h; exact keeps_at h
  | cons c l ih =>
    intro s h
    simp only [Init.sections]
    refine Keeps.then ?_ fun s hs => ih hs
    unfold Init.section
    split
    · exact keeps_panics _
    · split
      · split
        · exact must_keeps h fun _ => notBoth_mask (notBoth_prot c _)
        · exact keeps_panics _
      · exact keeps_panics _

/-- C108: however setting up paging goes, no page is left both writable and executable: every page that is mapped is
execute-protected (bit 14) or read-only (bit 17). -/
theorem never_writable_and_executable {parse : Nat → Nat → Option CorePe} {modules : List (Nat × Nat)} {m : Mem} {s : Init} {t : Table}
    (h : initPaging dbg fs parse modules m = .at s) (ht : s.mem.table = some t) {p a : Nat} (hp : t p = some a) :
    a.testBit 14 = true ∨ a.testBit 17 = true := by
  have key : Keeps NotBoth (initPaging dbg fs parse modules m) := by
    unfold initPaging
    split
    · exact keeps_panics _
    · refine Keeps.then (attemptAll_keeps (fun t p a ht hp => ?_) fun c hc => ?_) fun s hs => ?_
      · injection ht with ht; subst ht; cases hp
      · obtain ⟨b, _, _, rfl⟩ := mem_allocated hc
        exact notBoth_xp _
      · split
        · exact keeps_panics _
        · split
          · exact keeps_panics _
          · refine Keeps.then ?_ fun s hs => (mmio_keeps hs).then fun s hs => ?_
            · unfold Init.image
              split
              · exact (must_keeps hs fun _ => notBoth_mask (Or.inl (testBit_or_left (by decide)))).then fun s hs => sections_keeps hs
              · exact keeps_panics _
            · unfold Init.zero
              split
              · split
                · exact attempt_keeps hs fun h => absurd (by decide) h
                · exact keeps_at hs
              · exact keeps_at hs
  exact key s h t p a ht hp

/-! ### Which page is mapped how -/

variable {m m' : Mem} {image len : Nat} {pe : CorePe} {t : Table}

def SetCall.Covers (c : SetCall) (a : Nat) : Prop := c.base ≤ a ∧ a < c.base + c.len

theorem lastSet_none {l : List SetCall} {a : Nat} : lastSet l a = none ↔ ∀ c ∈ l, ¬ c.Covers a := by
  induction l with
  | nil => simp [lastSet]
  | cons c l ih =>
    simp only [lastSet, List.mem_cons, forall_eq_or_imp]
    cases h : lastSet l a with
    | some x =>
      rw [h] at ih
      constructor
      · intro h; cases h
      · rintro ⟨_, h2⟩; exact absurd (ih.2 h2) (by simp)
    | none =>
      rw [h] at ih
      have h2 := ih.1 rfl
      dsimp only
      constructor
      · intro hc
        refine ⟨fun k => ?_, h2⟩
        rw [if_pos (show c.base ≤ a ∧ a < c.base + c.len from k)] at hc; cases hc
      · rintro ⟨k, _⟩
        exact if_neg k

theorem lastSet_mem {l : List SetCall} {a x : Nat} (h : lastSet l a = some x) : ∃ c ∈ l, c.Covers a ∧ c.attrs = x := by
  induction l with
  | nil => cases h
  | cons c l ih =>
    simp only [lastSet] at h
    cases hl : lastSet l a with
    | some y =>
      rw [hl] at h ih
      obtain ⟨c, hc, k⟩ := ih h
      exact ⟨c, List.mem_cons_of_mem _ hc, k⟩
    | none =>
      rw [hl] at h
      dsimp only at h
      split at h
      · rename_i k
        injection h with h
        exact ⟨c, List.mem_cons_self .., k, h⟩
      · cases h

theorem lastSet_eq {l : List SetCall} {a x : Nat} (h1 : ∃ c ∈ l, c.Covers a) (h2 : ∀ c ∈ l, c.Covers a → c.attrs = x) : lastSet l a = some x := by
  cases h : lastSet l a with
  | none =>
    obtain ⟨c, hc, k⟩ := h1
    exact absurd k (lastSet_none.1 h c hc)
  | some y =>
    obtain ⟨c, hc, k, e⟩ := lastSet_mem h
    rw [← h2 c hc k, e]

theorem allocated_set (hm : MemOk ns m) {a : Nat} {c : Cell} (hc : cellAt m.gcd.blocks a = some c) :
    lastSet (allocatedCalls m.gcd.blocks) a = if c.allocated = true then some ((c.attrs &&& CACHE_ATTRIBUTE_MASK) ||| MEMORY_XP) else none := by
  have hg := good_of hm.reach hm.some
  have cover : ∀ b ∈ m.gcd.blocks, b.base ≤ a → a < b.base + b.len → b.st = c := fun b hb h1 h2 => by
    have := cellAt_mem hg.tiles hb h1 h2
    rw [hc] at this; injection this with this; exact this.symm
  split
  · rename_i ha
    refine lastSet_eq ?_ fun x hx k => ?_
    · obtain ⟨b, hb, h1, h2, _⟩ := cellAt_some hg.tiles (Nat.zero_le a) (cellAt_bounds hg.tiles hc).2
      have e := cover b hb h1 h2
      refine ⟨⟨b.base, b.len, (b.st.attrs &&& CACHE_ATTRIBUTE_MASK) ||| MEMORY_XP⟩, ?_, h1, h2⟩
      unfold allocatedCalls
      refine List.mem_map.2 ⟨b, List.mem_filter.2 ⟨hb, ?_⟩, rfl⟩
      rw [e]; exact ha
    · obtain ⟨b, hb, _, rfl⟩ := mem_allocated hx
      rw [cover b hb k.1 k.2]
  · rename_i ha
    refine lastSet_none.2 fun x hx k => ?_
    obtain ⟨b, hb, h, rfl⟩ := mem_allocated hx
    rw [cover b hb k.1 k.2] at h
    exact ha h

/-- The pages of a widened range hold addresses of the range. -/
theorem mmio_touches (hm : MemOk ns m) (hp : m.gcd.max % 4096 = 0) {b : Block Cell} (hb : b ∈ m.gcd.blocks) {a : Nat} (h : (mmioCall b).Covers a) :
    ∃ a', b.base ≤ a' ∧ a' < b.base + b.len ∧ a' / 4096 = a / 4096 := by
  have hl := block_le hm hb
  have hpos := (tiles_mem (good_of hm.reach hm.some).tiles hb)
  unfold mmioCall SetCall.Covers at h
  rw [mmio_len hl (reachable_inv hm.reach).inv.ltW hp] at h
  dsimp only at h
  refine ⟨max b.base (a / 4096 * 4096), by omega, by omega, by omega⟩

theorem last_cases {l : List (Block Cell)} {k : Nat} {ks : List Nat} {zero : Bool} {a : Nat} :
    lastSet (plan l image len k pe ks zero) a =
      match lastSet (if zero then [⟨0, 4096, MEMORY_RP⟩] else []) a with
      | some x => some x
      | none => match lastSet ((mmioBlocks l).map mmioCall) a with
        | some x => some x
        | none => match lastSet ((pe.sections.zip ks).map fun x => sectionCall image pe.alignment x.2 x.1) a with
          | some x => some x
          | none => match lastSet [⟨image, len, MEMORY_XP ||| k⟩] a with
            | some x => some x
            | none => lastSet (allocatedCalls l) a := by
  unfold plan
  rw [lastSet_append, lastSet_append, lastSet_append, lastSet_append]
  cases lastSet (if zero then [⟨0, 4096, MEMORY_RP⟩] else []) a <;>
    cases lastSet ((mmioBlocks l).map mmioCall) a <;>
    cases lastSet ((pe.sections.zip ks).map fun x => sectionCall image pe.alignment x.2 x.1) a <;>
    cases lastSet [⟨image, len, MEMORY_XP ||| k⟩] a <;> rfl

/-- What is known when everything worked. -/
theorem setUp_done (hm : MemOk ns m) (hf : CoreFits m image len pe) (h : SetUp dbg fs m image len pe m' t) :
    ∃ k ks zero c0, cellAt m.gcd.blocks image = some c0 ∧ k = c0.attrs &&& CACHE_ATTRIBUTE_MASK ∧ ks.length = pe.sections.length ∧ (∀ x ∈ ks, x = k) ∧
      Done m m' (plan m.gcd.blocks image len k pe ks zero) ∧ MemOk ns m' ∧
      ∀ c, cellAt m.gcd.blocks 0 = some c → (zero = true ↔ c.type ≠ .nonExistent) := by
  obtain ⟨⟨parse, rest, calls, hpe, hrun⟩, href, _⟩ := h
  obtain ⟨k, ks, zero, _, e1, _, adv, hq⟩ := init_adv hm hf hpe hrun
  obtain ⟨hd, hz, hk⟩ := hq rfl href
  have hg := good_of hm.reach hm.some
  obtain ⟨b, _, _, _, hc⟩ := cellAt_some hg.tiles (Nat.zero_le image) (by have := hf.nonempty; have := hf.inside; omega)
  obtain ⟨h1, h2⟩ := hk _ hc
  refine ⟨k, ks, zero, _, hc, ?_, e1, h2, hd, adv.ok, hz⟩
  rw [← h1, allocated_set hm hc]
  split
  · show ((_ &&& CACHE_ATTRIBUTE_MASK) ||| MEMORY_XP) &&& CACHE_ATTRIBUTE_MASK = _
    rw [Nat.and_or_distrib_right, Nat.and_assoc, Nat.and_self]
    have : MEMORY_XP &&& CACHE_ATTRIBUTE_MASK = 0 := by decide
    rw [this, Nat.or_zero]
  · rfl

theorem done_table (hd : Done m m' l) (ht : m'.table = some t) (p : Nat) : t p = mappingFrom (lastSet l (p * 4096)) := by
  obtain ⟨t', e, h⟩ := hd.table
  rw [ht] at e; injection e with e; subst e
  exact h p

/-- C108: page 0 is not mapped, so that a null pointer is caught, if there is memory at address 0 at all. -/
theorem page_zero_not_mapped (hm : MemOk ns m) (hf : CoreFits m image len pe) (h : SetUp dbg fs m image len pe m' t) {c : Cell}
    (hc : cellAt m.gcd.blocks 0 = some c) (hne : c.type ≠ .nonExistent) : t 0 = none := by
  obtain ⟨k, ks, zero, c0, _, _, _, _, hd, _, hz⟩ := setUp_done hm hf h
  rw [done_table hd h.table, last_cases, (hz c hc).2 hne]
  rfl

/-! #### Without assuming that everything worked -/

theorem mem_plan {l : List (Block Cell)} {k : Nat} {ks : List Nat} {zero : Bool} {c : SetCall} (h : c ∈ plan l image len k pe ks zero) :
    c ∈ allocatedCalls l ∨ c = ⟨image, len, MEMORY_XP ||| k⟩ ∨ (∃ x ∈ pe.sections, ∃ y ∈ ks, c = sectionCall image pe.alignment y x) ∨
      (∃ b ∈ mmioBlocks l, c = mmioCall b) ∨ c = ⟨0, 4096, MEMORY_RP⟩ := by
  unfold plan at h
  simp only [List.mem_append, List.mem_singleton] at h
  rcases h with h | h | h | h | h
  · exact Or.inl h
  · exact Or.inr (Or.inl h)
  · obtain ⟨⟨x, y⟩, hx, rfl⟩ := List.mem_map.1 h
    exact Or.inr (Or.inr (Or.inl ⟨x, (List.of_mem_zip hx).1, y, (List.of_mem_zip hx).2, rfl⟩))
  · obtain ⟨b, hb, rfl⟩ := List.mem_map.1 h
    exact Or.inr (Or.inr (Or.inr (Or.inl ⟨b, hb, rfl⟩)))
  · split at h
    · exact Or.inr (Or.inr (Or.inr (Or.inr (List.mem_singleton.1 h))))
    · cases h

theorem mapped_by {parse : Nat → Nat → Option CorePe} {rest : List (Nat × Nat)} {s : Init} (hm : MemOk ns m) (hf : CoreFits m image len pe)
    (hpe : parse image len = some pe) (h : initPaging dbg fs parse ((image, len) :: rest) m = .at s) (ht : s.mem.table = some t) {p a : Nat}
    (hp : t p = some a) : ∃ k ks zero, ∃ c ∈ plan m.gcd.blocks image len k pe ks zero, mappingFor c.attrs = some a ∧ PageIn p c.base c.len := by
  obtain ⟨k, ks, zero, _, _, _, adv, _⟩ := init_adv hm hf hpe h
  obtain ⟨t0, e0, hpg⟩ := adv.pages t ht
  have : t0 = fun _ => none := by
    simp only [freshInit] at e0
    injection e0 with e0; exact e0.symm
  subst this
  rcases hpg p with k1 | ⟨c, hc, k1, k2⟩
  · rw [k1] at hp; cases hp
  · exact ⟨k, ks, zero, c, hc, k1.symm.trans hp, k2⟩

theorem mapped_bit {x a i : Nat} (h : mappingFor x = some a) (hi : Nat.testBit 0x2701F i = true) : a.testBit i = x.testBit i := by
  unfold mappingFor at h
  split at h
  · cases h
  · injection h with h
    rw [← h, testBit_mask x i hi]

/-- C108: even if something did not work, the only code that can be executed is that of the core: an executable page lies in one
of the code sections of its image, and is read-only. -/
theorem executable_is_core_code {parse : Nat → Nat → Option CorePe} {rest : List (Nat × Nat)} {s : Init} (hm : MemOk ns m)
    (hf : CoreFits m image len pe) (hpe : parse image len = some pe) (h : initPaging dbg fs parse ((image, len) :: rest) m = .at s)
    (ht : s.mem.table = some t) {p a : Nat} (hp : t p = some a) (hx : a.testBit 14 = false) :
    a.testBit 17 = true ∧ ∃ c ∈ pe.sections, c.IsCode ∧ InSection image pe.alignment p c := by
  obtain ⟨k, ks, zero, c, hc, hma, hin⟩ := mapped_by hm hf hpe h ht hp
  refine ⟨?_, ?_⟩
  · rcases never_writable_and_executable h ht hp with k | k
    · rw [hx] at k; cases k
    · exact k
  have hbit : c.attrs.testBit 14 = false := by rw [← mapped_bit hma (by decide)]; exact hx
  have no : c.attrs.testBit 14 = true → False := fun h => by rw [hbit] at h; cases h
  rcases mem_plan hc with hc | hc | ⟨x, hx, y, hy, hc⟩ | ⟨b, hb, hc⟩ | hc
  · obtain ⟨b, _, _, rfl⟩ := mem_allocated hc
    exact (no (testBit_or_right (by decide))).elim
  · subst hc; exact (no (testBit_or_left (by decide))).elim
  · subst hc
    refine ⟨x, hx, ?_, hin⟩
    rcases protection_cases x with ⟨_, e⟩ | ⟨e, _⟩
    · unfold CoreSection.IsCode
      have := congrArg (Nat.testBit · 5) e
      simp only [Nat.testBit_and] at this
      rw [show Nat.testBit 0x20 5 = true by decide, Bool.and_true] at this
      exact this
    · exact (no (by show (x.protection ||| y).testBit 14 = true; rw [e]; exact testBit_or_left (by decide))).elim
  · subst hc; exact (no (testBit_or_right (by decide))).elim
  · subst hc
    unfold mappingFor at hma
    rw [if_pos (by decide)] at hma
    cases hma

/-- C108: even if something did not work, memory that nobody uses is not mapped: a mapped page holds allocated, MMIO or reserved
memory, or a part of the image of the core. -/
theorem mapped_is_used {parse : Nat → Nat → Option CorePe} {rest : List (Nat × Nat)} {s : Init} (hm : MemOk ns m)
    (hf : CoreFits m image len pe) (hpe : parse image len = some pe) (h : initPaging dbg fs parse ((image, len) :: rest) m = .at s)
    (ht : s.mem.table = some t) {p a : Nat} (hp : t p = some a) :
    (∃ x c, x / 4096 = p ∧ cellAt m.gcd.blocks x = some c ∧ InUse c) ∨ PageIn p image len ∨ ∃ c ∈ pe.sections, InSection image pe.alignment p c := by
  have hg := good_of hm.reach hm.some
  obtain ⟨k, ks, zero, c, hc, hma, hin⟩ := mapped_by hm hf hpe h ht hp
  rcases mem_plan hc with hc | hc | ⟨x, hx, y, hy, hc⟩ | ⟨b, hb, hc⟩ | hc
  · obtain ⟨b, hb, hal, rfl⟩ := mem_allocated hc
    unfold PageIn at hin
    dsimp only at hin
    exact Or.inl ⟨p * 4096, _, by omega, cellAt_mem hg.tiles hb (by omega) (by omega), Or.inl hal⟩
  · subst hc; exact Or.inr (Or.inl hin)
  · subst hc; exact Or.inr (Or.inr ⟨x, hx, hin⟩)
  · subst hc
    have hb' := mem_mmio.1 hb
    unfold PageIn at hin
    obtain ⟨x, h1, h2, h3⟩ := mmio_touches hm hf.pages.1 hb'.1 (a := p * 4096) (by unfold SetCall.Covers; omega)
    exact Or.inl ⟨x, _, by omega, cellAt_mem hg.tiles hb'.1 h1 h2, Or.inr hb'.2.2⟩
  · subst hc
    unfold mappingFor at hma
    rw [if_pos (by decide)] at hma
    cases hma

/-! #### When everything worked -/

theorem mapping_xp (x : Nat) : mappingFor ((x &&& CACHE_ATTRIBUTE_MASK) ||| MEMORY_XP) = some ((x &&& 0x101F) ||| 0x4000) := by
  have e : ((x &&& CACHE_ATTRIBUTE_MASK) ||| MEMORY_XP) = ((x &&& 0x101F) ||| 0x4000) := rfl
  rw [e]
  unfold mappingFor
  have hb : ((x &&& 0x101F) ||| 0x4000).testBit 13 = false := by
    rw [Nat.testBit_or, Nat.testBit_and, show Nat.testBit 0x101F 13 = false by decide, show Nat.testBit 0x4000 13 = false by decide, Bool.and_false]
    rfl
  rw [hb, if_neg (by decide), Nat.and_or_distrib_right, Nat.and_assoc]
  rfl

theorem mapping_ro (x : Nat) : mappingFor (0x20000 ||| (x &&& CACHE_ATTRIBUTE_MASK)) = some ((x &&& 0x101F) ||| 0x20000) := by
  have e : (0x20000 ||| (x &&& CACHE_ATTRIBUTE_MASK)) = ((x &&& 0x101F) ||| 0x20000) := Nat.or_comm ..
  rw [e]
  unfold mappingFor
  have hb : ((x &&& 0x101F) ||| 0x20000).testBit 13 = false := by
    rw [Nat.testBit_or, Nat.testBit_and, show Nat.testBit 0x101F 13 = false by decide, show Nat.testBit 0x20000 13 = false by decide, Bool.and_false]
    rfl
  rw [hb, if_neg (by decide), Nat.and_or_distrib_right, Nat.and_assoc]
  rfl

theorem zero_set {zero : Bool} {p : Nat} (hp : p ≠ 0) : lastSet (if zero then [⟨0, 4096, MEMORY_RP⟩] else []) (p * 4096) = none := by
  refine lastSet_none.2 fun c hc k => ?_
  split at hc
  · simp only [List.mem_singleton] at hc
    subst hc
    unfold SetCall.Covers at k
    dsimp only at k
    omega
  · cases hc

theorem image_set {k p : Nat} : lastSet [⟨image, len, MEMORY_XP ||| k⟩] p = if image ≤ p ∧ p < image + len then some (MEMORY_XP ||| k) else none := by
  simp only [lastSet]

/-- Where nothing is MMIO or reserved in the page. -/
theorem no_mmio_set (hm : MemOk ns m) (hmax : m.gcd.max % 4096 = 0) {p : Nat} (h : ∀ x c, x / 4096 = p → cellAt m.gcd.blocks x = some c →
    c.allocated = true ∨ (c.type ≠ .memoryMappedIo ∧ c.type ≠ .reserved)) : lastSet ((mmioBlocks m.gcd.blocks).map mmioCall) (p * 4096) = none := by
  refine lastSet_none.2 fun c hc k => ?_
  obtain ⟨b, hb, rfl⟩ := List.mem_map.1 hc
  obtain ⟨hb1, hb2, hb3⟩ := mem_mmio.1 hb
  obtain ⟨x, h1, h2, h3⟩ := mmio_touches hm hmax hb1 k
  have := h x _ (by omega) (cellAt_mem (good_of hm.reach hm.some).tiles hb1 h1 h2)
  rcases this with h | h
  · rw [hb2] at h; cases h
  · rcases hb3 with k | k
    · exact h.1 k
    · exact h.2 k

/-- Allocated memory comes in whole pages (as it must, to be mapped). -/
theorem allocated_page (hm : MemOk ns m) {k : Nat} {ks : List Nat} {zero : Bool} (hd : Done m m' (plan m.gcd.blocks image len k pe ks zero)) {a : Nat} {c : Cell}
    (hc : cellAt m.gcd.blocks a = some c) (ha : c.allocated = true) : ∀ x, x / 4096 = a / 4096 → cellAt m.gcd.blocks x = some c := by
  intro x hx
  have hg := good_of hm.reach hm.some
  obtain ⟨b, hb, h1, h2, h3⟩ := cellAt_some hg.tiles (Nat.zero_le a) (cellAt_bounds hg.tiles hc).2
  rw [hc] at h3; injection h3 with h3
  have hpos := tiles_mem hg.tiles hb
  have hmem : (⟨b.base, b.len, (b.st.attrs &&& CACHE_ATTRIBUTE_MASK) ||| MEMORY_XP⟩ : SetCall) ∈ plan m.gcd.blocks image len k pe ks zero := by
    unfold plan
    refine List.mem_append_left _ ?_
    unfold allocatedCalls
    exact List.mem_map.2 ⟨b, List.mem_filter.2 ⟨hb, by rw [← h3]; exact ha⟩, rfl⟩
  have hal := hd.aligned _ hmem
  dsimp only at hal
  rw [h3]
  exact cellAt_mem hg.tiles hb (by omega) (by omega)

/-- C108: allocated memory outside the image of the core is mapped execute-protected, with the cache attributes it had; page 0
excepted. -/
theorem allocated_mapped (hm : MemOk ns m) (hf : CoreFits m image len pe) (h : SetUp dbg fs m image len pe m' t) {a : Nat} {c : Cell}
    (hc : cellAt m.gcd.blocks a = some c) (ha : c.allocated = true) (h0 : 4096 ≤ a) (himg : ¬ (image ≤ a / 4096 * 4096 ∧ a / 4096 * 4096 < image + len))
    (hsec : ∀ x ∈ pe.sections, ¬ (image + x.address ≤ a / 4096 * 4096 ∧ a / 4096 * 4096 < image + x.address + x.rounded pe.alignment)) :
    t (a / 4096) = some ((c.attrs &&& 0x101F) ||| 0x4000) := by
  obtain ⟨k, ks, zero, c0, hc0, hk, hks, hks2, hd, hm', hz⟩ := setUp_done hm hf h
  have hpg := allocated_page hm hd hc ha
  have hp : cellAt m.gcd.blocks (a / 4096 * 4096) = some c := hpg _ (by omega)
  rw [done_table hd h.table, last_cases, zero_set (by omega), no_mmio_set hm hf.pages.1 (fun x y hx hy => by
    rw [hpg x hx] at hy; injection hy with hy; subst hy; exact Or.inl ha), image_set, if_neg himg, allocated_set hm hp, if_pos ha]
  rw [lastSet_none.2 (fun x hx k => by
    obtain ⟨⟨y, z⟩, hy, rfl⟩ := List.mem_map.1 hx
    exact hsec y (List.of_mem_zip hy).1 k)]
  exact mapping_xp _

/-- The cache attributes of memory. -/
def cacheAt (m : Mem) (a : Nat) : Nat :=
  match cellAt m.gcd.blocks a with
  | some c => c.attrs &&& 0x101F
  | none => 0

theorem sections_zip {k : Nat} {ks : List Nat} (h1 : ks.length = pe.sections.length) (h2 : ∀ x ∈ ks, x = k) :
    ((pe.sections.zip ks).map fun x => sectionCall image pe.alignment x.2 x.1) = pe.sections.map (sectionCall image pe.alignment k) := by
  have : ks = List.replicate pe.sections.length k := List.eq_replicate_iff.2 ⟨h1, h2⟩
  rw [this]
  generalize pe.sections = l
  induction l with
  | nil => rfl
  | cons a l ih => simp only [List.length_cons, List.replicate_succ, List.zip_cons_cons, List.map_cons, ih]

/-- C108: the sections of the core: code is mapped read-only and executable, everything else execute-protected and writable, with
the cache attributes of the image. (The page belongs to one section only, and holds no MMIO or reserved memory.) -/
theorem core_section_mapped (hm : MemOk ns m) (hf : CoreFits m image len pe) (h : SetUp dbg fs m image len pe m' t) {p : Nat} {x : CoreSection}
    (hx : x ∈ pe.sections) (hp : PageIn p (image + x.address) (x.rounded pe.alignment)) (h0 : p ≠ 0)
    (hone : ∀ y ∈ pe.sections, image + y.address ≤ p * 4096 → p * 4096 < image + y.address + y.rounded pe.alignment → y = x)
    (hno : ∀ a c, a / 4096 = p → cellAt m.gcd.blocks a = some c → c.allocated = true ∨ (c.type ≠ .memoryMappedIo ∧ c.type ≠ .reserved)) :
    t p = some (cacheAt m image ||| if x.IsCode then 0x20000 else 0x4000) := by
  obtain ⟨k, ks, zero, c0, hc0, hk, hks, hks2, hd, hm', hz⟩ := setUp_done hm hf h
  rw [done_table hd h.table, last_cases, zero_set h0, no_mmio_set hm hf.pages.1 hno, sections_zip hks hks2]
  have hset : lastSet (pe.sections.map (sectionCall image pe.alignment k)) (p * 4096) = some (x.protection ||| k) := by
    refine lastSet_eq ⟨_, List.mem_map.2 ⟨x, hx, rfl⟩, ?_⟩ fun c hc hcov => ?_
    · unfold PageIn at hp
      unfold SetCall.Covers sectionCall
      dsimp only
      omega
    · obtain ⟨y, hy, rfl⟩ := List.mem_map.1 hc
      rw [hone y hy hcov.1 hcov.2]
      rfl
  rw [hset]
  have hcache : cacheAt m image = c0.attrs &&& 0x101F := by unfold cacheAt; rw [hc0]
  have hcode : x.IsCode ↔ x.flags &&& 0x20 = 0x20 := by
    unfold CoreSection.IsCode
    constructor
    · intro hb
      refine Nat.eq_of_testBit_eq fun i => ?_
      rw [Nat.testBit_and, show (0x20 : Nat) = 2 ^ 5 by decide, Nat.testBit_two_pow]
      by_cases hi : 5 = i
      · subst hi; rw [hb]; rfl
      · simp [hi]
    · intro e
      have := congrArg (Nat.testBit · 5) e
      simp only [Nat.testBit_and] at this
      rw [show Nat.testBit 0x20 5 = true by decide, Bool.and_true] at this
      exact this
  rw [hcache]
  show mappingFor (x.protection ||| k) = _
  rw [hk]
  rcases protection_cases x with ⟨e, hf⟩ | ⟨e, hf⟩ <;> rw [e]
  · rw [if_pos (hcode.2 hf)]; exact mapping_ro _
  · rw [if_neg fun hc => hf (hcode.1 hc), Nat.or_comm]; exact mapping_xp _

/-- C108: the rest of the image of the core, its headers, is execute-protected. -/
theorem core_headers_mapped (hm : MemOk ns m) (hf : CoreFits m image len pe) (h : SetUp dbg fs m image len pe m' t) {p : Nat}
    (hp : PageIn p image len) (h0 : p ≠ 0)
    (hsec : ∀ y ∈ pe.sections, ¬ (image + y.address ≤ p * 4096 ∧ p * 4096 < image + y.address + y.rounded pe.alignment))
    (hno : ∀ a c, a / 4096 = p → cellAt m.gcd.blocks a = some c → c.allocated = true ∨ (c.type ≠ .memoryMappedIo ∧ c.type ≠ .reserved)) :
    t p = some (cacheAt m image ||| 0x4000) := by
  obtain ⟨k, ks, zero, c0, hc0, hk, hks, hks2, hd, hm', hz⟩ := setUp_done hm hf h
  rw [done_table hd h.table, last_cases, zero_set h0, no_mmio_set hm hf.pages.1 hno, lastSet_none.2 (fun x hx k => by
    obtain ⟨⟨y, z⟩, hy, rfl⟩ := List.mem_map.1 hx
    exact hsec y (List.of_mem_zip hy).1 k), image_set, if_pos (by unfold PageIn at hp; omega)]
  have hcache : cacheAt m image = c0.attrs &&& 0x101F := by unfold cacheAt; rw [hc0]
  rw [hcache]
  show mappingFor (MEMORY_XP ||| k) = _
  rw [hk, Nat.or_comm]
  exact mapping_xp _

theorem mmio_set (hm : MemOk ns m) (hmax : m.gcd.max % 4096 = 0) {b : Block Cell} (hb : b ∈ mmioBlocks m.gcd.blocks) (h1 : b.base % 4096 = 0)
    (h2 : b.len % 4096 = 0) {a : Nat} (h3 : b.base ≤ a) (h4 : a < b.base + b.len) :
    lastSet ((mmioBlocks m.gcd.blocks).map mmioCall) a = some ((b.st.attrs &&& CACHE_ATTRIBUTE_MASK) ||| MEMORY_XP) := by
  have hg := good_of hm.reach hm.some
  have hb' := mem_mmio.1 hb
  refine lastSet_eq ⟨_, List.mem_map.2 ⟨b, hb, rfl⟩, ?_⟩ fun c hc k => ?_
  · unfold SetCall.Covers mmioCall
    rw [mmio_len (block_le hm hb'.1) (reachable_inv hm.reach).inv.ltW hmax]
    dsimp only
    omega
  · obtain ⟨y, hy, rfl⟩ := List.mem_map.1 hc
    have hy' := mem_mmio.1 hy
    obtain ⟨x, k1, k2, k3⟩ := mmio_touches hm hmax hy'.1 k
    have e1 := cellAt_mem hg.tiles hy'.1 k1 k2
    have e2 := cellAt_mem hg.tiles hb'.1 (a := x) (by omega) (by omega)
    rw [e1] at e2; injection e2 with e2
    show (y.st.attrs &&& _) ||| _ = _
    rw [e2]

/-- C108: MMIO and reserved memory that is described in whole pages is mapped writable and execute-protected with the cache
attributes it had; page 0 excepted. -/
theorem mmio_mapped (hm : MemOk ns m) (hf : CoreFits m image len pe) (h : SetUp dbg fs m image len pe m' t) {b : Block Cell}
    (hb : b ∈ m.gcd.blocks) (hna : b.st.allocated = false) (hty : b.st.type = .memoryMappedIo ∨ b.st.type = .reserved)
    (h1 : b.base % 4096 = 0) (h2 : b.len % 4096 = 0) {p : Nat} (hp : PageIn p b.base b.len) (h0 : p ≠ 0) :
    t p = some ((b.st.attrs &&& 0x101F) ||| 0x4000) := by
  obtain ⟨k, ks, zero, c0, hc0, hk, hks, hks2, hd, hm', hz⟩ := setUp_done hm hf h
  unfold PageIn at hp
  rw [done_table hd h.table, last_cases, zero_set h0, mmio_set hm hf.pages.1 (mem_mmio.2 ⟨hb, hna, hty⟩) h1 h2 (by omega) (by omega)]
  exact mapping_xp _

theorem lastSet_page {l : List SetCall} (h : ∀ c ∈ l, c.len = 0 ∨ (c.base % 4096 = 0 ∧ c.len % 4096 = 0)) (a : Nat) :
    lastSet l (a / 4096 * 4096) = lastSet l a := by
  induction l with
  | nil => rfl
  | cons c l ih =>
    simp only [lastSet, ih fun c hc => h c (List.mem_cons_of_mem _ hc)]
    have := h c (List.mem_cons_self ..)
    have hiff : (c.base ≤ a / 4096 * 4096 ∧ a / 4096 * 4096 < c.base + c.len) ↔ (c.base ≤ a ∧ a < c.base + c.len) := by omega
    simp only [hiff]

/-- C108: from then on the page table agrees with the memory space about every address, if memory that is not allocated was
read-protected before, and MMIO and reserved memory is described in whole pages. (That the services of the memory space keep it
so is C63.) -/
theorem page_table_agrees_from_the_start (hm : MemOk ns m) (hf : CoreFits m image len pe) (h : SetUp dbg fs m image len pe m' t)
    (hfree : ∀ a c, cellAt m.gcd.blocks a = some c → c.type ≠ .nonExistent → c.allocated = true ∨ c.type = .memoryMappedIo ∨ c.type = .reserved ∨
      c.attrs.testBit 13 = true)
    (hmmio : ∀ b ∈ m.gcd.blocks, b.st.allocated = false → b.st.type = .memoryMappedIo ∨ b.st.type = .reserved → b.base % 4096 = 0 ∧ b.len % 4096 = 0) :
    MemOk ns m' ∧ Sync m' := by
  obtain ⟨k, ks, zero, c0, hc0, hk, hks, hks2, hd, hm', hz⟩ := setUp_done hm hf h
  refine ⟨hm', fun t1 e1 a c' hc' => ?_⟩
  rw [h.table] at e1; injection e1 with e1; subst e1
  obtain ⟨c, hc⟩ := hd.back a c' hc'
  obtain ⟨c'', k1, k2, _, k4, _⟩ := hd.cells a c hc
  rw [hc'] at k1; injection k1 with k1; subst k1
  rw [done_table hd h.table, lastSet_page hd.aligned]
  cases hl : lastSet (plan m.gcd.blocks image len k pe ks zero) a with
  | some x =>
    obtain ⟨y, hy, hne⟩ := hd.supported a (by rw [hl]; simp)
    rw [hc] at hy; injection hy with hy; subst hy
    rw [hl] at k4
    unfold mappingOf
    rw [if_neg (by rw [k2]; exact hne), k4]
    rfl
  | none =>
    rw [hl] at k4
    show none = mappingOf c'
    unfold mappingOf
    by_cases hne : c.type = .nonExistent
    · rw [if_pos (by rw [k2]; exact hne)]
    · rw [if_neg (by rw [k2]; exact hne), k4]
      have hnocov := lastSet_none.1 hl
      have hg := good_of hm.reach hm.some
      have hal : ¬ c.allocated = true := fun ha => by
        have := allocated_set hm hc
        rw [if_pos ha] at this
        obtain ⟨x, hx, k, _⟩ := lastSet_mem this
        exact hnocov x (by unfold plan; exact List.mem_append_left _ hx) k
      have hmm : ¬ (c.type = .memoryMappedIo ∨ c.type = .reserved) := fun hty => by
        obtain ⟨b, hb, h1, h2, h3⟩ := cellAt_some hg.tiles (Nat.zero_le a) (cellAt_bounds hg.tiles hc).2
        rw [hc] at h3; injection h3 with h3
        have hna : b.st.allocated = false := by rw [← h3]; simpa using hal
        have hty' : b.st.type = .memoryMappedIo ∨ b.st.type = .reserved := by rw [← h3]; exact hty
        obtain ⟨e1, e2⟩ := hmmio b hb hna hty'
        obtain ⟨x, hx, k, _⟩ := lastSet_mem (mmio_set hm hf.pages.1 (mem_mmio.2 ⟨hb, hna, hty'⟩) e1 e2 h1 h2)
        refine hnocov x ?_ k
        unfold plan
        exact List.mem_append_right _ (List.mem_append_right _ (List.mem_append_right _ (List.mem_append_left _ hx)))
      rcases hfree a c hc hne with h | h | h | h
      · exact absurd h hal
      · exact absurd (Or.inl h) hmm
      · exact absurd (Or.inr h) hmm
      · show none = mappingFor c.attrs
        unfold mappingFor
        rw [if_pos h]

end Verif.Paging
