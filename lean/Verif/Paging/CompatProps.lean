import Verif.Paging.CompatLemmas
import Verif.Paging.HistProps
import Verif.Paging.Witness
/-!
C116: compatibility mode.
-/
namespace Verif.Paging
open Verif.Gcd

variable {ns : Nat} {dbg : Bool} {fs : Nat → Faults} {m m' : Mem}

/-- The state in which the default attributes are cleared. -/
theorem activate_at {s' : Init} (h : activateCompat dbg fs m = .at s') : ∃ s1 s2, Init.mapZero dbg fs ⟨m, 0, []⟩ = .at s1 ∧
    Init.legacy dbg fs (LEGACY_END + 1) s1 4096 = .at s2 ∧ s' = { s2 with mem := { s2.mem with dflt := 0 } } := by
  unfold activateCompat at h
  obtain ⟨s1, h1, h⟩ := then_at h
  obtain ⟨s2, h2, h⟩ := then_at h
  injection h with h
  exact ⟨s1, s2, h1, h2, h.symm⟩

/-- C116: entering compatibility mode comes to an end: it returns, or it panics in a debug build (or for want of memory). -/
theorem compat_returns (hm : MemOk ns m) (hl : HasLegacy m) : activateCompat dbg fs m ≠ .hangs := by
  intro h
  unfold activateCompat at h
  cases h1 : Init.mapZero dbg fs ⟨m, 0, []⟩ with
  | hangs => exact zero_not_hangs (ns := ns) (s := ⟨m, 0, []⟩) hm hl h1
  | panics => rw [h1] at h; cases h
  | «at» s1 =>
    rw [h1] at h
    have c1 := zero_comp (ns := ns) (s := ⟨m, 0, []⟩) hm hl h1
    have hn := legacy_not_hangs (dbg := dbg) (fs := fs) (n := LEGACY_END + 1) (address := 4096) c1.ok (legacy_hl c1 hl) (by omega)
      (by unfold LEGACY_END; omega)
    simp only [Progress.then] at h
    cases h2 : Init.legacy dbg fs (LEGACY_END + 1) s1 4096 with
    | hangs => exact hn h2
    | panics => rw [h2] at h; cases h
    | «at» s2 => rw [h2] at h; cases h

/-- C116: whatever fails on the way, no page at or above 0xA0000 is mapped differently than before, and a page below it is
mapped as before or so that it can be read, written and executed. -/
theorem compat_only_below (hm : MemOk ns m) (hl : HasLegacy m) {s : Init} {t' : Table} (h : activateCompat dbg fs m = .at s)
    (ht : s.mem.table = some t') :
    ∃ t, m.table = some t ∧ ∀ p, t' p = t p ∨ (FreelyMapped t' p ∧ p < 0xA0) := by
  obtain ⟨s1, s2, h1, h2, rfl⟩ := activate_at h
  have c1 := zero_comp (ns := ns) (s := ⟨m, 0, []⟩) hm hl h1
  have c2 := c1.trans (legacy_comp c1.ok (legacy_hl c1 hl) h2)
  obtain ⟨t, e, k⟩ := c2.pages t' ht
  refine ⟨t, e, fun p => ?_⟩
  rcases k p with k | ⟨k1, k2⟩
  · exact Or.inl k
  · exact Or.inr ⟨k1, by omega⟩

theorem entered_calm (hm : MemOk ns m) (hl : HasLegacy m) (hc : LegacyCached m) (h : Entered dbg fs m m') :
    ∃ s1 s2 : Init, m' = { s2.mem with dflt := 0 } ∧ Calm ⟨m, 0, []⟩ s1 ∧ Calm s1 s2 ∧ Comp ns s1 s2 ∧
      (∀ t, s1.mem.table = some t → (∃ c, cellAt m.gcd.blocks 0 = some c ∧ c.type ≠ .nonExistent) → t 0 = some 8) ∧
      ∀ t, s2.mem.table = some t → ∀ p, 4096 ≤ p * 4096 → p * 4096 < 0xA0000 → SystemPage s1.mem p → FreelyMapped t p := by
  obtain ⟨⟨calls, hrun⟩, href⟩ := h
  obtain ⟨s1, s2, h1, h2, he⟩ := activate_at hrun
  have e1 : m' = { s2.mem with dflt := 0 } := by injection he
  have e2 : 0 = s2.failed := by injection he
  have c1 := zero_comp (ns := ns) (s := ⟨m, 0, []⟩) hm hl h1
  have c2 := legacy_comp c1.ok (legacy_hl c1 hl) h2
  have f1 : 0 ≤ s1.failed := Nat.zero_le _
  have f2 := c2.failed
  have r1 : m.refusals ≤ s1.mem.refusals := c1.refusals
  have r2 := c2.refusals
  have href' : s2.mem.refusals = m.refusals := by rw [e1] at href; exact href
  obtain ⟨k1, kl, kz⟩ := zero_calm (ns := ns) (s := ⟨m, 0, []⟩) hm hl h1 (by show s1.failed = 0; omega) (by show s1.mem.refusals = m.refusals; omega)
  obtain ⟨k2, k3⟩ := legacy_calm c1.ok (legacy_hl c1 hl) (calm_cached (s := ⟨m, 0, []⟩) hm k1 kl hc) (by decide) h2 (by omega) (by omega)
  exact ⟨s1, s2, e1, k1, k2, c2, kz, k3⟩

/-- C116: once compatibility mode is entered without anything being logged, every page of system memory below 0xA0000 can be read,
written and executed, and so can page 0 if it is any memory at all. `_partial`: memory without cache attributes is not mapped
(`compat_uncached_not_mapped`); memory that is not system memory may be mapped, too (`compat_twice_maps_reserved`). -/
theorem compat_region_free_partial (hm : MemOk ns m) (hl : HasLegacy m) (hc : LegacyCached m) (h : Entered dbg fs m m') {t : Table}
    (ht : m'.table = some t) :
    (∀ p, p < 0xA0 → SystemPage m p → FreelyMapped t p) ∧
    ((∃ c, cellAt m.gcd.blocks 0 = some c ∧ c.type ≠ .nonExistent) → FreelyMapped t 0) := by
  obtain ⟨s1, s2, e, k1, k2, c2, kz, k3⟩ := entered_calm hm hl hc h
  have ht2 : s2.mem.table = some t := by rw [e] at ht; exact ht
  have zero : (∃ c, cellAt m.gcd.blocks 0 = some c ∧ c.type ≠ .nonExistent) → FreelyMapped t 0 := fun hx => by
    obtain ⟨t1, e1, kp⟩ := c2.pages t ht2
    rcases kp 0 with kp | kp
    · exact ⟨8, kp.trans (kz t1 e1 hx), by decide⟩
    · exact kp.1
  refine ⟨fun p hp hs => ?_, zero⟩
  by_cases h0 : p = 0
  · subst h0
    obtain ⟨c, hx, hy⟩ := hs
    exact zero ⟨c, by simpa using hx, by rw [hy]; decide⟩
  · refine k3 t ht2 p (by omega) (by omega) ?_
    obtain ⟨c, hx, hy⟩ := hs
    obtain ⟨c', l1, l2, _⟩ := k1.cells _ c hx
    exact ⟨c', l1, l2.trans hy⟩

/-- C116: nothing else about the memory changes: no type, no capabilities, no owner of allocated memory, and no attributes at or
above 0xA0000; attributes that change below are cache attributes only. And the page table stays in step with the memory space. -/
theorem compat_memory_kept (hm : MemOk ns m) (hl : HasLegacy m) (hc : LegacyCached m) (h : Entered dbg fs m m') :
    (∀ a c, cellAt m.gcd.blocks a = some c → ∃ c', cellAt m'.gcd.blocks a = some c' ∧ c'.type = c.type ∧ c'.caps = c.caps ∧
      (c'.attrs = c.attrs ∨ (a < 0xA0000 ∧ c'.attrs &&& 0x101F = c'.attrs)) ∧ (c.allocated = true → c'.allocated = true ∧ c'.image = c.image)) ∧
    (Sync m → Sync m') := by
  obtain ⟨s1, s2, e, k1, k2, _, _, _⟩ := entered_calm hm hl hc h
  have k := k1.trans k2
  subst e
  refine ⟨fun a c hx => ?_, fun hs => k.sync hs⟩
  obtain ⟨c', l1, l2, l3, l4, l5⟩ := k.cells a c hx
  refine ⟨c', l1, l2, l3, ?_, l5⟩
  rcases l4 with l4 | ⟨l4, l6, _⟩
  · exact Or.inl l4
  · exact Or.inr ⟨l4, l6⟩

/-- C116: from then on nothing is added to the cache attributes of memory that is allocated. -/
theorem compat_default {s : Init} (h : activateCompat dbg fs m = .at s) : s.mem.dflt = 0 := by
  obtain ⟨s1, s2, _, _, rfl⟩ := activate_at h
  rfl

theorem cache_supported {caps a : Nat} (h1 : caps ||| a = caps) : caps ||| (a &&& 0x101F) = caps := by
  apply Nat.eq_of_testBit_eq
  intro i
  have hi := congrArg (fun n => n.testBit i) h1
  simp only [Nat.testBit_or] at hi
  rw [Nat.testBit_or, Nat.testBit_and]
  cases hx : caps.testBit i with
  | true => rfl
  | false =>
    rw [hx] at hi
    simp only [Bool.false_or] at hi
    simp [hi]

/-- C116: in compatibility mode an allocation in whole pages is mapped so that it can be read, written and executed, and no other
page changes, if the memory has cache attributes and the page table does not fail. -/
theorem compat_allocation_free {at_ : AllocType} {ty : MemType} {shift image len addr : Nat} {device : Option Nat} {f : Faults} (hm : MemOk ns m)
    (hs : Sync m) (hd : m.dflt = 0) (hq : ReqOk at_ shift len) (hshift : 12 ≤ shift) (hlen : len % 4096 = 0)
    (hroom : m.gcd.blocks.length + 8 ≤ 4096) (h : m.allocate dbg f at_ ty shift len image device = some (.ok addr, m'))
    (hf : f.fail addr = none) (hfr : f.refill addr = false)
    (hc : ∀ c, cellAt m.gcd.blocks addr = some c → c.attrs &&& 0x101F ≠ 0) {t : Table} (ht : m.table = some t) :
    ∃ t', m'.table = some t' ∧ (∀ p, addr / 4096 ≤ p → p < (addr + len) / 4096 → FreelyMapped t' p) ∧
      ∀ p, ¬ (addr / 4096 ≤ p ∧ p < (addr + len) / 4096) → t' p = t p := by
  unfold Mem.allocate at h
  rcases hx : m.gcd.allocate at_ ty shift len image device with ⟨r1, g⟩
  rw [hx] at h
  cases r1 with
  | err e => injection h with h; injection h with h _; cases h
  | panic => injection h with h; injection h with h _; cases h
  | ok addr' =>
    dsimp only at h
    obtain ⟨c, hu, hca, hty, hup, hlt, hsz, hal, hbnd, hW, he⟩ := allocate_cases (dbg := dbg) (f := f) hm hq hx
    have hk : (c.attrs &&& 0x101F) ||| m.dflt = c.attrs &&& 0x101F := by rw [hd, Nat.or_zero]
    rw [he, hk] at h
    rw [hk] at hW
    have ha : addr' = addr := by
      rcases m.setPiece dbg f c.attrs addr' len (c.attrs &&& 0x101F) with _
      split at h
      · injection h with h; injection h with h _; injection h
      · injection h with h; injection h with h _; injection h
      · injection h with h; injection h with h _
        unfold dbgFail at h; split at h
        · cases h
        · injection h
      · injection h with h; injection h with h _; cases h
      · cases h
    subst ha
    have hal : addr' % 4096 = 0 := by
      obtain ⟨k, rfl⟩ : ∃ k, shift = 12 + k := ⟨shift - 12, by omega⟩
      rw [Nat.pow_add] at hal
      obtain ⟨q, hq⟩ := Nat.dvd_of_mod_eq_zero hal
      rw [hq, Nat.mul_assoc]
      exact Nat.mul_mod_right _ _
    have hu2 := updated_uniform hu.1 hup
    have hul := uniform_ltW hm.reach hu
    have hcc := hu.2 addr' (Nat.le_refl _) (by have := hu.1; omega)
    have hcw := reachable_wide hm.reach _ _ hcc
    have hsup := cache_supported (((reachable_inv hm.reach).cells addr' c hcc).attrs hty)
    have s1 : Sync { m with gcd := g } := sync_updated hs hu hup rfl
    have hco : CacheOnly (c.attrs &&& 0x101F) := cacheOnly_mask c.attrs
    have hok := setPiece_ok (ns := ns) (dbg := dbg) (m := { m with gcd := g }) (f := f) (attrs := c.attrs &&& 0x101F)
      ⟨hlt.reach, hlt.some hm.some, hm.table, hm.dflt⟩ s1 hul.1 hul.2 hW (Nat.le_trans (Nat.add_le_add_right hsz 2) (by omega)) hal hlen hu2 hty hsup hfr hf
      (Or.inr (Or.inl (by
        rw [Nat.testBit_and]
        have e1 : (0x101F : Nat).testBit 13 = false := by decide
        rw [e1, Bool.and_false])))
    rcases hy : Mem.setPiece dbg f { m with gcd := g } c.attrs addr' len (c.attrs &&& 0x101F) with ⟨r2, m2⟩
    have hok : r2 = .ok () := by
      have : (Mem.setPiece dbg f { m with gcd := g } c.attrs addr' len (c.attrs &&& 0x101F)).1 = r2 := by rw [hy]
      rcases hok with k | ⟨_, k⟩
      · rw [← this]; exact k
      · change m.table = none at k
        rw [ht] at k; cases k
    subst hok
    rw [hy] at h
    injection h with h; injection h with _ h; subst h
    have href := setPiece_accepted (ns := ns) (m := { m with gcd := g }) hlt.reach hm.table hul.1 hul.2 hW
      (Nat.le_trans (Nat.add_le_add_right hsz 6) (by omega)) (Or.inl hfr) hal hlen hu2 hty hsup hy (by simp)
    have hpt := setPiece_spec (ns := ns) (m := { m with gcd := g }) (c := { c with allocated := true, image := image, device := device.getD c.device })
      hlt.reach hm.table hul.1 hul.2 hW hcw hu2 hy (by simp) href
    rcases hpt with ⟨_, hp1⟩ | ⟨e, _, he, _⟩
    · obtain ⟨t', e1, e2⟩ := hp1.table t ht
      have hnz : (c.attrs &&& 0x101F) &&& PT_MASK ≠ 0 := by rw [ptMask, cacheOnly_pt hco]; exact hc c hcc
      refine ⟨t', e1, fun p p1 p2 => ?_, fun p hp => ?_⟩
      · refine ⟨_, ?_, hco⟩
        rw [e2.2 hnz p, if_pos (by unfold InPages; rw [Nat.add_sub_cancel_left]; exact ⟨p1, p2⟩), cacheOnly_mapping hco]
      · rw [e2.2 hnz p, if_neg (by unfold InPages; rw [Nat.add_sub_cancel_left]; exact hp)]
    · cases he

/-- FINDING (C116): in compatibility mode an allocation of memory that has no cache attributes succeeds, and is not mapped: there
is then no attribute to set, and the page table is left alone. (Free memory is not mapped: `freed_not_mapped`.) -/
theorem compat_allocation_uncached {at_ : AllocType} {ty : MemType} {shift image len addr : Nat} {device : Option Nat} {f : Faults} (hm : MemOk ns m)
    (hd : m.dflt = 0) (hq : ReqOk at_ shift len) (h : m.allocate dbg f at_ ty shift len image device = some (.ok addr, m'))
    (hc : ∀ c, cellAt m.gcd.blocks addr = some c → c.attrs &&& 0x101F = 0) : m'.table = m.table := by
  unfold Mem.allocate at h
  rcases hx : m.gcd.allocate at_ ty shift len image device with ⟨r1, g⟩
  rw [hx] at h
  cases r1 with
  | err e => injection h with h; injection h with h _; cases h
  | panic => injection h with h; injection h with h _; cases h
  | ok addr' =>
    dsimp only at h
    obtain ⟨c, hu, hca, hty, hup, hlt, hsz, hal, hbnd, hW, he⟩ := allocate_cases (dbg := dbg) (f := f) hm hq hx
    have hk : (c.attrs &&& 0x101F) ||| m.dflt = c.attrs &&& 0x101F := by rw [hd, Nat.or_zero]
    rw [he, hk] at h
    have tab : ∀ x : Nat, x = 0 → ∀ (r : Outcome EfiError Unit) (m2 : Mem), Mem.setPiece dbg f { m with gcd := g } c.attrs addr' len x = (r, m2) → m2.table = m.table ∧
        (r = .ok () ∨ r = .panic) := by
      intro x hx r m2 hy
      subst hx
      unfold Mem.setPiece at hy
      split at hy
      · injection hy with h1 h2; subst h1; subst h2; exact ⟨rfl, Or.inr rfl⟩
      · unfold Mem.setTable at hy
        rw [if_pos (by decide)] at hy
        injection hy with h1 h2; subst h1; subst h2
        exact ⟨setGcd_table _ _ _ _, Or.inl rfl⟩
    have ha : addr' = addr := by
      split at h
      · injection h with h; injection h with h _; injection h
      · injection h with h; injection h with h _; injection h
      · injection h with h; injection h with h _
        unfold dbgFail at h; split at h
        · cases h
        · injection h
      · injection h with h; injection h with h _; cases h
      · cases h
    subst ha
    have hz := hc c (hu.2 addr' (Nat.le_refl _) (by have := hu.1; omega))
    rcases hy : Mem.setPiece dbg f { m with gcd := g } c.attrs addr' len (c.attrs &&& 0x101F) with ⟨r2, m2⟩
    obtain ⟨k1, k2⟩ := tab _ hz _ _ hy
    rw [hy] at h
    rcases k2 with rfl | rfl
    · injection h with h; injection h with _ h; subst h; exact k1
    · injection h with h; injection h with h _; cases h

/-- C116: the image itself is then mapped so that it can be read, written and executed, if it has cache attributes and nothing is
logged; no other page changes. -/
theorem compat_image_free {s s' : Init} {base len : Nat} (hm : MemOk ns s.mem) (hr : base + len ≤ s.mem.gcd.max) (hlen : 0 < len)
    (hc : ∀ c, cellAt s.mem.gcd.blocks base = some c → c.attrs &&& 0x101F ≠ 0) (h : s.mapImage dbg fs base len = .at s')
    (hf : s'.failed = s.failed) (href : s'.mem.refusals = s.mem.refusals) {t : Table} (ht : s.mem.table = some t) :
    ∃ t', s'.mem.table = some t' ∧ (∀ p, base / 4096 ≤ p → p < (base + len) / 4096 → FreelyMapped t' p) ∧
      ∀ p, ¬ (base / 4096 ≤ p ∧ p < (base + len) / 4096) → t' p = t p := by
  obtain ⟨d, _, _, _, _, b3⟩ := descriptor_contains hm.reach hm.some (a := base) (by omega)
  have hat := attrsAt_eq (m := s.mem) hm.reach b3
  have hco : CacheOnly (s.mem.attrsAt base &&& CACHE_ATTRIBUTE_MASK) := cacheOnly_mask _
  have hnz : (s.mem.attrsAt base &&& CACHE_ATTRIBUTE_MASK) &&& 0x2701F ≠ 0 := by
    rw [cacheOnly_pt hco, hat]; exact hc _ b3
  unfold Init.mapImage at h
  split at h
  · cases h
  · rename_i k
    injection h with h; subst h
    obtain ⟨upto, _, _, hset, hup, _⟩ := set_attributes_effect (ns := ns) hm hr (cacheOnly_lt hco) hnz k (by simp) href
    have hup := hup rfl
    subst hup
    obtain ⟨t', e1, e2⟩ := hset.table t ht
    refine ⟨t', e1, fun p p1 p2 => ⟨_, ?_, hco⟩, fun p hp => ?_⟩
    · rw [e2 p, if_pos ⟨p1, p2⟩, cacheOnly_mapping hco]
    · rw [e2 p, if_neg hp]
  · split at h
    · cases h
    · injection h with h; subst h
      exact absurd hf (by simp)
  · cases h

/-- C116: only an application that is not NX compatible, in a core that allows it, starts compatibility mode; where it is not
allowed such an application is not loaded, and all other images have their sections protected. -/
theorem compat_only_for {allowed nx : Bool} {subsystem base len : Nat} :
    ((∃ p, finishLoad dbg fs allowed nx subsystem base len m = .compat p) ↔ subsystem = 10 ∧ nx = false ∧ allowed = true) ∧
    (finishLoad dbg fs allowed nx subsystem base len m = .refused ↔ subsystem = 10 ∧ nx = false ∧ allowed = false) ∧
    (finishLoad dbg fs allowed nx subsystem base len m = .protect ↔ ¬ (subsystem = 10 ∧ nx = false)) := by
  unfold finishLoad
  by_cases h : subsystem = 10 ∧ nx = false
  · rw [if_pos h]
    cases allowed <;> simp [h.1, h.2]
  · rw [if_neg h]
    refine ⟨⟨fun ⟨p, hp⟩ => (by cases hp), fun hx => absurd ⟨hx.1, hx.2.1⟩ h⟩, ⟨fun hp => (by cases hp), fun hx => absurd ⟨hx.1, hx.2.1⟩ h⟩,
      fun _ => h, fun _ => rfl⟩

end Verif.Paging
