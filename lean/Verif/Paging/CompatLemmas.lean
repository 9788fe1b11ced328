import Verif.Paging.CompatSpec
import Verif.Paging.InitLemmas
namespace Verif.Paging
open Verif.Gcd

variable {ns : Nat} {dbg : Bool} {fs : Nat → Faults}

def CacheOnly (x : Nat) : Prop := x &&& 0x101F = x

theorem cacheOnly_mask (x : Nat) : CacheOnly (x &&& CACHE_ATTRIBUTE_MASK) := by
  unfold CacheOnly CACHE_ATTRIBUTE_MASK
  rw [Nat.and_assoc]; rfl

theorem cacheOnly_lt {x : Nat} (h : CacheOnly x) : x < W := by
  have : x ≤ 0x101F := by rw [← h]; exact Nat.and_le_right
  unfold W; omega

theorem cacheOnly_mapping {x : Nat} (h : CacheOnly x) : mappingFor x = some x := by
  have e1 : x.testBit 13 = false := by
    rw [← h, Nat.testBit_and]
    have : Nat.testBit 0x101F 13 = false := by decide
    rw [this, Bool.and_false]
  have e2 : x &&& 0x2701F = x := by
    have : (x &&& 0x101F) &&& 0x2701F = x &&& 0x101F := by rw [Nat.and_assoc]; rfl
    rw [h] at this; exact this
  unfold mappingFor
  rw [if_neg (by rw [e1]; decide), e2]

theorem cacheOnly_pt {x : Nat} (h : CacheOnly x) : x &&& 0x2701F = x := by
  have : (x &&& 0x101F) &&& 0x2701F = x &&& 0x101F := by rw [Nat.and_assoc]; rfl
  rw [h] at this; exact this

/-- What holds after an attempt to set attributes, and what holds if nothing was logged. -/
theorem attempt_onward {s s' : Init} {c : SetCall} (hm : MemOk ns s.mem) (hr : c.base + c.len ≤ s.mem.gcd.max) (ha : c.attrs < W)
    (h : s.attempt dbg fs c = .at s') : Onward ns c.attrs c.base (c.base + c.len) s.mem s'.mem ∧ s.failed ≤ s'.failed ∧
      s'.calls = s.calls ++ [c] ∧
      (s'.failed = s.failed → s'.mem.refusals = s.mem.refusals → Part ns s.mem s'.mem c.attrs c.base (c.base + c.len)) := by
  have key : ∀ r m, s.mem.setAttributes dbg (fs s.calls.length) (c.len + 1) c.base c.len c.attrs = some (r, m) → r ≠ .panic →
      Onward ns c.attrs c.base (c.base + c.len) s.mem m ∧ (r = .ok () → m.refusals = s.mem.refusals →
        Part ns s.mem m c.attrs c.base (c.base + c.len)) := fun r m hx hp => by
    rw [setAttributes_eq (hm.lt hr)] at hx
    refine ⟨setLoop_onward ha hm.reach hm.some hm.table hr (Nat.le_refl _) hx hp, fun hok href => ?_⟩
    rcases setLoop_spec ha hm.reach hr (Part.refl hm.reach hm.some) hm.table (by omega) (Or.inl rfl) hx hp href with ⟨_, h⟩ | ⟨e, _, he, _⟩
    · exact h
    · rw [hok] at he; cases he
  unfold Init.attempt Init.call at h
  split at h
  · cases h
  · rename_i k
    injection h with h; subst h
    obtain ⟨o, hd⟩ := key _ _ k (by simp)
    exact ⟨o, Nat.le_refl _, rfl, fun _ e => hd rfl e⟩
  · rename_i k
    split at h
    · cases h
    · injection h with h; subst h
      obtain ⟨o, _⟩ := key _ _ k (by simp)
      exact ⟨o, Nat.le_succ _, rfl, fun e => absurd e (by simp)⟩
  · cases h

theorem attempt_not_hangs {s : Init} {c : SetCall} (hm : MemOk ns s.mem) (hr : c.base + c.len ≤ s.mem.gcd.max) (ha : c.attrs < W) :
    s.attempt dbg fs c ≠ .hangs := by
  have := setLoop_returns (ns := ns) (dbg := dbg) (f := fs s.calls.length) (n := c.len + 1) (cur := c.base) (res := .ok ()) ha hm.reach hm.some
    hm.table hr (by omega) (by omega)
  unfold Init.attempt Init.call
  rw [setAttributes_eq (hm.lt hr)]
  intro h
  split at h
  · rename_i k; exact this k
  · cases h
  · split at h <;> cases h
  · cases h

/-- Whether or not anything was logged. -/
structure Comp (ns : Nat) (s s' : Init) : Prop where
  ok : MemOk ns s'.mem
  max : s'.mem.gcd.max = s.mem.gcd.max
  failed : s.failed ≤ s'.failed
  refusals : s.mem.refusals ≤ s'.mem.refusals
  pages : ∀ t', s'.mem.table = some t' → ∃ t, s.mem.table = some t ∧ ∀ p, t' p = t p ∨ (FreelyMapped t' p ∧ p * 4096 + 4096 ≤ 0xA0000)

theorem Comp.refl {s : Init} (h : MemOk ns s.mem) : Comp ns s s :=
  ⟨h, rfl, Nat.le_refl _, Nat.le_refl _, fun t ht => ⟨t, ht, fun _ => Or.inl rfl⟩⟩

theorem Comp.trans {s s1 s2 : Init} (h1 : Comp ns s s1) (h2 : Comp ns s1 s2) : Comp ns s s2 where
  ok := h2.ok
  max := h2.max.trans h1.max
  failed := Nat.le_trans h1.failed h2.failed
  refusals := Nat.le_trans h1.refusals h2.refusals
  pages := fun t2 e2 => by
    obtain ⟨t1, e1, k1⟩ := h2.pages t2 e2
    obtain ⟨t, e, k⟩ := h1.pages t1 e1
    refine ⟨t, e, fun p => ?_⟩
    rcases k1 p with h | h
    · rcases k p with h' | ⟨⟨a, ha, hc⟩, hp⟩
      · exact Or.inl (h.trans h')
      · exact Or.inr ⟨⟨a, h.trans ha, hc⟩, hp⟩
    · exact Or.inr h

theorem attempt_comp {s s' : Init} {c : SetCall} (hm : MemOk ns s.mem) (hr : c.base + c.len ≤ 0xA0000) (hmax : 0xA0000 ≤ s.mem.gcd.max)
    (hc : CacheOnly c.attrs) (h : s.attempt dbg fs c = .at s') : Comp ns s s' := by
  obtain ⟨o, hf, _, _⟩ := attempt_onward hm (by omega) (cacheOnly_lt hc) h
  refine ⟨⟨o.later.reach, o.later.some hm.some, o.table, by rw [o.dflt]; exact hm.dflt⟩, o.later.max, hf, o.refusals, fun t' h' => ?_⟩
  obtain ⟨t, e, k⟩ := o.pages t' h'
  refine ⟨t, e, fun p => ?_⟩
  rcases k p with k | ⟨k1, k2, k3⟩
  · exact Or.inl k
  · exact Or.inr ⟨⟨_, k1.trans (cacheOnly_mapping hc), hc⟩, by omega⟩

/-- If nothing was logged. -/
structure Calm (s s' : Init) : Prop where
  cells : ∀ a c, cellAt s.mem.gcd.blocks a = some c → ∃ c', cellAt s'.mem.gcd.blocks a = some c' ∧ c'.type = c.type ∧ c'.caps = c.caps ∧
    (c'.attrs = c.attrs ∨ (a < 0xA0000 ∧ CacheOnly c'.attrs ∧ c'.attrs ≠ 0)) ∧ (c.allocated = true → c'.allocated = true ∧ c'.image = c.image)
  sync : Sync s.mem → Sync s'.mem

theorem Calm.refl (s : Init) : Calm s s := ⟨fun _ c h => ⟨c, h, rfl, rfl, Or.inl rfl, fun h => ⟨h, rfl⟩⟩, id⟩

theorem Calm.trans {s s1 s2 : Init} (h1 : Calm s s1) (h2 : Calm s1 s2) : Calm s s2 where
  cells := fun a c h => by
    obtain ⟨c1, k1, k2, k3, k4, k5⟩ := h1.cells a c h
    obtain ⟨c2, l1, l2, l3, l4, l5⟩ := h2.cells a c1 k1
    refine ⟨c2, l1, l2.trans k2, l3.trans k3, ?_, fun hx => ?_⟩
    · rcases l4 with l4 | l4
      · rcases k4 with k4 | ⟨k4, k6, k7⟩
        · exact Or.inl (l4.trans k4)
        · exact Or.inr ⟨k4, by rw [l4]; exact k6, by rw [l4]; exact k7⟩
      · exact Or.inr l4
    · have := k5 hx
      have k := l5 this.1
      exact ⟨k.1, k.2.trans this.2⟩
  sync := fun h => h2.sync (h1.sync h)

theorem part_calm {s s' : Init} {c : SetCall} (hm : MemOk ns s.mem) (hr : c.base + c.len ≤ 0xA0000) (hc : CacheOnly c.attrs) (h0 : c.attrs ≠ 0)
    (hp : Part ns s.mem s'.mem c.attrs c.base (c.base + c.len)) : Calm s s' where
  cells := fun a x hx => by
    obtain ⟨c2, k1, k2, k3, k4, k5⟩ := hp.face a x hx
    refine ⟨c2, k1, k2, k3, ?_, k5⟩
    by_cases ha : c.base ≤ a ∧ a < c.base + c.len
    · rw [if_pos ha] at k4
      exact Or.inr ⟨by omega, by rw [k4]; exact hc, by rw [k4]; exact h0⟩
    · rw [if_neg ha] at k4; exact Or.inl k4
  sync := fun h => sync_part hm.reach h hp (by rw [ptMask, cacheOnly_pt hc]; exact h0)

theorem calm_cached {s s' : Init} (hm : MemOk ns s.mem) (h : Calm s s') (hl : Later ns s.mem.gcd s'.mem.gcd) (hc : LegacyCached s.mem) :
    LegacyCached s'.mem := by
  intro a c' ha hx ht
  obtain ⟨c, hc0⟩ := later_cell hm.reach hl hm.some hx
  obtain ⟨c2, k1, k2, _, k4, _⟩ := h.cells a c hc0
  rw [hx] at k1; injection k1 with k1; subst k1
  rcases k4 with k4 | ⟨_, k5, k6⟩
  · rw [k4]; exact hc a c ha hc0 (by rw [← k2]; exact ht)
  · rw [k5]; exact k6

theorem legacyCall_bounds {address : Nat} {d : Block Cell} (h1 : address < 0xA0000) (hd : address + d.len < W) :
    (legacyCall address d).base = address ∧ address + (legacyCall address d).len ≤ 0xA0000 ∧ (0 < d.len → 0 < (legacyCall address d).len) ∧
      CacheOnly (legacyCall address d).attrs ∧ addw address (legacyCall address d).len = address + (legacyCall address d).len := by
  have e : addw address d.len = address + d.len := by unfold addw; exact Nat.mod_eq_of_lt hd
  have h2 : address + (legacyCall address d).len ≤ 0xA0000 := by
    unfold legacyCall LEGACY_END; rw [e]; dsimp only; split <;> omega
  refine ⟨rfl, h2, fun h => ?_, cacheOnly_mask _, ?_⟩
  · unfold legacyCall LEGACY_END; rw [e]; dsimp only; split <;> omega
  · unfold addw; apply Nat.mod_eq_of_lt; unfold W; omega

theorem then_at {p : Progress} {k : Init → Progress} {s' : Init} (h : p.then k = .at s') : ∃ s1, p = .at s1 ∧ k s1 = .at s' := by
  cases p with
  | hangs => cases h
  | panics => cases h
  | «at» s => exact ⟨s, rfl, h⟩

/-- What the loop finds at `address`. -/
theorem legacy_desc {s : Init} {address : Nat} (hm : MemOk ns s.mem) (hl : HasLegacy s.mem) (h : address < 0xA0000) :
    ∃ d, s.mem.gcd.descriptorFor address = .ok d ∧ cellAt s.mem.gcd.blocks address = some d.st ∧ 0 < d.len ∧ address + d.len < W := by
  obtain ⟨d, e, hb, b1, b2, b3⟩ := descriptor_contains hm.reach hm.some (a := address) (by have := hl.1; omega)
  have hg := good_of hm.reach hm.some
  have hbd := tiles_mem hg.tiles hb
  have := hl.2
  exact ⟨d, e, b3, by omega, by omega⟩

theorem legacy_hl {s s' : Init} (h : Comp ns s s') (hl : HasLegacy s.mem) : HasLegacy s'.mem := by
  unfold HasLegacy at *; rw [h.max]; exact hl

theorem legacy_comp {n : Nat} : ∀ {s s' : Init} {address : Nat}, MemOk ns s.mem → HasLegacy s.mem →
    Init.legacy dbg fs n s address = .at s' → Comp ns s s' := by
  induction n with
  | zero => intro s s' address _ _ h; cases h
  | succ n ih =>
    intro s s' address hm hl h
    unfold Init.legacy at h
    split at h
    · rename_i hlt
      obtain ⟨d, e, _, hd, hw⟩ := legacy_desc hm hl hlt
      rw [e] at h
      dsimp only at h
      split at h
      · split at h
        · cases h
        · obtain ⟨s1, h1, h2⟩ := then_at h
          obtain ⟨b1, b2, b3, b4, b5⟩ := legacyCall_bounds hlt hw
          have c1 := attempt_comp hm (by rw [b1]; exact b2) hl.1 b4 h1
          exact c1.trans (ih c1.ok (legacy_hl c1 hl) h2)
      · exact ih hm hl h
    · injection h with h; subst h; exact Comp.refl hm

theorem legacy_not_hangs {n : Nat} : ∀ {s : Init} {address : Nat}, MemOk ns s.mem → HasLegacy s.mem → 0 < n → 0xA0000 < address + n →
    Init.legacy dbg fs n s address ≠ .hangs := by
  induction n with
  | zero => intro s address _ _ h; omega
  | succ n ih =>
    intro s address hm hl _ hn
    unfold Init.legacy
    split
    · rename_i hlt
      have hlt' : address < 0xA0000 := hlt
      obtain ⟨d, e, _, hd, hw⟩ := legacy_desc hm hl hlt
      rw [e]
      dsimp only
      split
      · split
        · simp
        · obtain ⟨b1, b2, b3, b4, b5⟩ := legacyCall_bounds hlt hw
          have hx := attempt_not_hangs (dbg := dbg) (fs := fs) hm (c := legacyCall address d) (by rw [b1]; have := hl.1; omega) (cacheOnly_lt b4)
          cases hp : s.attempt dbg fs (legacyCall address d) with
          | hangs => exact absurd hp hx
          | panics => simp [Progress.then]
          | «at» s1 =>
            have c1 := attempt_comp hm (by rw [b1]; exact b2) hl.1 b4 hp
            have := b3 hd
            exact ih c1.ok (legacy_hl c1 hl) (by omega) (by rw [b5]; omega)
      · exact ih hm hl (by omega) (by omega)
    · simp

/-- If nothing was logged: every page that begins in system memory, from `address` on, is freely mapped. -/
theorem legacy_calm {n : Nat} : ∀ {s s' : Init} {address : Nat}, MemOk ns s.mem → HasLegacy s.mem → LegacyCached s.mem → address % 4096 = 0 →
    Init.legacy dbg fs n s address = .at s' → s'.failed = s.failed → s'.mem.refusals = s.mem.refusals →
    Calm s s' ∧ ∀ t, s'.mem.table = some t → ∀ p, address ≤ p * 4096 → p * 4096 < 0xA0000 → SystemPage s.mem p → FreelyMapped t p := by
  induction n with
  | zero => intro s s' address _ _ _ _ h; cases h
  | succ n ih =>
    intro s s' address hm hl hc hal h hf hr
    unfold Init.legacy at h
    split at h
    · rename_i hlt
      have hlt' : address < 0xA0000 := hlt
      obtain ⟨d, e, hcell, hd, hw⟩ := legacy_desc hm hl hlt
      rw [e] at h
      dsimp only at h
      split at h
      · rename_i hty
        split at h
        · cases h
        · obtain ⟨s1, h1, h2⟩ := then_at h
          obtain ⟨b1, b2, b3, b4, b5⟩ := legacyCall_bounds hlt hw
          have c1 := attempt_comp hm (by rw [b1]; exact b2) hl.1 b4 h1
          have c2 := legacy_comp c1.ok (legacy_hl c1 hl) h2
          have := c1.failed; have := c2.failed; have := c1.refusals; have := c2.refusals
          obtain ⟨o, _, _, hpart⟩ := attempt_onward hm (by rw [b1]; have := hl.1; omega) (cacheOnly_lt b4) h1
          have hpart := hpart (by omega) (by omega)
          have h0 : (legacyCall address d).attrs ≠ 0 := hc address d.st hlt' hcell hty
          have k1 : Calm s s1 := part_calm hm (by rw [b1]; exact b2) b4 h0 hpart
          rw [b5] at h2
          have hal2 : (address + (legacyCall address d).len) % 4096 = 0 := by
            rcases hpart.aligned with ha | ha
            · have := b3 hd; omega
            · have := ha.2; rw [b1] at this; exact this
          obtain ⟨k2, k3⟩ := ih c1.ok (legacy_hl c1 hl) (calm_cached hm k1 o.later hc) hal2 h2 (by omega) (by omega)
          refine ⟨k1.trans k2, fun t ht p hp1 hp2 hsys => ?_⟩
          by_cases hin : address + (legacyCall address d).len ≤ p * 4096
          · refine k3 t ht p hin hp2 ?_
            obtain ⟨c, hx, hy⟩ := hsys
            obtain ⟨c', l1, l2, _⟩ := k1.cells _ c hx
            exact ⟨c', l1, l2.trans hy⟩
          · obtain ⟨t1, e1, kp⟩ := c2.pages t ht
            rcases kp p with kp | kp
            · obtain ⟨t0, e0, _⟩ := o.pages t1 e1
              obtain ⟨t1', e1', ts⟩ := hpart.table t0 e0
              rw [e1] at e1'; injection e1' with e1'; subst e1'
              have := ts.2 (by rw [ptMask, cacheOnly_pt b4]; exact h0) p
              rw [if_pos (by unfold InPages; rw [b1]; omega), cacheOnly_mapping b4] at this
              exact ⟨_, kp.trans this, b4⟩
            · exact kp.1
      · rename_i hty
        obtain ⟨k2, k3⟩ := ih hm hl hc (by omega) h hf hr
        refine ⟨k2, fun t ht p hp1 hp2 hsys => ?_⟩
        by_cases hin : address + 4096 ≤ p * 4096
        · exact k3 t ht p hin hp2 hsys
        · exfalso
          obtain ⟨c, hx, hy⟩ := hsys
          have : p * 4096 = address := by omega
          rw [this, hcell] at hx; injection hx with hx; subst hx
          exact hty hy
    · rename_i hlt
      injection h with h; subst h
      refine ⟨Calm.refl _, fun t _ p hp1 hp2 _ => ?_⟩
      exfalso; apply hlt; show address < 0xA0000; omega

/-! ### Page 0 -/

theorem zero_comp {s s' : Init} (hm : MemOk ns s.mem) (hl : HasLegacy s.mem) (h : s.mapZero dbg fs = .at s') : Comp ns s s' := by
  unfold Init.mapZero at h
  split at h
  · split at h
    · exact attempt_comp (c := ⟨0, 4096, MEMORY_WB⟩) hm (by show 0 + 4096 ≤ 0xA0000; omega) hl.1 (show MEMORY_WB &&& 0x101F = MEMORY_WB from rfl) h
    · injection h with h; subst h; exact Comp.refl hm
  · injection h with h; subst h; exact Comp.refl hm

theorem zero_not_hangs {s : Init} (hm : MemOk ns s.mem) (hl : HasLegacy s.mem) : s.mapZero dbg fs ≠ .hangs := by
  unfold Init.mapZero
  split
  · split
    · exact attempt_not_hangs hm (by show 0 + 4096 ≤ _; have := hl.1; omega) (show MEMORY_WB < W by decide)
    · simp
  · simp

theorem zero_calm {s s' : Init} (hm : MemOk ns s.mem) (hl : HasLegacy s.mem) (h : s.mapZero dbg fs = .at s')
    (hf : s'.failed = s.failed) (hr : s'.mem.refusals = s.mem.refusals) :
    Calm s s' ∧ Later ns s.mem.gcd s'.mem.gcd ∧ ∀ t, s'.mem.table = some t → (∃ c, cellAt s.mem.gcd.blocks 0 = some c ∧ c.type ≠ .nonExistent) →
      t 0 = some 8 := by
  unfold Init.mapZero at h
  have hmax : 0 < s.mem.gcd.max := by have := hl.1; omega
  obtain ⟨d, e, _, _, _, b3⟩ := descriptor_contains hm.reach hm.some (a := 0) hmax
  rw [e] at h
  dsimp only at h
  split at h
  · obtain ⟨o, _, _, hpart⟩ := attempt_onward hm (by show 0 + 4096 ≤ _; have := hl.1; omega) (show MEMORY_WB < W by decide) h
    have hpart := hpart hf hr
    refine ⟨part_calm (c := ⟨0, 4096, MEMORY_WB⟩) hm (by show 0 + 4096 ≤ 0xA0000; omega) (show MEMORY_WB &&& 0x101F = MEMORY_WB by rfl) (show MEMORY_WB ≠ 0 by decide) hpart,
      o.later, fun t ht _ => ?_⟩
    obtain ⟨t0, e0, _⟩ := o.pages t ht
    obtain ⟨t1', e1', ts⟩ := hpart.table t0 e0
    rw [ht] at e1'; injection e1' with e1'; subst e1'
    have := ts.2 (show MEMORY_WB &&& PT_MASK ≠ 0 by decide) 0
    rw [if_pos (by unfold InPages; simp)] at this
    exact this
  · rename_i hn
    injection h with h; subst h
    refine ⟨Calm.refl _, Later.refl hm.reach, fun t _ ⟨c, hx, hy⟩ => ?_⟩
    rw [b3] at hx; injection hx with hx; subst hx
    exact absurd hy hn

end Verif.Paging
