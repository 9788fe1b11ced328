import Verif.Paging.SyncProps
/-!
C63 over histories: the page table agrees with the memory space after any history of proper calls, and no call but the one
that sets attributes makes memory executable, whatever the page table does.
-/
namespace Verif.Paging
open Verif.Gcd

variable {ns : Nat} {dbg : Bool} {f : Faults} {m m' : Mem} {base len attrs : Nat} {r : Outcome EfiError Unit}

theorem sync_congr (hs : Sync m) (ht : m'.table = m.table)
    (hb : ∀ a c', cellAt m'.gcd.blocks a = some c' → ∃ c, cellAt m.gcd.blocks a = some c ∧ mappingOf c' = mappingOf c) : Sync m' := by
  intro t h a c' hc'
  obtain ⟨c, hc, e⟩ := hb a c' hc'
  rw [e]
  exact hs t (by rw [← ht]; exact h) a c hc

/-- A change of one range that does not change how it is to be mapped. -/
theorem sync_updated {g : Gcd} {c c' : Cell} (hs : Sync m) (hu : Uniform m.gcd.blocks base len c) (hup : Updated m.gcd.blocks g.blocks base len c')
    (he : mappingOf c' = mappingOf c) : Sync { m with gcd := g } := by
  refine sync_congr hs rfl fun a x hx => ?_
  have hx : cellAt g.blocks a = some x := hx
  rw [hup a] at hx
  by_cases hin : base ≤ a ∧ a < base + len
  · rw [if_pos hin] at hx; injection hx with hx; subst hx
    exact ⟨c, hu.2 a hin.1 hin.2, he⟩
  · rw [if_neg hin] at hx
    exact ⟨x, hx, rfl⟩

/-- A change of one range to memory that is not to be mapped, followed by unmapping it. -/
theorem sync_unmap {g : Gcd} {c c' : Cell} {t : Table} {r1 : Outcome PtError Unit} (hm : MemOk ns m) (hg : MemOk ns { m with gcd := g }) (hs : Sync m)
    (ht : m.table = some t) (hu : Uniform m.gcd.blocks base len c)
    (hup : Updated m.gcd.blocks g.blocks base len c') (he : mappingOf c' = none) (h1 : base % 4096 = 0) (h2 : len % 4096 = 0)
    (hf : f.fail base = none) (h : Mem.unmap f { m with gcd := g } t base len = (r1, m')) (hp : r1 ≠ .panic) : Sync m' := by
  rcases unmap_cases (f := f) (t := t) (base := base) (len := len) hg.reach with ⟨g', e, q, hok⟩ | ⟨g', er, e, q, hbad⟩ | ⟨e, _⟩
  · rw [h] at e
    injection e with _ e; subst e
    intro t' ht' a x hx
    injection ht' with ht'; subst ht'
    have hx : cellAt g'.blocks a = some x := hx
    obtain ⟨y, hy⟩ := later_cell hg.reach q.later hg.some hx
    obtain ⟨x', hx', ⟨f1, _, f3⟩, _⟩ := q.face a y hy
    rw [hx] at hx'; injection hx' with hx'; subst hx'
    rw [mappingOf_congr f1 f3, set_apply h1 h2]
    have hy : cellAt g.blocks a = some y := hy
    rw [hup a] at hy
    have hiff : InPages base len (a / 4096) ↔ base ≤ a ∧ a < base + len := by
      unfold InPages; omega
    by_cases hin : base ≤ a ∧ a < base + len
    · rw [if_pos hin] at hy; injection hy with hy; subst hy
      rw [if_pos (hiff.2 hin), he]
    · rw [if_neg hin] at hy
      rw [if_neg (fun k => hin (hiff.1 k))]
      exact hs t ht a y hy
  · exfalso
    rcases hbad with hbad | hbad
    · have : rangeOk base len = true := rangeOk_iff.2 ⟨h1, h2, by have := hu.1; omega⟩
      rw [this] at hbad; cases hbad
    · exact hbad hf
  · rw [h] at e
    injection e with e _; exact absurd e hp

theorem xp_mask {a d : Nat} (h : d = 0x4000) : ((a &&& 0x101F) ||| d) &&& PT_MASK ≠ 0 := by
  intro h0
  have := congrArg (fun n => n.testBit 14) h0
  subst h
  rw [ptMask] at this
  rw [Nat.testBit_and, Nat.testBit_or] at this
  have e1 : (0x4000 : Nat).testBit 14 = true := by decide
  have e2 : (0x2701F : Nat).testBit 14 = true := by decide
  rw [e1, e2, Bool.or_true, Bool.and_true, Nat.zero_testBit] at this
  cases this

theorem xp_supported {caps a : Nat} (h1 : caps ||| a = caps) (h2 : caps.testBit 14 = true) : caps ||| ((a &&& 0x101F) ||| 0x4000) = caps := by
  apply Nat.eq_of_testBit_eq
  intro i
  have hi := congrArg (fun n => n.testBit i) h1
  simp only [Nat.testBit_or] at hi
  rw [Nat.testBit_or, Nat.testBit_or, Nat.testBit_and]
  have h14 : (0x4000 : Nat) = 2 ^ 14 := by decide
  rw [h14, Nat.testBit_two_pow]
  by_cases hc : 14 = i
  · subst hc; simp [h2]
  · cases hx : caps.testBit i with
    | true => rfl
    | false =>
      rw [hx] at hi
      simp only [Bool.false_or] at hi
      simp [hi, hc]

theorem rp_free (a : Nat) : mappingFor (0x2000 ||| (a &&& 0x101F)) = none := by
  apply mappingFor_rp
  rw [Nat.testBit_or]
  have : (0x2000 : Nat).testBit 13 = true := by decide
  rw [this, Bool.true_or]

/-- Allocating in whole pages: both stay in step; and unless the page table fails, the range is mapped, with its cache
attributes and the default attributes, and no other page changes. -/
theorem allocate_effect {at_ : AllocType} {ty : MemType} {shift image : Nat} {device : Option Nat} (hm : MemOk ns m) (hs : Sync m)
    (hd : m.dflt = 0x4000) (hc : Call.InRange m (.allocate at_ ty shift len image device))
    (hpr : Call.Proper f m (.allocate at_ ty shift len image device)) {o : Outcome EfiError Nat}
    (h : m.allocate dbg f at_ ty shift len image device = some (o, m')) (hp : o ≠ .panic) :
    Sync m' ∧ ∀ addr, o = .ok addr → f.fail addr = none → f.refill addr = false →
      ∃ c, Uniform m.gcd.blocks addr len c ∧ c.allocated = false ∧
        (∀ a, addr ≤ a → a < addr + len → ∃ c', cellAt m'.gcd.blocks a = some c' ∧ c'.allocated = true ∧ c'.image = image ∧
          c'.attrs = (c.attrs &&& 0x101F) ||| 0x4000) ∧
        ∀ t, m.table = some t → ∃ t', m'.table = some t' ∧ ∀ p, t' p =
          if addr / 4096 ≤ p ∧ p < (addr + len) / 4096 then some ((c.attrs &&& 0x101F) ||| 0x4000) else t p := by
  obtain ⟨p1, p2, p3, p4⟩ := hpr
  unfold Mem.allocate at h
  rcases hx : m.gcd.allocate at_ ty shift len image device with ⟨r1, g⟩
  rw [hx] at h
  cases r1 with
  | err e =>
    injection h with h; injection h with h1 h2
    refine ⟨?_, fun addr ho => by rw [← h1] at ho; cases ho⟩
    rw [← h2, allocate_err hm.reach hc hx]; exact hs
  | panic => injection h with h; injection h with h _; exact absurd h.symm hp
  | ok addr =>
    dsimp only at h
    obtain ⟨c, hu, hca, hty, hup, hlt, hsz, hal, hbnd, hW, he⟩ := allocate_cases (dbg := dbg) (f := f) hm hc hx
    rw [he] at h
    have hk : (c.attrs &&& 0x101F) ||| m.dflt = (c.attrs &&& 0x101F) ||| 0x4000 := by rw [hd]
    rw [hk] at h hW
    have hal : addr % 4096 = 0 := by
      obtain ⟨k, rfl⟩ : ∃ k, shift = 12 + k := ⟨shift - 12, by omega⟩
      rw [Nat.pow_add] at hal
      obtain ⟨q, hq⟩ := Nat.dvd_of_mod_eq_zero hal
      rw [hq, Nat.mul_assoc]
      exact Nat.mul_mod_right _ _
    have hu2 := updated_uniform hu.1 hup
    have hul := uniform_ltW hm.reach hu
    have hcc := hu.2 addr (Nat.le_refl _) (by have := hu.1; omega)
    have hcw := reachable_wide hm.reach _ _ hcc
    have hsup := xp_supported (((reachable_inv hm.reach).cells addr c hcc).attrs hty) (p4 addr c hcc hty)
    have s1 : Sync { m with gcd := g } := sync_updated hs hu hup rfl
    rcases hy : Mem.setPiece dbg f { m with gcd := g } c.attrs addr len ((c.attrs &&& 0x101F) ||| 0x4000) with ⟨r2, m2⟩
    rw [hy] at h
    have key : r2 ≠ .panic → Sync m2 ∧ (f.fail addr = none → f.refill addr = false →
        (r2 = .ok () ∨ r2 = .err .notReady) ∧ Part ns { m with gcd := g } m2 ((c.attrs &&& 0x101F) ||| 0x4000) addr (addr + len)) := fun h2 => by
      have href := setPiece_accepted (ns := ns) (m := { m with gcd := g }) hlt.reach hm.table hul.1 hul.2 hW
        (Nat.le_trans (Nat.add_le_add_right hsz 6) p3) (Or.inr rfl) hal p1 hu2 hty hsup hy h2
      have hpt := setPiece_spec (ns := ns) (m := { m with gcd := g }) (c := { c with allocated := true, image := image, device := device.getD c.device })
        hlt.reach hm.table hul.1 hul.2 hW hcw hu2 hy h2 href
      refine ⟨?_, fun hf1 hf2 => ?_⟩
      · rcases hpt with ⟨_, hp1⟩ | ⟨e, _, _, hp1⟩
        · exact sync_part (m0 := { m with gcd := g }) hlt.reach s1 hp1 (xp_mask rfl)
        · exact sync_part (m0 := { m with gcd := g }) hlt.reach s1 hp1 (xp_mask rfl)
      · have hok := setPiece_ok (ns := ns) (dbg := dbg) (m := { m with gcd := g }) (f := f) (attrs := (c.attrs &&& 0x101F) ||| 0x4000)
          ⟨hlt.reach, hlt.some hm.some, hm.table, hm.dflt⟩ s1 hul.1 hul.2 hW (Nat.le_trans (Nat.add_le_add_right hsz 2) (by omega)) hal p1 hu2 hty hsup hf2 hf1
          (Or.inr (Or.inl (by
            rw [Nat.testBit_or, Nat.testBit_and]
            have e1 : (0x101F : Nat).testBit 13 = false := by decide
            have e2 : (0x4000 : Nat).testBit 13 = false := by decide
            rw [e1, e2]; simp)))
        have hy' : (Mem.setPiece dbg f { m with gcd := g } c.attrs addr len ((c.attrs &&& 0x101F) ||| 0x4000)).1 = r2 := by rw [hy]
        have hok : r2 = .ok () ∨ (r2 = .err .notReady ∧ m.table = none) := hy' ▸ hok
        rcases hpt with ⟨_, hp1⟩ | ⟨e, hne, he, hp1⟩
        · exact ⟨by rcases hok with k | k; exact Or.inl k; exact Or.inr k.1, hp1⟩
        · exfalso
          rcases hok with k | ⟨k, _⟩
          · rw [k] at he; cases he
          · rw [k] at he; injection he with he; exact hne he.symm
    have fin : r2 ≠ .panic → m2 = m' → (∀ a, o = .ok a → a = addr) → _ := fun h2 e2 hoa =>
      (show Sync m' ∧ ∀ addr, o = .ok addr → f.fail addr = none → f.refill addr = false →
      ∃ c, Uniform m.gcd.blocks addr len c ∧ c.allocated = false ∧
        (∀ a, addr ≤ a → a < addr + len → ∃ c', cellAt m'.gcd.blocks a = some c' ∧ c'.allocated = true ∧ c'.image = image ∧
          c'.attrs = (c.attrs &&& 0x101F) ||| 0x4000) ∧
        ∀ t, m.table = some t → ∃ t', m'.table = some t' ∧ ∀ p, t' p =
          if addr / 4096 ≤ p ∧ p < (addr + len) / 4096 then some ((c.attrs &&& 0x101F) ||| 0x4000) else t p by
        obtain ⟨ks, kf⟩ := key h2
        subst e2
        refine ⟨ks, fun a ho hf1 hf2 => ?_⟩
        have := hoa a ho
        subst this
        obtain ⟨_, hpart⟩ := kf hf1 hf2
        refine ⟨c, hu, hca, fun x k1 k2 => ?_, fun t ht => ?_⟩
        · obtain ⟨c', e1, _, _, e4, e5⟩ := hpart.face x _ (hu2.2 x k1 k2)
          rw [if_pos ⟨k1, k2⟩] at e4
          exact ⟨c', e1, (e5 rfl).1, (e5 rfl).2, e4⟩
        · obtain ⟨t', e1, e2⟩ := hpart.table t ht
          refine ⟨t', e1, fun p => ?_⟩
          rw [e2.2 (xp_mask rfl) p]
          have hm : mappingFor ((c.attrs &&& 0x101F) ||| 0x4000) = some ((c.attrs &&& 0x101F) ||| 0x4000) := by
            have hb : ¬ ((c.attrs &&& 0x101F) ||| 0x4000).testBit 13 = true := by
              rw [Nat.testBit_or, Nat.testBit_and]
              have e1 : (0x101F : Nat).testBit 13 = false := by decide
              have e2 : (0x4000 : Nat).testBit 13 = false := by decide
              rw [e1, e2]; simp
            rw [mappingFor_some hb, ptMask, Nat.and_or_distrib_right, Nat.and_assoc]; rfl
          have hiff : InPages a (a + len - a) p ↔ a / 4096 ≤ p ∧ p < (a + len) / 4096 := by
            unfold InPages; rw [Nat.add_sub_cancel_left]
          by_cases hin : InPages a (a + len - a) p
          · rw [if_pos hin, if_pos (hiff.1 hin), hm]
          · rw [if_neg hin, if_neg (fun k => hin (hiff.2 k))])
    cases r2 with
    | ok u =>
      injection h with h; injection h with h1 h2
      exact fin (by simp) h2 fun a ha => by rw [← h1] at ha; injection ha with ha; exact ha.symm
    | panic => injection h with h; injection h with h _; exact absurd h.symm hp
    | err e =>
      have hh : ∃ o', some (o', m2) = some (o, m') ∧ (o' = .ok addr ∨ o' = .panic) := by
        cases e <;> first
          | exact ⟨_, h, Or.inl rfl⟩
          | (refine ⟨_, h, ?_⟩; unfold dbgFail; split; exact Or.inr rfl; exact Or.inl rfl)
      obtain ⟨o', hh, ho'⟩ := hh
      injection hh with hh; injection hh with h1 h2
      refine fin (by simp) h2 fun a ha => ?_
      rw [h1, ha] at ho'
      rcases ho' with k | k
      · injection k
      · cases k

/-- C63 (one call): a proper call leaves the page table in agreement with the memory space. -/
theorem sync_step {c : Call} (hm : MemOk ns m) (hs : Sync m) (hd : m.dflt = 0x4000) (hc : c.InRange m) (hpr : c.Proper f m)
    (h : m.step dbg ns f c = some (r, m')) (hp : r ≠ .panic) : Sync m' := by
  have aft := step_after hm hc h hp
  cases c with
  | add ty base len caps =>
    injection h with h; injection h with h1 h2; rw [← h2]
    rcases hx : m.gcd.add ns ty base len caps with ⟨r1, g⟩
    cases r1 with
    | ok u =>
      obtain ⟨c, hu, _, hc1, _, hup, _⟩ := add_ok hm.reach hm.some hc.2.1 hx
      refine sync_updated hs hu hup ?_
      have e1 : mappingOf c = none := by unfold mappingOf; rw [if_pos hc1]
      have e2 : mappingFor 0x2000 = none := by decide
      rw [e1]; unfold mappingOf; dsimp only; split
      · rfl
      · exact e2
    | err e => rw [show ({ m with gcd := g } : Mem) = m by rw [add_err hm.reach hm.some hc.2.1 hx]]; exact hs
    | panic => rw [hx] at h1; exact absurd h1.symm hp
  | remove base len =>
    injection h with h
    unfold Mem.remove at h
    have a1 := After.step (ns := ns) (E := fun _ _ => False) (op := .remove base len) hm hc
    simp only [Gcd.step] at a1
    rcases hx : m.gcd.removeSpace base len with ⟨r1, g⟩
    rw [hx] at h a1
    cases r1 with
    | ok u =>
      dsimp only at h
      obtain ⟨c, hu, _, _, hup, _⟩ := remove_ok hm.reach hc.2 hx
      cases ht : m.table with
      | none =>
        rw [ht] at h; injection h with _ h; rw [← h]
        intro t k; cases k
      | some t =>
        rw [ht] at h
        dsimp only at h
        have e0 : ({ m with gcd := g } : Mem) = { m with gcd := g, table := some t } := by rw [← ht]
        rw [← e0] at h
        rcases hy : Mem.unmap f { m with gcd := g } t base len with ⟨r2, m2⟩
        rw [hy] at h
        cases r2 with
        | ok u => injection h with _ h; rw [← h]; exact sync_unmap hm a1.ok hs ht hu hup rfl hpr.1 hpr.2.1 hpr.2.2 hy (by simp)
        | err e => injection h with _ h; rw [← h]; exact sync_unmap hm a1.ok hs ht hu hup rfl hpr.1 hpr.2.1 hpr.2.2 hy (by simp)
        | panic => injection h with h _; exact absurd h.symm hp
    | err e => injection h with _ h; rw [← h, remove_err hm.reach hc.2 hx]; exact hs
    | panic => injection h with h _; exact absurd h.symm hp
  | allocate at_ ty shift len image device =>
    simp only [Mem.step] at h
    rcases hx : m.allocate dbg f at_ ty shift len image device with _ | ⟨o, m1⟩
    · rw [hx] at h; cases h
    · rw [hx] at h
      injection h with h; injection h with h1 h2
      rw [← h2]
      exact (allocate_effect hm hs hd hc hpr hx (fun k => hp (by rw [← h1, k]; rfl))).1
  | free base len =>
    injection h with h
    unfold Mem.free at h
    have a1 := After.step (ns := ns) (E := fun _ _ => False) (op := .free base len false) hm hc
    simp only [Gcd.step] at a1
    rcases hx : m.gcd.freeSpace base len false with ⟨r1, g⟩
    rw [hx] at h a1
    cases r1 with
    | ok u =>
      dsimp only at h
      obtain ⟨c, hu, _, h1, h2, hup, _⟩ := free_ok hm.reach hpr.1 hc.2 hx
      have hmap : ∀ k, mappingOf { c with allocated := false, image := k, device := 0, attrs := 0x2000 ||| (c.attrs &&& 0x101F) } = none := fun k => by
        unfold mappingOf; split
        · rfl
        · exact rp_free c.attrs
      cases ht : m.table with
      | none =>
        rw [ht] at h; injection h with _ h; rw [← h]
        intro t k; cases k
      | some t =>
        rw [ht] at h
        dsimp only at h
        have e0 : ({ m with gcd := g } : Mem) = { m with gcd := g, table := some t } := by rw [← ht]
        rw [← e0] at h
        rcases hy : Mem.unmap f { m with gcd := g } t base len with ⟨r2, m2⟩
        rw [hy] at h
        cases r2 with
        | ok u => injection h with _ h; rw [← h]; exact sync_unmap hm a1.ok hs ht hu hup (hmap _) h1 h2 hpr.2 hy (by simp)
        | err e => injection h with _ h; rw [← h]; exact sync_unmap hm a1.ok hs ht hu hup (hmap _) h1 h2 hpr.2 hy (by simp)
        | panic => injection h with h _; exact absurd h.symm hp
    | err e =>
      have s1 : Sync { m with gcd := g } := by
        rcases free_err_partial hm.reach hc.2 hx with k | ⟨c, hu, _, _, hup⟩
        · rw [k]; exact hs
        · exact sync_updated hs hu hup rfl
      cases e <;> (injection h with _ h; rw [← h]; exact s1)
    | panic => injection h with h _; exact absurd h.symm hp
  | freeKeep base len => exact absurd hpr id
  | setAttributes base len attrs =>
    obtain ⟨q1, q2, q3, q4, q5⟩ := hpr
    have href := set_attributes_not_refused hm hc.1 hc.2 q2 q3 q4 q5 h hp
    obtain ⟨_, _, _, _, _, _, k, _⟩ := set_attributes_effect hm hc.1 hc.2 q1 h hp href
    exact k hs
  | setCapabilities base len caps =>
    injection h with h; injection h with h1 h2; rw [← h2]
    rcases hx : m.gcd.setCapabilities base len caps with ⟨r1, g⟩
    cases r1 with
    | ok u =>
      obtain ⟨c, hu, _, _, hup, _⟩ := set_capabilities_ok hm.reach hc.2.1 hx
      exact sync_updated hs hu hup rfl
    | err e => rw [show ({ m with gcd := g } : Mem) = m by rw [set_capabilities_err hm.reach hc.2.1 hx]]; exact hs
    | panic => exact absurd (show r = .panic by rw [← h1]; show (m.gcd.setCapabilities base len caps).1 = _; rw [hx]) hp
  | lock => injection h with h; injection h with _ h; rw [← h]; exact hs
  | unlock => injection h with h; injection h with _ h; rw [← h]; exact hs

/-- C63: after any history of proper calls the page table agrees with the memory space about every address: memory that
exists and is not read-protected is mapped, with exactly its access and cache attributes, and nothing else is. -/
theorem page_table_agrees (hm : MemOk ns m) (hs : Sync m) (hd : m.dflt = 0x4000)
    (h : History dbg ns (fun f m c => c.InRange m ∧ c.Proper f m) m m') : MemOk ns m' ∧ Sync m' ∧ m'.dflt = 0x4000 := by
  induction h with
  | none => exact ⟨hm, hs, hd⟩
  | call _ hP hst hp ih =>
    obtain ⟨k1, k2, k3⟩ := ih
    have aft := step_after k1 hP.1 hst hp
    exact ⟨aft.ok, sync_step k1 k2 k3 hP.1 hP.2 hst hp, aft.dflt.trans k3⟩

/-- C63: whatever the page table does, a page is executable after a call only if it was before, or the call set attributes
of a range with that page that do not forbid execution. -/
theorem executable_step {c : Call} (hm : MemOk ns m) (hd : m.dflt.testBit 14 = true) (hc : c.InRange m)
    (h : m.step dbg ns f c = some (r, m')) (hp : r ≠ .panic) {p : Nat} (hx : Executable m' p) :
    Executable m p ∨ ∃ base len attrs, c = .setAttributes base len attrs ∧ attrs.testBit 14 = false ∧ base ≤ p * 4096 ∧ p * 4096 + 4096 ≤ base + len := by
  obtain ⟨t', a, e1, e2, e3⟩ := hx
  obtain ⟨t, e, k⟩ := (step_after hm hc h hp).pages t' e1
  have hbit : ∀ {x a : Nat}, mappingFor x = some a → a.testBit 14 = x.testBit 14 := fun {x a} hh => by
    unfold mappingFor at hh
    split at hh
    · cases hh
    · injection hh with hh; rw [← hh]; exact testBit_mask _ _ (by decide)
  rcases k p with k | k | k
  · exact Or.inl ⟨t, a, e, by rw [← k]; exact e2, e3⟩
  · rw [e2] at k; cases k
  · rw [e2] at k
    cases c with
    | setAttributes base len attrs =>
      obtain ⟨k1, k2, k3⟩ := k
      exact Or.inr ⟨base, len, attrs, rfl, by rw [← hbit k3.symm]; exact e3, k1, k2⟩
    | allocate at_ ty shift len image device =>
      obtain ⟨_, c, k⟩ := k
      have := hbit k.symm
      rw [e3, Nat.testBit_or, hd, Bool.or_true] at this
      cases this
    | add => exact k.elim
    | remove => exact k.elim
    | free => exact k.elim
    | freeKeep => exact k.elim
    | setCapabilities => exact k.elim
    | lock => exact k.elim
    | unlock => exact k.elim

/-- C63: no history of calls, and no failure of the page table, makes a page executable unless one of the calls sets such
attributes for it. -/
theorem executable_only_on_request {p : Nat} (hm : MemOk ns m) (hd : m.dflt.testBit 14 = true)
    (h : History dbg ns (fun _ m c => c.InRange m ∧ ∀ base len attrs, c = .setAttributes base len attrs → attrs.testBit 14 = false →
      ¬ (base ≤ p * 4096 ∧ p * 4096 + 4096 ≤ base + len)) m m') (hx : Executable m' p) : Executable m p := by
  have key : MemOk ns m' ∧ m'.dflt.testBit 14 = true ∧ (Executable m' p → Executable m p) := by
    clear hx
    induction h with
    | none => exact ⟨hm, hd, id⟩
    | call _ hP hst hp ih =>
      obtain ⟨k1, k2, k3⟩ := ih
      have aft := step_after k1 hP.1 hst hp
      refine ⟨aft.ok, by rw [aft.dflt]; exact k2, fun hx => ?_⟩
      rcases executable_step k1 k2 hP.1 hst hp hx with k | ⟨b, l, a, e1, e2, e3⟩
      · exact k3 k
      · exact absurd e3 (hP.2 b l a e1 e2)
  exact key.2.2 hx

/-- C63: a page becomes mapped only by a call that sets its attributes, or allocates it. -/
theorem mapped_step {c : Call} (hm : MemOk ns m) (hc : c.InRange m) (h : m.step dbg ns f c = some (r, m')) (hp : r ≠ .panic) {p : Nat}
    (hx : Mapped m' p) : Mapped m p ∨
    (∃ base len attrs, c = .setAttributes base len attrs ∧ base ≤ p * 4096 ∧ p * 4096 + 4096 ≤ base + len) ∨
    (∃ at_ ty shift len image device addr g, c = .allocate at_ ty shift len image device ∧
      m.gcd.allocate at_ ty shift len image device = (.ok addr, g) ∧ addr ≤ p * 4096 ∧ p * 4096 + 4096 ≤ addr + len) := by
  obtain ⟨t', a, e1, e2⟩ := hx
  obtain ⟨t, e, k⟩ := (step_after hm hc h hp).pages t' e1
  rcases k p with k | k | k
  · exact Or.inl ⟨t, a, e, by rw [← k]; exact e2⟩
  · rw [e2] at k; cases k
  · cases c with
    | setAttributes base len attrs => exact Or.inr (Or.inl ⟨base, len, attrs, rfl, k.1, k.2.1⟩)
    | allocate at_ ty shift len image device =>
      obtain ⟨⟨addr, g, k1, k2, k3⟩, _⟩ := k
      exact Or.inr (Or.inr ⟨at_, ty, shift, len, image, device, addr, g, rfl, k1, k2, k3⟩)
    | add => exact k.elim
    | remove => exact k.elim
    | free => exact k.elim
    | freeKeep => exact k.elim
    | setCapabilities => exact k.elim
    | lock => exact k.elim
    | unlock => exact k.elim

theorem change_not_denied {g : Gcd} {tr : Cell → Option Cell} {er : EfiError} (hi : Inv g) (hl : len < W) (hne : er ≠ .accessDenied) :
    (g.change base len tr (fun _ _ => er)).1 ≠ .err .accessDenied := by
  have h := change_spec (base := base) (tr := tr) (onErr := fun _ _ => er) hi hl
  revert h
  generalize g.change base len tr (fun _ _ => er) = x
  intro h
  cases h <;> simp [hne]

/-- A free is not denied. -/
theorem free_not_denied {g : Gcd} (hi : Inv g) (hl : len < W) (preserve : Bool) : (g.freeSpace base len preserve).1 ≠ .err .accessDenied := by
  unfold Gcd.freeSpace
  split
  · simp
  unfold Gcd.freeWorker
  split
  · simp
  split
  · simp
  split
  · simp
  split
  · simp
  have h1 := change_not_denied (base := base) (tr := freeTr preserve) (er := .notFound) hi hl (by simp)
  rcases change_cases (g := g) (base := base) (tr := freeTr preserve) (onErr := fun _ _ => .notFound) hi hl with
    ⟨_, _, g1, he, _, _, _, _, _, hi1, _⟩ | ⟨er, he, _⟩
  · rw [he]
    dsimp only
    cases hd : g1.descriptorFor base with
    | ok d => exact change_not_denied hi1 hl (by simp)
    | panic => simp
    | err e =>
      dsimp only
      intro k
      injection k with k
      rw [k] at hd
      unfold Gcd.descriptorFor at hd
      repeat' split at hd
      all_goals cases hd
  · rw [he] at h1 ⊢
    exact h1

/-- C63: freed memory is not mapped any more, unless the page table fails. -/
theorem free_unmaps {t : Table} (hm : MemOk ns m) (hc : Call.InRange m (.free base len)) (hul : m.gcd.locked = false) (ht : m.table = some t)
    (hf : f.fail base = none) (h : m.step dbg ns f (.free base len) = some (.ok (), m')) :
    ∃ t', m'.table = some t' ∧ ∀ p, t' p = if base / 4096 ≤ p ∧ p < (base + len) / 4096 then none else t p := by
  injection h with h
  unfold Mem.free at h
  have a1 := After.step (ns := ns) (E := fun _ _ => False) (op := .free base len false) hm hc
  simp only [Gcd.step] at a1
  rcases hx : m.gcd.freeSpace base len false with ⟨r1, g⟩
  have hnd := free_not_denied (base := base) (reachable_inv hm.reach).inv hc.2 false
  rw [hx] at h a1 hnd
  cases r1 with
  | ok u =>
    dsimp only at h
    obtain ⟨c, hu, _, h1, h2, hup, _⟩ := free_ok hm.reach hul hc.2 hx
    rw [ht] at h
    dsimp only at h
    have e0 : ({ m with gcd := g } : Mem) = { m with gcd := g, table := some t } := by rw [← ht]
    rw [← e0] at h
    rcases unmap_cases (f := f) (t := t) (base := base) (len := len) a1.ok.reach with ⟨g', e, q, hok⟩ | ⟨g', er, e, q, hbad⟩ | ⟨e, _⟩
    · have e : Mem.unmap f { m with gcd := g } t base len = _ := e
      rw [e] at h
      injection h with _ h; rw [← h]
      refine ⟨_, rfl, fun p => ?_⟩
      rw [set_apply h1 h2]; rfl
    · exfalso
      rcases hbad with hbad | hbad
      · have : rangeOk base len = true := rangeOk_iff.2 ⟨h1, h2, by have := hu.1; omega⟩
        rw [this] at hbad; cases hbad
      · exact hbad hf
    · have e : Mem.unmap f { m with gcd := g } t base len = _ := e
      rw [e] at h
      injection h with h _; cases h
  | err e =>
    exfalso
    cases e <;> first | exact absurd rfl hnd | (injection h with h _; cases h)
  | panic => injection h with h _; cases h

end Verif.Paging
