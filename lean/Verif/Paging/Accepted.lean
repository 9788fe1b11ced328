import Verif.Paging.SetSpec
namespace Verif.Paging
open Verif.Gcd

variable {ns : Nat}

theorem later_cell {g g' : Gcd} (hr : Reachable ns g) (h : Later ns g g') (hne : g.blocks ≠ []) {a : Nat} {c' : Cell}
    (hc : cellAt g'.blocks a = some c') : ∃ c, cellAt g.blocks a = some c := by
  have hg := good_of hr hne
  have hg' := good_of h.reach (h.some hne)
  have := (cellAt_bounds hg'.tiles hc).2
  rw [h.max] at this
  obtain ⟨b, _, _, _, hb⟩ := cellAt_some hg.tiles (Nat.zero_le a) this
  exact ⟨_, hb⟩

theorem mappingOf_congr {c c' : Cell} (h1 : c'.type = c.type) (h2 : c'.attrs = c.attrs) : mappingOf c' = mappingOf c := by
  unfold mappingOf; rw [h1, h2]

/-- Setting attributes that mean something to the page table keeps both in step. -/
theorem sync_part {m0 m : Mem} {attrs base upto : Nat} (hr : Reachable ns m0.gcd) (hs : Sync m0) (hp : Part ns m0 m attrs base upto)
    (ha : attrs &&& PT_MASK ≠ 0) : Sync m := by
  intro t' ht' a c' hc'
  cases ht0 : m0.table with
  | none => rw [hp.noTable ht0] at ht'; cases ht'
  | some t =>
    obtain ⟨t1, e1, s1⟩ := hp.table t ht0
    rw [ht'] at e1; injection e1 with e1; subst e1
    obtain ⟨c, hc⟩ := later_cell hr hp.later hp.ne hc'
    obtain ⟨d, hd, f1, _, f3, _⟩ := hp.face a c hc
    rw [hc'] at hd; injection hd with hd; subst hd
    rw [s1.2 ha]
    have hle := hp.le
    have hiff : InPages base (upto - base) (a / 4096) ↔ base ≤ a ∧ a < upto := by
      unfold InPages
      rw [show base + (upto - base) = upto by omega]
      rcases hp.aligned with h | ⟨h1, h2⟩
      · subst h; omega
      · omega
    by_cases hin : base ≤ a ∧ a < upto
    · rw [if_pos (hiff.2 hin)]
      rw [if_pos hin] at f3
      obtain ⟨x, hx, x1, _⟩ := hp.supported a hin.1 hin.2
      rw [hc] at hx; injection hx with hx; subst hx
      unfold mappingOf
      rw [f1, if_neg x1, f3]
    · rw [if_neg (fun h => hin (hiff.1 h))]
      rw [if_neg hin] at f3
      rw [hs t ht0 a c hc]
      exact (mappingOf_congr f1 f3).symm

theorem unmap_gcd {f : Faults} {m : Mem} {t : Table} {base len : Nat} (hf : f.refill base = false) : (m.unmap f t base len).2.gcd = m.gcd := by
  unfold Mem.unmap Mem.refill
  rw [if_neg (by rw [hf]; simp)]
  dsimp only
  split
  · rfl
  · split <;> rfl

theorem map_gcd {f : Faults} {m : Mem} {t : Table} {base len attrs : Nat} (hf : f.refill base = false) :
    (m.map f t base len attrs).2.gcd = m.gcd := by
  unfold Mem.map Mem.refill
  rw [if_neg (by rw [hf]; simp)]
  dsimp only
  split
  · rfl
  · split <;> rfl

theorem setPaging_gcd {dbg : Bool} {f : Faults} {m : Mem} {base len attrs : Nat} (hf : f.refill base = false) :
    (m.setPaging dbg f base len attrs).2.gcd = m.gcd := by
  have apply_gcd : ∀ t want old, (m.applyPaging dbg f t base len want old).2.gcd = m.gcd := fun t want old => by
    unfold Mem.applyPaging
    split
    · cases old with
      | none => rfl
      | some b =>
        dsimp only
        have := unmap_gcd (m := m) (t := t) (len := len) hf
        rcases hx : m.unmap f t base len with ⟨r, m1⟩
        rw [hx] at this
        cases r <;> exact this
    · have := map_gcd (m := m) (t := t) (len := len) (attrs := want) hf
      rcases hx : m.map f t base len want with ⟨r, m1⟩
      rw [hx] at this
      cases r <;> exact this
  unfold Mem.setPaging
  split
  · rfl
  · split
    · rfl
    · split
      · rfl
      · exact apply_gcd _ _ _
    · exact apply_gcd _ _ _

/-- A supported change of one piece is accepted, and so is taking it back, if the table of descriptors has some room. -/
theorem setPiece_accepted {dbg : Bool} {f : Faults} {m m' : Mem} {r : Outcome EfiError Unit} {base len attrs : Nat} {c : Cell}
    (hr : Reachable ns m.gcd) (hto : TableOk m) (hb : base < W) (hl : len < W) (ha : attrs < W)
    (hroom : m.gcd.blocks.length + 6 ≤ 4096) (hq : f.refill base = false ∨ c.allocated = true) (h1 : base % 4096 = 0) (h2 : len % 4096 = 0)
    (hu : Uniform m.gcd.blocks base len c) (h3 : c.type ≠ .nonExistent) (h4 : c.caps ||| attrs = c.caps)
    (h : m.setPiece dbg f c.attrs base len attrs = (r, m')) (hp : r ≠ .panic) : m'.refusals = m.refusals := by
  have hcw : c.attrs < W := reachable_wide hr _ _ (hu.2 base (Nat.le_refl _) (by have := hu.1; omega))
  have hacc := setGcd_accepted (m := m) hr hl (by unfold Room; omega) h1 h2 hu h3 h4
  unfold Mem.setPiece at h
  rw [if_neg (fun hh => hh.2 hacc)] at h
  rcases setGcd_cases (m := m) hr hb hl ha with ⟨g1, e1, lt1, sz1, _, _, x, hx, x1, x2, x3⟩ | e1
  · have hxc := uniform_unique hx hu
    subst hxc
    rw [e1] at h
    unfold Mem.setTable at h
    by_cases h0 : attrs &&& PT_MASK = 0
    · rw [if_pos h0] at h
      injection h with _ h; subst h; rfl
    rw [if_neg h0] at h
    cases ht : m.table with
    | none =>
      have : (Mem.setPaging dbg f { m with gcd := g1 } base len attrs) = (.err .notReady, { m with gcd := g1 }) := by
        unfold Mem.setPaging; rw [show ({ m with gcd := g1 } : Mem).table = none from ht]
      rw [this] at h
      injection h with _ h; subst h; rfl
    | some t =>
      have hs := setPaging_spec (ns := ns) (dbg := dbg) (f := f) (m := { m with gcd := g1 }) (base := base) (len := len) (attrs := attrs)
        lt1.reach ht hto
      have hgq := setPaging_gcd (dbg := dbg) (f := f) (m := { m with gcd := g1 }) (base := base) (len := len) (attrs := attrs)
      generalize Mem.setPaging dbg f { m with gcd := g1 } base len attrs = y at hs h hgq
      cases hs with
      | done m2 t2 k1 k2 k3 k4 k5 k6 k7 k8 =>
        injection h with _ h; subst h; exact k5
      | failed e m2 k1 k2 k3 k4 k5 k6 =>
        have hh : (dbgFail dbg (.err e), m2.setGcd base len x.attrs) = (r, m') := by
          cases e <;> first | exact h | exact absurd rfl k1
        injection hh with _ hh
        rw [← hh]
        have k4 : m2.refusals = m.refusals := k4
        rw [← k4]
        -- the range is still one piece, with the same capabilities
        have hfu : ∀ a, base ≤ a → a < base + len → cellAt g1.blocks a = some { x with attrs := attrs } := fun a j1 j2 => by
          rw [x3 a, if_pos ⟨j1, j2⟩]
        have hk : CellOk x := (reachable_inv hr).cells base x (hu.2 base (Nat.le_refl _) (by have := hu.1; omega))
        have sz2 : m2.gcd.blocks.length ≤ g1.blocks.length + 2 := k5.size
        have hu2 : Uniform m2.gcd.blocks base len { x with attrs := attrs } := ⟨hu.1, fun a j1 j2 => by
          rcases hq with hq | hq
          · have : m2.gcd = g1 := hgq hq
            rw [this]; exact hfu a j1 j2
          · obtain ⟨y, hy, _, hy2⟩ := k5.face a _ (hfu a j1 j2)
            rw [hy, hy2 hq]⟩
        exact setGcd_accepted k5.later.reach hl (by unfold Room; omega) h1 h2 hu2 h3 (hk.attrs h3)
      | panic m2 =>
        injection h with h _; exact absurd h.symm hp
  · exfalso
    have : (m.setGcd base len attrs).refusals = m.refusals + 1 := by rw [e1]
    omega

end Verif.Paging
