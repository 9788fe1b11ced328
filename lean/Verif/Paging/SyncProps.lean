import Verif.Paging.Props
namespace Verif.Paging
open Verif.Gcd

variable {ns : Nat} {dbg : Bool} {f : Faults} {m m' : Mem} {base len attrs : Nat} {r : Outcome EfiError Unit}

/-! ### The state the calls are made in -/

theorem mask_lt {a : Nat} (k : Nat) (h : a < W) : a &&& k < W := Nat.lt_of_le_of_lt Nat.and_le_left h

theorem or_lt {a b : Nat} (h1 : a < W) (h2 : b < W) : a ||| b < W := by
  have : W = 2 ^ 64 := by decide
  rw [this] at *
  exact Nat.or_lt_two_pow h1 h2

theorem attrsAt_eq {g : Gcd} {c : Cell} (hr : Reachable ns g) (hc : cellAt g.blocks base = some c) :
    Mem.attrsAt { m with gcd := g } base = c.attrs := by
  have hne := ne_of_cell hc
  have hlt := (cellAt_bounds (good_of hr hne).tiles hc).2
  obtain ⟨d, e, _, _, _, b3⟩ := descriptor_contains hr hne hlt
  unfold Mem.attrsAt
  dsimp only
  rw [e]
  rw [hc] at b3; injection b3 with b3
  rw [b3]

/-- A range in one piece takes one round. -/
theorem setLoop_single {n : Nat} {c : Cell} (hr : Reachable ns m.gcd) (hu : Uniform m.gcd.blocks base len c) (hn : 1 < n) :
    Mem.setLoop dbg f attrs (base + len) n m base (.ok ()) = some (m.setPiece dbg f c.attrs base len attrs) := by
  obtain ⟨k, rfl⟩ : ∃ k, n = k + 2 := ⟨n - 2, by omega⟩
  have hne := ne_of_uniform hu
  have hg := good_of hr hne
  have hpos := hu.1
  have hbnd := uniform_bounds hg.tiles hu
  obtain ⟨d, j, e, e1, e2, hk, hcur, hle, hw, hud⟩ := piece hr hne (cur := base) (stop := base + len) (by omega) (by omega)
  have hj : j = len := by
    rcases piece_end hr hne (by omega) (by omega) e e1 with h | h
    · omega
    · by_cases hjl : base + j = base + len
      · omega
      · exfalso
        have x1 := hu.2 (base + j) (by omega) (by omega)
        have x2 := hu.2 base (Nat.le_refl _) (by omega)
        have x3 := hud.2 base (Nat.le_refl _) (by have := hud.1; omega)
        rw [x2] at x3; injection x3 with x3
        rw [x1, x3] at h; exact h rfl
  subst hj
  have hc := uniform_unique hud hu
  unfold Mem.setLoop
  rw [if_pos (by omega), e]
  dsimp only
  rw [e1, e2, hc]
  have stop : ∀ m1 res, Mem.setLoop dbg f attrs (base + j) (k + 1) m1 (base + j) res = some (res, m1) := fun m1 res => by
    unfold Mem.setLoop; rw [if_neg (by omega)]
  rcases m.setPiece dbg f c.attrs base j attrs with ⟨r1, m1⟩
  cases r1 with
  | ok u => exact stop _ _
  | panic => rfl
  | err er => cases er <;> first | exact stop _ _ | rfl

/-- What an allocation does, once the memory space has picked the range. -/
theorem allocate_cases {at_ : AllocType} {ty : MemType} {shift image addr : Nat} {device : Option Nat} {g : Gcd} (hm : MemOk ns m)
    (hq : ReqOk at_ shift len) (h : m.gcd.allocate at_ ty shift len image device = (.ok addr, g)) :
    ∃ c, Uniform m.gcd.blocks addr len c ∧ c.allocated = false ∧ c.type ≠ .nonExistent ∧
      Updated m.gcd.blocks g.blocks addr len { c with allocated := true, image := image, device := device.getD c.device } ∧
      Later ns m.gcd g ∧ g.blocks.length ≤ m.gcd.blocks.length + 2 ∧ addr % 2 ^ shift = 0 ∧
      addr + len ≤ m.gcd.max ∧ (c.attrs &&& 0x101F) ||| m.dflt < W ∧
      Mem.setAttributes dbg f (len + 1) { m with gcd := g } addr len ((Mem.attrsAt { m with gcd := g } addr &&& CACHE_ATTRIBUTE_MASK) ||| m.dflt) =
        some (Mem.setPiece dbg f { m with gcd := g } c.attrs addr len ((c.attrs &&& 0x101F) ||| m.dflt)) := by
  obtain ⟨a1, _, _, _, _, c, hu, hca, hty, hne, _, _, hup, hsb⟩ := allocate_ok hm.reach hq h
  obtain ⟨hlt, hsz⟩ := allocate_later hm.reach hq h
  have hbnd := uniform_bounds (good_of hm.reach hm.some).tiles hu
  have hW := (reachable_inv hm.reach).inv.ltW
  have hcw := reachable_wide hm.reach _ _ (hu.2 addr (Nat.le_refl _) (by have := hu.1; omega))
  have hu2 := updated_uniform hu.1 hup
  have hat := attrsAt_eq (m := m) hlt.reach (hu2.2 addr (Nat.le_refl _) (by have := hu.1; omega))
  refine ⟨c, hu, hca, by rw [hty]; exact hne, hup, hlt, hsz, a1, hbnd, or_lt (mask_lt _ hcw) hm.dflt, ?_⟩
  rw [hat, setAttributes_eq (by omega), cacheMask]
  have := setLoop_single (ns := ns) (dbg := dbg) (f := f) (attrs := (c.attrs &&& 0x101F) ||| m.dflt) (m := { m with gcd := g }) (n := len + 1)
    hlt.reach hu2 (by have := hu.1; omega)
  exact this

theorem uniform_ltW {g : Gcd} {c : Cell} (hr : Reachable ns g) (hu : Uniform g.blocks base len c) : base < W ∧ len < W := by
  have := uniform_bounds (good_of hr (ne_of_uniform hu)).tiles hu
  have := (reachable_inv hr).inv.ltW
  have := hu.1
  omega

/-- How a call leaves the state, whatever the page table does. `E` tells which pages it may have mapped, and how. -/
structure After (ns : Nat) (E : Nat → Option Nat → Prop) (m m' : Mem) : Prop where
  ok : MemOk ns m'
  max : m'.gcd.max = m.gcd.max
  dflt : m'.dflt = m.dflt
  pages : ∀ t', m'.table = some t' → ∃ t, m.table = some t ∧ ∀ p, t' p = t p ∨ t' p = Option.none ∨ E p (t' p)

theorem After.gcd {E : Nat → Option Nat → Prop} {g : Gcd} (hm : MemOk ns m) (h1 : Reachable ns g) (h2 : g.blocks ≠ []) (h3 : g.max = m.gcd.max) :
    After ns E m { m with gcd := g } :=
  ⟨⟨h1, h2, hm.table, hm.dflt⟩, h3, rfl, fun t' h => ⟨t', h, fun _ => Or.inl rfl⟩⟩

theorem After.trans {E : Nat → Option Nat → Prop} {m1 m2 : Mem} (h1 : After ns E m m1) (h2 : After ns E m1 m2) : After ns E m m2 :=
  ⟨h2.ok, h2.max.trans h1.max, h2.dflt.trans h1.dflt, fun t2 e2 => by
    obtain ⟨t1, e1, k1⟩ := h2.pages t2 e2
    obtain ⟨t, e, k⟩ := h1.pages t1 e1
    refine ⟨t, e, fun p => ?_⟩
    rcases k1 p with h | h
    · rw [h]; exact k p
    · exact Or.inr h⟩

theorem After.onward {E : Nat → Option Nat → Prop} {lo hi : Nat} (hm : MemOk ns m) (h : Onward ns attrs lo hi m m')
    (hE : ∀ p, lo ≤ p * 4096 → p * 4096 + 4096 ≤ hi → E p (mappingFor attrs)) : After ns E m m' :=
  ⟨⟨h.later.reach, h.later.some hm.some, h.table, by rw [h.dflt]; exact hm.dflt⟩, h.later.max, h.dflt, fun t' ht' => by
    obtain ⟨t, e, k⟩ := h.pages t' ht'
    refine ⟨t, e, fun p => ?_⟩
    rcases k p with k | ⟨k1, k2, k3⟩
    · exact Or.inl k
    · exact Or.inr (Or.inr (k1 ▸ hE p k2 k3))⟩

theorem After.unmap {E : Nat → Option Nat → Prop} {t : Table} {r : Outcome PtError Unit} (hm : MemOk ns m) (ht : m.table = some t)
    (h : m.unmap f t base len = (r, m')) (hp : r ≠ .panic) : After ns E m m' := by
  rcases unmap_cases (f := f) (t := t) (base := base) (len := len) hm.reach with ⟨g', e, q, hok⟩ | ⟨g', er, e, q, _⟩ | ⟨e, _⟩
  · rw [h] at e
    injection e with _ e; subst e
    refine ⟨⟨q.later.reach, q.later.some hm.some, ?_, hm.dflt⟩, q.later.max, rfl, fun t' ht' => ⟨t, ht, fun p => ?_⟩⟩
    · intro t' p a ht' hp'
      injection ht' with ht'; subst ht'
      unfold Table.set at hp'
      split at hp'
      · cases hp'
      · exact hm.table t p a ht hp'
    · injection ht' with ht'; subst ht'
      unfold Table.set
      split
      · exact Or.inr (Or.inl rfl)
      · exact Or.inl rfl
  · rw [h] at e
    injection e with _ e; subst e
    exact After.gcd hm q.later.reach (q.later.some hm.some) q.later.max
  · rw [h] at e
    injection e with e _; exact absurd e hp

theorem After.step {E : Nat → Option Nat → Prop} {op : Op} (hm : MemOk ns m) (ho : op.InRange) : After ns E m { m with gcd := m.gcd.step ns op } := by
  have hs := step_same (nodeSize := ns) (reachable_inv hm.reach) ho
  exact After.gcd hm (reach_step hm.reach ho)
    (partition_stays (ops := [op]) hm.reach hm.some (fun o h => by rw [List.mem_singleton] at h; rw [h]; exact ho)).1 hs.1

/-- The pages a call may have mapped, and how: those of the range whose attributes are set; allocated pages, with the default
attributes. -/
def MapsTo (m : Mem) : Call → Nat → Option Nat → Prop
  | .setAttributes base len attrs, p, x => base ≤ p * 4096 ∧ p * 4096 + 4096 ≤ base + len ∧ x = mappingFor attrs
  | .allocate at_ ty shift len image device, p, x =>
    (∃ addr g, m.gcd.allocate at_ ty shift len image device = (.ok addr, g) ∧ addr ≤ p * 4096 ∧ p * 4096 + 4096 ≤ addr + len) ∧
    ∃ c, x = mappingFor ((c &&& 0x101F) ||| m.dflt)
  | _, _, _ => False

/-- Every call that returns leaves a state the calls can be made in; and it maps no other pages than those it says. -/
theorem step_after {c : Call} (hm : MemOk ns m) (hc : c.InRange m) (h : m.step dbg ns f c = some (r, m')) (hp : r ≠ .panic) :
    After ns (MapsTo m c) m m' := by
  cases c with
  | add ty base len caps =>
    injection h with h; injection h with _ h; rw [← h]
    exact After.step (op := .add ty base len caps) hm hc
  | remove base len =>
    injection h with h
    have a1 : After ns (MapsTo m (.remove base len)) m { m with gcd := (m.gcd.removeSpace base len).2 } :=
      After.step (op := .remove base len) hm hc
    unfold Mem.remove at h
    rcases hx : m.gcd.removeSpace base len with ⟨r1, g⟩
    rw [hx] at h a1
    cases r1 with
    | ok u =>
      dsimp only at h
      cases ht : m.table with
      | none =>
        rw [ht] at h; injection h with _ h; rw [← h]
        rw [ht] at a1; exact a1
      | some t =>
        rw [ht] at h a1
        dsimp only at h
        rcases hy : Mem.unmap f { m with gcd := g, table := some t } t base len with ⟨r2, m2⟩
        rw [hy] at h
        cases r2 with
        | ok u => injection h with _ h; rw [← h]; exact a1.trans (After.unmap a1.ok rfl hy (by simp))
        | err e => injection h with _ h; rw [← h]; exact a1.trans (After.unmap a1.ok rfl hy (by simp))
        | panic => injection h with h _; exact absurd h.symm hp
    | err e => injection h with _ h; rw [← h]; exact a1
    | panic => injection h with h _; exact absurd h.symm hp
  | allocate at_ ty shift len image device =>
    simp only [Mem.step, Mem.allocate] at h
    rcases hx : m.gcd.allocate at_ ty shift len image device with ⟨r1, g⟩
    rw [hx] at h
    cases r1 with
    | ok addr =>
      dsimp only at h
      obtain ⟨c, hu, _, _, hup, hlt, hsz, _, hbnd, hW, he⟩ := allocate_cases (dbg := dbg) (f := f) hm hc hx
      rw [he] at h
      have a1 : After ns (MapsTo m (.allocate at_ ty shift len image device)) m { m with gcd := g } :=
        After.gcd hm hlt.reach (hlt.some hm.some) hlt.max
      rcases hy : Mem.setPiece dbg f { m with gcd := g } c.attrs addr len ((c.attrs &&& 0x101F) ||| m.dflt) with ⟨r2, m2⟩
      rw [hy] at h
      have hul := uniform_ltW hm.reach hu
      have hcw := reachable_wide hm.reach _ _ (hu.2 addr (Nat.le_refl _) (by have := hu.1; omega))
      have onw : r2 ≠ .panic → After ns (MapsTo m (.allocate at_ ty shift len image device)) m m2 := fun h2 =>
        a1.trans (After.onward a1.ok (setPiece_onward hlt.reach hm.table hul.1 hul.2 hW hcw hy h2) (fun p k1 k2 => ⟨⟨addr, g, hx, k1, k2⟩, c.attrs, rfl⟩))
      cases r2 with
      | ok u => injection h with h; injection h with _ h; rw [← h]; exact onw (by simp)
      | panic => injection h with h; injection h with h _; exact absurd h.symm hp
      | err e =>
        have o2 := onw (by simp)
        cases e <;> (injection h with h; injection h with _ h; rw [← h]; exact o2)
    | err e =>
      injection h with h; injection h with _ h; rw [← h]
      have := After.step (E := MapsTo m (.allocate at_ ty shift len image device)) (op := .allocate at_ ty shift len image device) hm hc
      simp only [Gcd.step, hx] at this
      exact this
    | panic => injection h with h; injection h with h _; exact absurd h.symm hp
  | free base len =>
    injection h with h
    have a1 : After ns (MapsTo m (.free base len)) m { m with gcd := (m.gcd.freeSpace base len false).2 } :=
      After.step (op := .free base len false) hm hc
    unfold Mem.free at h
    rcases hx : m.gcd.freeSpace base len false with ⟨r1, g⟩
    rw [hx] at h a1
    cases r1 with
    | ok u =>
      dsimp only at h
      cases ht : m.table with
      | none =>
        rw [ht] at h; injection h with _ h; rw [← h]
        rw [ht] at a1; exact a1
      | some t =>
        rw [ht] at h a1
        dsimp only at h
        rcases hy : Mem.unmap f { m with gcd := g, table := some t } t base len with ⟨r2, m2⟩
        rw [hy] at h
        cases r2 with
        | ok u => injection h with _ h; rw [← h]; exact a1.trans (After.unmap a1.ok rfl hy (by simp))
        | err e => injection h with _ h; rw [← h]; exact a1.trans (After.unmap a1.ok rfl hy (by simp))
        | panic => injection h with h _; exact absurd h.symm hp
    | err e => cases e <;> (injection h with _ h; rw [← h]; exact a1)
    | panic => injection h with h _; exact absurd h.symm hp
  | freeKeep base len =>
    injection h with h; injection h with _ h; rw [← h]
    exact After.step (op := .free base len true) hm hc
  | setAttributes base len attrs =>
    obtain ⟨r1, hl, hp1, _⟩ := coreSet_some hm hc.1 hc.2 h hp
    exact After.onward hm (setLoop_onward hc.2 hm.reach hm.some hm.table hc.1 (Nat.le_refl _) hl hp1) fun p h1 h2 => ⟨h1, h2, rfl⟩
  | setCapabilities base len caps =>
    injection h with h; injection h with _ h; rw [← h]
    exact After.step (op := .setCapabilities base len caps) hm hc
  | lock =>
    injection h with h; injection h with _ h; rw [← h]
    exact After.step (op := .lock) hm trivial
  | unlock =>
    injection h with h; injection h with _ h; rw [← h]
    exact After.step (op := .unlock) hm trivial

end Verif.Paging
