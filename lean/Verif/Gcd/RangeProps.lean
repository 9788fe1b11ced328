import Verif.Gcd.Props
/-!
C18: the calls that name a range change exactly that range, in the documented way, or nothing. For each call there is a
theorem for success (`_ok`), one for failure (`_err`), one that it does succeed when the state of the range allows it and
the descriptor table has room for two more entries (`_succeeds`), and none of them panics.
-/
namespace Verif.Gcd

variable {nodeSize : Nat} {g g' : Gcd} {base len : Nat}

/-- The table can take the two more entries that a change of a range may need. -/
def Room (g : Gcd) : Prop := g.blocks.length + 2 ≤ 4096

theorem Effect.get {tr : Cell → Option Cell} (h : Effect g base len tr (.ok (), g')) :
    ∃ c c', Uniform g.blocks base len c ∧ tr c = some c' ∧ Updated g.blocks g'.blocks base len c' ∧ SameBut g g' ∧ Inv g' := by
  cases h with
  | ok c c' _ h1 h2 h3 h4 h5 h6 => exact ⟨c, c', h2, h3, h4, h5, h6⟩

theorem Effect.failed {tr : Cell → Option Cell} {e : EfiError} (h : Effect g base len tr (.err e, g')) : g' = g := by
  cases h with
  | err er => rfl

theorem Effect.noPanic {tr : Cell → Option Cell} (h : Effect g base len tr (.panic, g')) : False := by cases h

theorem change_succeeds {tr : Cell → Option Cell} {onErr : Cell → BlockErr → EfiError} (hi : Inv g) (hl : len < W) (hroom : Room g)
    {c c' : Cell} (hu : Uniform g.blocks base len c) (ht : tr c = some c') : ∃ g', g.change base len tr onErr = (.ok (), g') := by
  rcases change_cases (g := g) (base := base) (tr := tr) (onErr := onErr) hi hl with ⟨_, _, g', he, _⟩ | ⟨er, he, h1⟩
  · exact ⟨g', he⟩
  · have := h1 ⟨c, c', hu, ht⟩
    unfold Room at hroom; unfold SLOTS at this; omega

/-! ### add -/

theorem add_eq (h0 : g.cap ≠ 0) {ty : MemType} {caps : Nat} : g.add nodeSize ty base len caps = g.addSpace ty base len caps := by
  unfold Gcd.add
  rw [if_neg h0]
  by_cases h1 : g.max = 0
  · rw [if_pos h1]; unfold Gcd.addSpace; rw [if_pos h1]
  · rw [if_neg h1]
    by_cases h2 : len = 0
    · rw [if_pos h2]; unfold Gcd.addSpace; rw [if_neg h1, if_pos h2]
    · rw [if_neg h2]
      by_cases h3 : base + len < W ∧ base + len ≤ g.max
      · rw [if_neg (fun h => h h3)]
      · rw [if_pos h3]; unfold Gcd.addSpace; rw [if_neg h1, if_neg h2, if_pos h3]

theorem cap_of_ne (hr : Reachable nodeSize g) (hne : g.blocks ≠ []) : g.cap ≠ 0 := by
  rcases (reachable_inv hr).inv.map with ⟨_, h⟩ | ⟨h, _⟩
  · exact absurd h hne
  · rw [h]; decide

/-- C18 (add): the range did not exist; afterwards it is unallocated memory of the type, with the capabilities asked for plus
the access bits (and the I/O bit for MMIO), and read-protected. -/
theorem add_ok (hr : Reachable nodeSize g) (hne : g.blocks ≠ []) (hl : len < W) {ty : MemType} {caps : Nat}
    (h : g.add nodeSize ty base len caps = (.ok (), g')) :
    ∃ c, Uniform g.blocks base len c ∧ c.allocated = false ∧ c.type = .nonExistent ∧ ty ≠ .nonExistent ∧
      Updated g.blocks g'.blocks base len { c with
        type := ty, attrs := 0x2000,
        caps := caps ||| 0x8000000000026000 ||| (if ty = .memoryMappedIo then 0x4000000000000000 else 0) } ∧ SameBut g g' := by
  rw [add_eq (cap_of_ne hr hne)] at h
  have he := addSpace_effect (ty := ty) (base := base) (caps := caps) (reachable_inv hr).inv hl
  rw [h] at he
  obtain ⟨c, c', h1, h2, h3, h4, _⟩ := he.get
  obtain ⟨a1, a2, a3, a4⟩ := addTr_some h2
  have : (MEMORY_ACCESS_MASK ||| MEMORY_RUNTIME) = 0x8000000000026000 := by decide
  rw [a4] at h3
  unfold addCaps at h3
  rw [this] at h3
  exact ⟨c, h1, a1, a2, a3, h3, h4⟩

theorem add_err (hr : Reachable nodeSize g) (hne : g.blocks ≠ []) (hl : len < W) {ty : MemType} {caps : Nat} {e : EfiError}
    (h : g.add nodeSize ty base len caps = (.err e, g')) : g' = g := by
  rw [add_eq (cap_of_ne hr hne)] at h
  have he := addSpace_effect (ty := ty) (base := base) (caps := caps) (reachable_inv hr).inv hl
  rw [h] at he
  exact he.failed

theorem seek_uniform (hi : Inv g) {c : Cell} (hu : Uniform g.blocks base len c) : ∃ z, seek base g.blocks = some z ∧ z.cur.st = c := by
  rcases hi.map with ⟨_, hb⟩ | ⟨_, hg, _⟩
  · rw [hb] at hu; exact absurd hu uniform_nil
  · obtain ⟨z, hz, hplug, hbase, hin, _⟩ := seek_spec (k := base) hg.tiles hi.pos
    have := uniform_bounds hg.tiles hu
    have := hu.1
    exact ⟨z, hz, (uniform_holds hg hu (by rw [← hplug]; exact mem_plug z) hbase (hin (by omega))).2⟩

theorem add_succeeds (hr : Reachable nodeSize g) (hl : len < W) {ty : MemType} {caps : Nat} (hroom : Room g) {c : Cell}
    (hu : Uniform g.blocks base len c) (hc : c.type = .nonExistent) (hty : ty ≠ .nonExistent) :
    ∃ g', g.add nodeSize ty base len caps = (.ok (), g') := by
  have hi := reachable_inv hr
  have hne : g.blocks ≠ [] := fun h => absurd (h ▸ hu) uniform_nil
  have hb := addw_le hi.inv hu
  have hp := hu.1
  obtain ⟨z, hz, hzc⟩ := seek_uniform hi.inv hu
  have hcc := hi.cells base c (hu.2 base (Nat.le_refl _) (by omega))
  have hal : c.allocated = false := by
    cases ha : c.allocated with
    | false => rfl
    | true => exact absurd hc (hcc.alloc ha).1
  rw [add_eq (cap_of_ne hr hne)]
  unfold Gcd.addSpace
  rw [if_neg (by have := hi.inv.pos; omega), if_neg (by omega)]
  rw [if_neg (fun h => h ⟨uniform_lt hi.inv hu, hb.1⟩)]
  have hn : isNonExistent g base = true := by
    unfold isNonExistent
    rw [hz]
    simp [hzc, hc]
  rw [hn, if_neg (by simp)]
  exact change_succeeds hi.inv hl hroom hu (by unfold addTr; rw [if_pos ⟨hal, hc, hty⟩])

/-- Memory that exists cannot be added again. -/
theorem add_existing_denied (hr : Reachable nodeSize g) {ty : MemType} {caps : Nat} (hp : 0 < len) (hb : base + len ≤ g.max)
    {c : Cell} (hu : cellAt g.blocks base = some c) (hc : c.type ≠ .nonExistent) :
    g.add nodeSize ty base len caps = (.err .accessDenied, g) := by
  have hi := reachable_inv hr
  have hne : g.blocks ≠ [] := fun h => by rw [h] at hu; cases hu
  have hu1 : Uniform g.blocks base 1 c := ⟨by omega, fun a h1 h2 => by
    have : a = base := by omega
    rw [this]; exact hu⟩
  obtain ⟨z, hz, hzc⟩ := seek_uniform hi.inv hu1
  rw [add_eq (cap_of_ne hr hne)]
  unfold Gcd.addSpace
  rw [if_neg (by have := hi.inv.pos; omega), if_neg (by omega)]
  rw [if_neg (fun h => h ⟨by have := hi.inv.ltW; omega, hb⟩)]
  have hn : isNonExistent g base = false := by
    unfold isNonExistent
    rw [hz]
    simp [hzc, hc]
  rw [hn, if_pos rfl]

theorem setAttributes_not_notReady (hi : Inv g) (hl : len < W) {attrs : Nat} :
    (g.setAttributes base len attrs).1 ≠ .err .notReady := by
  unfold Gcd.setAttributes
  rw [if_neg (by have := hi.pos; omega)]
  split
  · simp
  · split
    · simp
    · split
      · simp
      · unfold Gcd.setAttrsCore
        have h := change_spec (g := g) (base := base) (tr := attrTr attrs) (onErr := fun _ _ => .unsupported) hi hl
        revert h
        generalize g.change base len (attrTr attrs) (fun _ _ => .unsupported) = r
        intro h
        cases h <;> simp

theorem setAttributes_okOr (hi : Inv g) (hl : len < W) {attrs : Nat} :
    okOrNotReady (g.setAttributes base len attrs).1 = (g.setAttributes base len attrs).1 := by
  have h := setAttributes_not_notReady (base := base) (attrs := attrs) hi hl
  unfold okOrNotReady
  split
  · rename_i heq; exact absurd heq h
  · rfl

theorem andThen_ok {α : Type} {r : Ret Unit} {f : Gcd → Ret α} {x : α} (h : andThen r f = (.ok x, g')) :
    r.1 = .ok () ∧ f r.2 = (.ok x, g') := by
  unfold andThen at h
  obtain ⟨o, g⟩ := r
  cases o with
  | ok u => exact ⟨rfl, h⟩
  | err e => injection h with h; cases h
  | panic => injection h with h; cases h

/-- C18 (the first add, which creates the map): the start of the range is allocated to the core, as storage for the map, the
rest is free; every other address does not exist. -/
theorem first_add_ok (hr : Reachable nodeSize g) (hnil : g.blocks = []) (hn : 0 < nodeSize) (hb : base < W) (hl : len < W)
    {ty : MemType} {caps : Nat} (h : g.add nodeSize ty base len caps = (.ok (), g')) :
    ty = .systemMemory ∧ 4096 * nodeSize ≤ len ∧ base + len ≤ g.max ∧ g.locked = false ∧
    ∀ a, cellAt g'.blocks a =
      if base ≤ a ∧ a < base + 4096 * nodeSize then
        some ⟨true, .systemMemory, caps ||| 0x8000000000026000, 0x4008, 6, 0⟩
      else if base ≤ a ∧ a < base + len then
        some ⟨false, .systemMemory, caps ||| 0x8000000000026000, 0x2008, 0, 0⟩
      else if a < g.max then some ⟨false, .nonExistent, 0, 0, 0, 0⟩
      else none := by
  have hi := reachable_inv hr
  have hc0 : g.cap = 0 := by
    rcases hi.inv.map with ⟨h, _⟩ | ⟨_, h, _⟩
    · exact h
    · have := h.tiles
      rw [hnil] at this
      simp only [Tiles] at this
      have := hi.inv.pos
      omega
  unfold Gcd.add at h
  split at h
  · injection h with h; cases h
  split at h
  · injection h with h; cases h
  rename_i hlen0
  split at h
  · injection h with h; cases h
  rename_i hbnd
  have hbnd := Decidable.not_not.1 hbnd
  try rw [if_pos hc0] at h
  unfold Gcd.initBlocks at h
  simp only [] at h
  split at h
  · injection h with h; cases h
  split at h
  · injection h with h; cases h
  rename_i hsz0
  obtain ⟨hty, hsz⟩ := Decidable.not_not.1 hsz0
  have hsl : SLOTS * nodeSize = 4096 * nodeSize := rfl
  rw [hsl] at hsz
  subst hty
  have hf := fresh_inv hi.inv
  have e1 := addSpace_effect (ty := .systemMemory) (base := base) (caps := addCaps .systemMemory caps) hf.inv hl
  have i1 := hf.effect e1 addTr_ok
  obtain ⟨r1, h⟩ := andThen_ok h
  generalize hg1 : Gcd.addSpace _ .systemMemory base len (addCaps .systemMemory caps) = R1 at *
  obtain ⟨o1, g1⟩ := R1
  simp only at r1
  subst r1
  obtain ⟨c0, c1, u0, t0, up1, s1, _⟩ := e1.get
  simp only at h i1
  have e2 := setAttributes_effect (base := base) (attrs := MEMORY_WB ||| MEMORY_XP) i1.inv hl
  have i2 := i1.effect e2 attrTr_ok
  have hok2 := setAttributes_okOr (base := base) (attrs := MEMORY_WB ||| MEMORY_XP) i1.inv hl
  rw [hok2] at h
  obtain ⟨r2, h⟩ := andThen_ok h
  simp only at r2
  generalize hg2 : g1.setAttributes base len (MEMORY_WB ||| MEMORY_XP) = R2 at *
  obtain ⟨o2, g2⟩ := R2
  simp only at r2
  subst r2
  obtain ⟨d1, c2, u1, t1, up2, s2, _⟩ := e2.get
  simp only at h i2
  have e3 := allocate_spec (at_ := .address base) (ty := .systemMemory) (shift := UEFI_PAGE_SHIFT)
    (len := SLOTS * nodeSize) (image := BOOT_DATA_HANDLE) (device := none) i2.inv (by decide) (by rw [hsl]; omega)
    (fun a ha => by injection ha with ha; omega)
  have i3 := i2.alloc e3
  -- the states of the range after each step
  have hlpos : 0 < len := by omega
  have hspos : 0 < 4096 * nodeSize := by omega
  have hc0' : c0 = emptyCell := by
    have := u0.2 base (Nat.le_refl _) (by omega)
    simp only [cellAt] at this
    split at this
    · injection this with this; exact this.symm
    · cases this
  obtain ⟨_, _, _, hc1⟩ := addTr_some t0
  rw [hc0'] at hc1
  have hd1 := uniform_unique u1 (updated_uniform hlpos up1)
  subst hd1
  obtain ⟨_, _, hc2⟩ := attrTr_some t1
  have hca : addCaps .systemMemory (addCaps .systemMemory caps) = caps ||| 0x8000000000026000 := by
    unfold addCaps
    rw [if_neg (by simp), Nat.or_zero, Nat.or_zero, Nat.or_assoc, Nat.or_self]
    have : (MEMORY_ACCESS_MASK ||| MEMORY_RUNTIME) = 0x8000000000026000 := by decide
    rw [this]
  have hc2' : c2 = ⟨false, .systemMemory, caps ||| 0x8000000000026000, 0x4008, 0, 0⟩ := by
    rw [hc2, hc1, hca]; rfl
  generalize hg3 : g2.allocate _ _ _ _ _ _ = R3 at *
  obtain ⟨o3, g3⟩ := R3
  cases e3 with
  | err er _ => simp only at h; injection h with h; cases h
  | ok addr c _ a1 a2 a3 a4 a5 a6 a7 a8 a9 a10 a11 =>
    have haddr : addr = base := a7.2.1
    subst haddr
    simp only at h i3
    have hcc : c = c2 := by
      have x1 := a2.2 addr (Nat.le_refl _) (by rw [hsl]; omega)
      have x2 := (updated_uniform hlpos up2).2 addr (Nat.le_refl _) (by omega)
      rw [x1] at x2; injection x2
    subst hcc
    have hlock : g.locked = false := by
      cases hlk : g.locked with
      | false => rfl
      | true =>
        have : g2.locked = true := by rw [s2.locked, s1.locked]; exact hlk
        unfold Gcd.allocate at hg3
        rw [if_pos this] at hg3
        injection hg3 with hg3; cases hg3
    refine ⟨rfl, hsz, hbnd.2, hlock, ?_⟩
    rw [hsl] at a8 h
    have hfresh : ∀ a, cellAt [(⟨0, g.max, emptyCell⟩ : Block Cell)] a = if a < g.max then some emptyCell else none := by
      intro a
      simp only [cellAt, Nat.zero_le, true_and, Nat.zero_add]
    have hmid : ∀ a, cellAt g3.blocks a = if addr ≤ a ∧ a < addr + 4096 * nodeSize then
          some ⟨true, .systemMemory, caps ||| 0x8000000000026000, 0x4008, 6, 0⟩
        else if addr ≤ a ∧ a < addr + len then some c
        else if a < g.max then some emptyCell else none := by
      intro a
      rw [a8 a, hc2']
      split
      · rfl
      · rw [up2 a, hc2']
        split
        · rfl
        · rename_i hx
          rw [up1 a, if_neg hx]
          exact hfresh a
    unfold Gcd.protectRest at h
    split at h
    · rename_i hgt
      have hadd : addw addr (4096 * nodeSize) = addr + 4096 * nodeSize := by
        unfold addw; exact Nat.mod_eq_of_lt (by omega)
      rw [hadd] at h
      have hl4 : len - 4096 * nodeSize < W := by omega
      have e4 := setAttributes_effect (base := addr + 4096 * nodeSize) (attrs := MEMORY_WB ||| MEMORY_RP) i3.inv hl4
      simp only [] at h
      rw [setAttributes_okOr i3.inv hl4] at h
      generalize g3.setAttributes _ _ _ = R4 at *
      have h : R4 = (.ok (), g') := h
      subst h
      obtain ⟨d3, c4, u3, t3, up4, _, _⟩ := e4.get
      obtain ⟨_, _, hc4⟩ := attrTr_some t3
      have hd3 : d3 = c := by
        have x1 := u3.2 (addr + 4096 * nodeSize) (Nat.le_refl _) (by omega)
        rw [hmid, if_neg (by omega), if_pos (by omega)] at x1
        injection x1 with x1; exact x1.symm
      intro a
      rw [up4 a, hmid a, hc4, hd3, hc2']
      by_cases z1 : addr ≤ a ∧ a < addr + 4096 * nodeSize
      · rw [if_neg (by omega), if_pos z1, if_pos z1]
      · rw [if_neg z1, if_neg z1]
        by_cases z2 : addr ≤ a ∧ a < addr + len
        · rw [if_pos (by omega), if_pos z2]; rfl
        · rw [if_neg (by omega), if_neg z2, if_neg z2]; rfl
    · rename_i hgt
      injection h with _ h
      subst h
      intro a
      rw [hmid a]
      by_cases z1 : addr ≤ a ∧ a < addr + 4096 * nodeSize
      · rw [if_pos z1, if_pos z1]
      · have z2 : ¬ (addr ≤ a ∧ a < addr + len) := by omega
        rw [if_neg z1, if_neg z1, if_neg z2, if_neg z2]; rfl

/-! ### remove -/

/-- C18 (remove): the range was unallocated existing memory; afterwards it does not exist and has no capabilities. (Its
attributes stay behind.) -/
theorem remove_ok (hr : Reachable nodeSize g) (hl : len < W) (h : g.removeSpace base len = (.ok (), g')) :
    ∃ c, Uniform g.blocks base len c ∧ c.allocated = false ∧ c.type ≠ .nonExistent ∧
      Updated g.blocks g'.blocks base len { c with type := .nonExistent, caps := 0 } ∧ SameBut g g' := by
  have he := removeSpace_effect (base := base) (reachable_inv hr).inv hl
  rw [h] at he
  obtain ⟨c, c', h1, h2, h3, h4, _⟩ := he.get
  obtain ⟨a1, a2, a3⟩ := removeTr_some h2
  rw [a3] at h3
  exact ⟨c, h1, a1, a2, h3, h4⟩

theorem remove_err (hr : Reachable nodeSize g) (hl : len < W) {e : EfiError} (h : g.removeSpace base len = (.err e, g')) : g' = g := by
  have he := removeSpace_effect (base := base) (reachable_inv hr).inv hl
  rw [h] at he
  exact he.failed

theorem remove_succeeds (hr : Reachable nodeSize g) (hl : len < W) (hroom : Room g) {c : Cell} (hu : Uniform g.blocks base len c)
    (h1 : c.allocated = false) (h2 : c.type ≠ .nonExistent) : ∃ g', g.removeSpace base len = (.ok (), g') := by
  have hi := (reachable_inv hr).inv
  have hb := addw_le hi hu
  have hp := hu.1
  unfold Gcd.removeSpace
  rw [if_neg (by have := hi.pos; omega), if_neg (by omega), if_neg (by omega)]
  exact change_succeeds hi hl hroom hu (by unfold removeTr; rw [if_pos ⟨h1, h2⟩])

/-- Allocated memory cannot be removed. -/
theorem remove_allocated_denied (hr : Reachable nodeSize g) (hl : len < W) {c : Cell} (hu : Uniform g.blocks base len c)
    (h1 : c.allocated = true) : g.removeSpace base len = (.err .accessDenied, g) := by
  have hi := (reachable_inv hr).inv
  have hb := addw_le hi hu
  have hp := hu.1
  unfold Gcd.removeSpace
  rw [if_neg (by have := hi.pos; omega), if_neg (by omega), if_neg (by omega)]
  have ht : ∀ c', removeTr c ≠ some c' := by
    intro c' h
    have := (removeTr_some h).1
    rw [h1] at this; cases this
  have h := change_spec (g := g) (base := base) (tr := removeTr) (onErr := fun c e =>
    match e with
    | .blockOutsideRange => .notFound
    | .invalidStateTransition => if c.allocated then .accessDenied else .notFound) hi hl
  revert h
  generalize g.change base len removeTr _ = r
  intro h
  cases h with
  | ok d d' g' a1 a2 a3 a4 => rw [uniform_unique a2 hu] at a3; exact absurd a3 (ht _)
  | full a1 a2 => obtain ⟨d, d', a3, a4⟩ := a1; rw [uniform_unique a3 hu] at a4; exact absurd a4 (ht _)
  | invalid d a1 a2 => rw [uniform_unique a1 hu]; simp [h1]
  | outside d a1 => exact absurd hu (a1 c)
  | empty a1 => exact absurd (a1 ▸ hu) uniform_nil

/-! ### set attributes and capabilities -/

/-- C18 (set attributes): the range was existing memory that supports the attributes; only they change. -/
theorem set_attributes_ok (hr : Reachable nodeSize g) (hl : len < W) {attrs : Nat}
    (h : g.setAttributes base len attrs = (.ok (), g')) :
    ∃ c, Uniform g.blocks base len c ∧ c.type ≠ .nonExistent ∧ c.caps ||| attrs = c.caps ∧
      Updated g.blocks g'.blocks base len { c with attrs := attrs } ∧ SameBut g g' := by
  have he := setAttributes_effect (base := base) (attrs := attrs) (reachable_inv hr).inv hl
  rw [h] at he
  obtain ⟨c, c', h1, h2, h3, h4, _⟩ := he.get
  obtain ⟨a1, a2, a3⟩ := attrTr_some h2
  rw [a3] at h3
  exact ⟨c, h1, a1, a2, h3, h4⟩

theorem set_attributes_err (hr : Reachable nodeSize g) (hl : len < W) {attrs : Nat} {e : EfiError}
    (h : g.setAttributes base len attrs = (.err e, g')) : g' = g := by
  have he := setAttributes_effect (base := base) (attrs := attrs) (reachable_inv hr).inv hl
  rw [h] at he
  exact he.failed

theorem set_attributes_succeeds (hr : Reachable nodeSize g) (hl : len < W) (hroom : Room g) {attrs : Nat} {c : Cell}
    (hb : base % 4096 = 0) (hlen : len % 4096 = 0) (hu : Uniform g.blocks base len c)
    (h1 : c.type ≠ .nonExistent) (h2 : c.caps ||| attrs = c.caps) : ∃ g', g.setAttributes base len attrs = (.ok (), g') := by
  have hi := (reachable_inv hr).inv
  have hw := addw_le hi hu
  have hp := hu.1
  unfold Gcd.setAttributes
  rw [if_neg (by have := hi.pos; omega), if_neg (by omega), if_neg (by omega)]
  simp only [pageMask]
  rw [if_neg (fun h => h ⟨hb, hlen⟩)]
  exact change_succeeds hi hl hroom hu (by unfold attrTr; rw [if_pos h1, if_neg (fun h => h h2)])

/-- C18 (set capabilities): the range was existing memory whose attributes are all among the new capabilities; only the
capabilities change. -/
theorem set_capabilities_ok (hr : Reachable nodeSize g) (hl : len < W) {caps : Nat}
    (h : g.setCapabilities base len caps = (.ok (), g')) :
    ∃ c, Uniform g.blocks base len c ∧ c.type ≠ .nonExistent ∧ caps &&& c.attrs = c.attrs ∧
      Updated g.blocks g'.blocks base len { c with caps := caps } ∧ SameBut g g' := by
  have he := setCapabilities_effect (base := base) (caps := caps) (reachable_inv hr).inv hl
  rw [h] at he
  obtain ⟨c, c', h1, h2, h3, h4, _⟩ := he.get
  obtain ⟨a1, a2, a3⟩ := capsTr_some h2
  rw [a3] at h3
  exact ⟨c, h1, a1, a2, h3, h4⟩

theorem set_capabilities_err (hr : Reachable nodeSize g) (hl : len < W) {caps : Nat} {e : EfiError}
    (h : g.setCapabilities base len caps = (.err e, g')) : g' = g := by
  have he := setCapabilities_effect (base := base) (caps := caps) (reachable_inv hr).inv hl
  rw [h] at he
  exact he.failed

theorem set_capabilities_succeeds (hr : Reachable nodeSize g) (hl : len < W) (hroom : Room g) {caps : Nat} {c : Cell}
    (hb : base % 4096 = 0) (hlen : len % 4096 = 0) (hu : Uniform g.blocks base len c)
    (h1 : c.type ≠ .nonExistent) (h2 : caps &&& c.attrs = c.attrs) : ∃ g', g.setCapabilities base len caps = (.ok (), g') := by
  have hi := (reachable_inv hr).inv
  have hw := addw_le hi hu
  have hp := hu.1
  unfold Gcd.setCapabilities
  rw [if_neg (by have := hi.pos; omega), if_neg (by omega), if_neg (by omega)]
  simp only [pageMask]
  rw [if_neg (fun h => h ⟨hb, hlen⟩)]
  exact change_succeeds hi hl hroom hu (by unfold capsTr; rw [if_pos h1, if_neg (fun h => h h2)])

/-! ### free -/

/-- C18 (free): the range was allocated; afterwards it is not, has no device, keeps its owner only if asked to, is
read-protected, and keeps its cache attributes. -/
theorem free_ok (hr : Reachable nodeSize g) (hul : g.locked = false) (hl : len < W) {preserve : Bool}
    (h : g.freeSpace base len preserve = (.ok (), g')) :
    ∃ c, Uniform g.blocks base len c ∧ c.allocated = true ∧ base % 4096 = 0 ∧ len % 4096 = 0 ∧
      Updated g.blocks g'.blocks base len { c with
        allocated := false, image := if preserve then c.image else 0, device := 0, attrs := 0x2000 ||| (c.attrs &&& 0x101F) } ∧
      SameBut g g' := by
  unfold Gcd.freeSpace at h
  rw [if_neg (by rw [hul]; simp)] at h
  have he := freeWorker_spec (base := base) (preserve := preserve) (reachable_inv hr).inv hl
  rw [h] at he
  cases he with
  | ok c c' _ a1 p1 p2 a2 a3 a4 a5 a6 a7 =>
    obtain ⟨f1, f2, f3⟩ := freeTr_some a3
    rw [f3] at a5
    exact ⟨c, a2, f1, p1, p2, a5, a6⟩

/-- A free that fails changes nothing, or it frees the range without setting its attributes. The latter happens only when
read protection is not among the capabilities of the range (which `set_memory_space_capabilities` can bring about), or the
table is full. -/
theorem free_err_partial (hr : Reachable nodeSize g) (hl : len < W) {preserve : Bool} {e : EfiError}
    (h : g.freeSpace base len preserve = (.err e, g')) :
    g' = g ∨ ∃ c, Uniform g.blocks base len c ∧ c.allocated = true ∧ (c.caps.testBit 13 = false ∨ 4096 < g.blocks.length + 4) ∧
      Updated g.blocks g'.blocks base len { c with
        allocated := false, image := if preserve then c.image else 0, device := 0 } := by
  unfold Gcd.freeSpace at h
  split at h
  · injection h with h; cases h
  have hi := reachable_inv hr
  have he := freeWorker_spec (base := base) (preserve := preserve) hi.inv hl
  rw [h] at he
  cases he with
  | err er _ => exact .inl rfl
  | part c c' _ _ a1 p1 p2 a2 a3 a4 a8 a5 a6 a7 =>
    obtain ⟨f1, f2, f3⟩ := freeTr_some a3
    rw [f3] at a5
    refine .inr ⟨c, a2, f1, ?_, a5⟩
    rcases a4 with a4 | a4
    · left
      cases hb : c.caps.testBit 13 with
      | false => rfl
      | true =>
        refine absurd ?_ a4
        have hcc := (hi.cells base c (a2.2 base (Nat.le_refl _) (by have := a2.1; omega))).attrs f2
        apply Nat.eq_of_testBit_eq
        intro i
        have hci := congrArg (fun n => n.testBit i) hcc
        simp only [Nat.testBit_or] at hci
        unfold freedAttrs
        rw [Nat.testBit_or, Nat.testBit_or, Nat.testBit_and]
        have hrp : MEMORY_RP = 2 ^ 13 := by decide
        rw [hrp, Nat.testBit_two_pow]
        by_cases h13 : 13 = i
        · subst h13; simp [hb]
        · simp only [h13, decide_false, Bool.false_or]
          cases hx : c.caps.testBit i with
          | true => rfl
          | false =>
            rw [hx] at hci
            simp only [Bool.false_or] at hci
            simp [hci]
    · right
      unfold SLOTS at a4; omega

/-- A page-aligned allocated range can be freed; the call fails (after freeing) only if read protection is not among the
capabilities of the range. -/
theorem free_succeeds (hr : Reachable nodeSize g) (hul : g.locked = false) (hl : len < W) (hroom : g.blocks.length + 4 ≤ 4096)
    (preserve : Bool) {c : Cell} (hb : base % 4096 = 0) (hlen : len % 4096 = 0) (hu : Uniform g.blocks base len c)
    (h1 : c.allocated = true) :
    ∃ g', (g.freeSpace base len preserve = (.ok (), g') ∨
      (c.caps.testBit 13 = false ∧ ∃ e, g.freeSpace base len preserve = (.err e, g'))) ∧
      ∀ a, base ≤ a → a < base + len → ∃ d, cellAt g'.blocks a = some d ∧ d.allocated = false := by
  have hi := reachable_inv hr
  have hcc := hi.cells base c (hu.2 base (Nat.le_refl _) (by have := hu.1; omega))
  have hacc : Accepts g base len (freeTr preserve) := ⟨c, _, hu, by unfold freeTr; rw [if_pos ⟨h1, (hcc.alloc h1).1⟩]⟩
  have he := freeWorker_spec (base := base) (preserve := preserve) hi.inv hl
  have hfw : g.freeSpace base len preserve = g.freeWorker base len preserve := by
    unfold Gcd.freeSpace; rw [if_neg (by rw [hul]; simp)]
  generalize hR : g.freeSpace base len preserve = R
  rw [hfw] at hR
  rw [hR] at he
  have hpart := fun e g' => free_err_partial (g' := g') (base := base) (preserve := preserve) (e := e) hr hl
  cases he with
  | err er hx => have := hx hb hlen hacc; unfold SLOTS at this; omega
  | ok d c' g' a1 p1 p2 a2 a3 a4 a5 a6 a7 =>
    refine ⟨g', .inl rfl, fun a ha1 ha2 => ⟨_, by rw [a5 a, if_pos ⟨ha1, ha2⟩], ?_⟩⟩
    rw [(freeTr_some a3).2.2]
  | part d c' er g' a1 p1 p2 a2 a3 a4 a8 a5 a6 a7 =>
    have hg := hpart er g' (by rw [hfw, hR])
    refine ⟨g', .inr ⟨?_, er, rfl⟩, fun a ha1 ha2 => ⟨_, by rw [a5 a, if_pos ⟨ha1, ha2⟩], ?_⟩⟩
    · rcases hg with hg | ⟨d', u1, _, hor, _⟩
      · exfalso
        have x1 := a5 base
        rw [if_pos ⟨Nat.le_refl _, by have := hu.1; omega⟩, hg, hu.2 base (Nat.le_refl _) (by have := hu.1; omega)] at x1
        injection x1 with x1
        rw [(freeTr_some a3).2.2] at x1
        rw [x1] at h1
        cases h1
      · rw [uniform_unique u1 hu] at hor
        rcases hor with hor | hor
        · exact hor
        · omega
    · rw [(freeTr_some a3).2.2]

/-- While the memory space is locked, a free reports success and does nothing. -/
theorem locked_free (hlk : g.locked = true) (preserve : Bool) : g.freeSpace base len preserve = (.ok (), g) := by
  unfold Gcd.freeSpace; rw [if_pos hlk]

/-! ### Concrete cases, and where the code falls short -/

/-- The hypotheses of the `_succeeds` theorems are met in `demoGcd`. -/
example : Room demoGcd ∧ Uniform demoGcd.blocks 0xFC000 0x2000 ⟨true, .systemMemory, 0x800000000002600F, 0x2008, 7, 3⟩ := by
  refine ⟨by unfold Room; decide +kernel, by omega, ?_⟩
  have hb : (⟨0xFC000, 0x2000, ⟨true, .systemMemory, 0x800000000002600F, 0x2008, 7, 3⟩⟩ : Block Cell) ∈ demoGcd.blocks := by
    decide +kernel
  have hg : Good demoGcd.blocks demoGcd.max := by
    rcases (reachable_inv demo_reachable).inv.map with ⟨_, h⟩ | ⟨_, h, _⟩
    · rw [h] at hb; cases hb
    · exact h
  exact (holds_uniform hg.tiles hb ⟨by decide, by decide, by decide⟩).2

example : (demoGcd.freeSpace 0xFC000 0x2000 false).1 = .ok () ∧ (demoGcd.removeSpace 0x201000 0x1000).1 = .ok () ∧
    (demoGcd.setAttributes 0x201000 0x1000 1).1 = .ok () ∧ (demoGcd.setCapabilities 0x201000 0x1000 0x2001).1 = .ok () ∧
    (demoGcd.add 1 .reserved 0x400123 0x77 0).1 = .ok () ∧ ((Gcd.start 36 true).add 1 .systemMemory 0x8000 0x4000 8).1 = .ok () := by
  decide +kernel

/-- A free can report an error and yet have freed the memory: here read protection was removed from the capabilities. -/
theorem free_error_after_freeing :
    let g := demoGcd.run 1 [.setAttributes 0xFC000 0x2000 8, .setCapabilities 0xFC000 0x2000 8]
    ∃ e g', g.freeSpace 0xFC000 0x2000 false = (.err e, g') ∧
      (cellAt g.blocks 0xFC000).map Cell.allocated = some true ∧ (cellAt g'.blocks 0xFC000).map Cell.allocated = some false := by
  refine ⟨.unsupported, ((demoGcd.run 1 [.setAttributes 0xFC000 0x2000 8, .setCapabilities 0xFC000 0x2000 8]).freeSpace
    0xFC000 0x2000 false).2, ?_⟩
  decide +kernel

/-- The first add of memory whose base is not page-aligned reports an error and yet adds the memory. -/
theorem first_add_error_after_adding :
    ∃ e g', (Gcd.start 36 false).add 1 .systemMemory 0x800 0x4000 8 = (.err e, g') ∧
      (cellAt g'.blocks 0x800).map Cell.type = some .systemMemory := by
  refine ⟨.invalidParameter, ((Gcd.start 36 false).add 1 .systemMemory 0x800 0x4000 8).2, ?_⟩
  decide +kernel

/-- Removing memory just added does not restore the map: the attributes stay behind. -/
theorem remove_keeps_attributes :
    (demoGcd.run 1 [.add .reserved 0x400000 0x1000 0, .remove 0x400000 0x1000]).blocks ≠ demoGcd.blocks ∧
    cellAt (demoGcd.run 1 [.add .reserved 0x400000 0x1000 0, .remove 0x400000 0x1000]).blocks 0x400000 =
      some ⟨false, .nonExistent, 0, 0x2000, 0, 0⟩ := by
  decide +kernel

end Verif.Gcd
