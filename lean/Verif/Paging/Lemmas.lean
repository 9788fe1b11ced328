import Verif.Paging.Spec
namespace Verif.Paging
open Verif.Gcd

variable {ns : Nat} {g g' g'' : Gcd}

/-! ### The number of blocks -/

/-- The addresses where a new block starts. -/
def starts {σ : Type} (l : List (Block σ)) : List Nat := l.map (·.base)

theorem starts_nodup {σ : Type} {s e : Nat} {l : List (Block σ)} (h : Tiles s l e) : (starts l).Nodup := by
  induction l generalizing s with
  | nil => exact List.nodup_nil
  | cons b l ih =>
    refine List.nodup_cons.2 ⟨fun hm => ?_, ih h.2.2⟩
    obtain ⟨x, hx, e1⟩ := List.mem_map.1 hm
    have := (tiles_mem h.2.2 hx).1
    have := h.1; have := h.2.1
    have e2 : x.base = b.base := e1
    omega

/-- A block other than the first starts where the state changes. -/
theorem start_changes {σ : Type} {s e : Nat} {l : List (Block σ)} (h : Tiles s l e) (hc : Coalesced l) {b : Block σ} (hb : b ∈ l)
    (hs : s < b.base) : cellAt l (b.base - 1) ≠ cellAt l b.base := by
  induction l generalizing s with
  | nil => cases hb
  | cons x l ih =>
    have hx := h.1; have hx2 := h.2.1
    rcases List.mem_cons.1 hb with rfl | hb
    · omega
    · have h3 := tiles_mem h.2.2 hb
      cases l with
      | nil => cases hb
      | cons y l =>
        have hy := h.2.2.1
        by_cases hby : b.base = y.base
        · have e1 : cellAt (x :: y :: l) (b.base - 1) = some x.st := by
            unfold cellAt; rw [if_pos (by omega)]
          have e2 : cellAt (x :: y :: l) b.base = some y.st := by
            unfold cellAt; rw [if_neg (by omega)]; unfold cellAt
            have := h.2.2.2.1
            rw [if_pos (by omega)]
          rw [e1, e2]
          intro e
          injection e with e
          exact hc.1 e
        · have hlt : x.base + x.len < b.base := by omega
          have := ih (s := s + x.len) h.2.2 hc.2 hb (by omega)
          have e1 : ∀ a, x.base + x.len ≤ a → cellAt (x :: y :: l) a = cellAt (y :: l) a := fun a ha => by
            rw [cellAt, if_neg (by omega)]
          rw [e1 _ (by omega), e1 _ (by omega)]
          exact this

/-- Where the state changes, a block starts. -/
theorem change_starts {σ : Type} {s e : Nat} {l : List (Block σ)} (h : Tiles s l e) {a : Nat} (h1 : s < a) (h2 : a < e)
    (hne : cellAt l (a - 1) ≠ cellAt l a) : a ∈ starts l := by
  obtain ⟨b, hb, b1, b2, b3⟩ := cellAt_some h (by omega) h2
  by_cases hab : a = b.base
  · exact List.mem_map.2 ⟨b, hb, hab.symm⟩
  · have := cellAt_mem h hb (a := a - 1) (by omega) (by omega)
    rw [this, b3] at hne
    exact absurd rfl hne

/-- Changing one range to one state adds at most two blocks. -/
theorem updated_length {σ : Type} {old new : List (Block σ)} {e base len : Nat} {c : σ} (h1 : Good old e) (h2 : Good new e)
    (h : Updated old new base len c) : new.length ≤ old.length + 2 := by
  have hsub : starts new ⊆ base :: (base + len) :: starts old := by
    intro a ha
    obtain ⟨b, hb, rfl⟩ := List.mem_map.1 ha
    have hbb := tiles_mem h2.tiles hb
    by_cases h0 : b.base = base
    · rw [h0]; exact List.mem_cons_self
    by_cases h00 : b.base = base + len
    · rw [h00]; exact List.mem_cons_of_mem _ List.mem_cons_self
    refine List.mem_cons_of_mem _ (List.mem_cons_of_mem _ ?_)
    by_cases hz : b.base = 0
    · cases old with
      | nil =>
        have := h1.tiles
        simp only [Tiles] at this
        omega
      | cons x l =>
        have := h1.tiles.1
        exact List.mem_map.2 ⟨x, List.mem_cons_self, by rw [this, hz]⟩
    · have hc := start_changes h2.tiles h2.coal hb (by omega)
      rw [h, h] at hc
      by_cases hin : base ≤ b.base ∧ b.base < base + len
      · rw [if_pos (by omega), if_pos hin] at hc
        exact absurd rfl hc
      · rw [if_neg (by omega), if_neg hin] at hc
        exact change_starts h1.tiles (by omega) (by omega) hc
  have := (starts_nodup h2.tiles).length_le_of_subset hsub
  simpa [starts] using this

/-! ### What the page table's own allocations leave alone -/

/-- The part of the state of an address that matters to the page table. -/
def sameFace (c c' : Cell) : Prop := c'.type = c.type ∧ c'.caps = c.caps ∧ c'.attrs = c.attrs

/-- `g'` is a later state of the memory space: reachable, of the same size, not locked or unlocked meanwhile. -/
structure Later (ns : Nat) (g g' : Gcd) : Prop where
  reach : Reachable ns g'
  max : g'.max = g.max
  some : g.blocks ≠ [] → g'.blocks ≠ []
  locked : g'.locked = g.locked

theorem Later.refl (hr : Reachable ns g) : Later ns g g := ⟨hr, rfl, id, rfl⟩

theorem Later.trans (h1 : Later ns g g') (h2 : Later ns g' g'') : Later ns g g'' :=
  ⟨h2.reach, h2.max.trans h1.max, fun h => h2.some (h1.some h), h2.locked.trans h1.locked⟩

theorem reach_step (hr : Reachable ns g) {op : Op} (ho : op.InRange) : Reachable ns (g.step ns op) := by
  have := reachable_run (ops := [op]) hr (fun o h => by rw [List.mem_singleton] at h; rw [h]; exact ho)
  exact this

theorem later_step (hr : Reachable ns g) {op : Op} (ho : op.InRange) (hk : (g.step ns op).locked = g.locked) :
    Later ns g (g.step ns op) := by
  have hs := step_same (nodeSize := ns) (reachable_inv hr) ho
  refine ⟨reach_step hr ho, hs.1, fun hne => ?_, hk⟩
  exact (partition_stays (ops := [op]) hr hne (fun o h => by rw [List.mem_singleton] at h; rw [h]; exact ho)).1

theorem good_of (hr : Reachable ns g) (hne : g.blocks ≠ []) : Good g.blocks g.max := by
  rcases (reachable_inv hr).inv.map with ⟨_, h⟩ | ⟨_, h, _⟩
  · exact absurd h hne
  · exact h

theorem ne_of_cell {a : Nat} {c : Cell} (h : cellAt g.blocks a = some c) : g.blocks ≠ [] := by
  intro e; rw [e] at h; cases h

theorem ne_of_uniform {base len : Nat} {c : Cell} (h : Uniform g.blocks base len c) : g.blocks ≠ [] := by
  intro e; rw [e] at h; exact uniform_nil h

/-- The page table took memory, or nothing happened: no address changes its type, capabilities or attributes, and allocated
memory does not change at all. -/
structure Quiet (ns : Nat) (g g' : Gcd) : Prop where
  later : Later ns g g'
  face : ∀ a c, cellAt g.blocks a = Option.some c → ∃ c', cellAt g'.blocks a = Option.some c' ∧ sameFace c c' ∧ (c.allocated = true → c' = c)
  size : g'.blocks.length ≤ g.blocks.length + 2

theorem Quiet.refl (hr : Reachable ns g) : Quiet ns g g :=
  ⟨.refl hr, fun _ c h => ⟨c, h, ⟨rfl, rfl, rfl⟩, fun _ => rfl⟩, by omega⟩

theorem refillReq : ReqOk (.topDown none) UEFI_PAGE_SHIFT (512 * 4096) := by
  unfold ReqOk Op.InRange
  exact ⟨by unfold W; decide, by decide, trivial⟩

theorem allocate_later (hr : Reachable ns g) {at_ : AllocType} {ty : MemType} {shift len image addr : Nat} {device : Option Nat}
    (hq : ReqOk at_ shift len) (h : g.allocate at_ ty shift len image device = (.ok addr, g')) :
    Later ns g g' ∧ g'.blocks.length ≤ g.blocks.length + 2 := by
  have hs : g.step ns (.allocate at_ ty shift len image device) = g' := by
    show (g.allocate at_ ty shift len image device).2 = g'
    rw [h]
  obtain ⟨_, _, _, _, _, c, hu, _, _, _, _, _, hup, hsb⟩ := allocate_ok hr hq h
  have hl : Later ns g g' := by
    rw [← hs]
    refine later_step hr ?_ (by rw [hs]; exact hsb.locked)
    exact hq
  refine ⟨hl, ?_⟩
  have hne := ne_of_uniform hu
  have g2 := good_of hl.reach (hl.some hne)
  rw [hl.max] at g2
  exact updated_length (good_of hr hne) g2 hup

theorem refill_quiet {f : Faults} {m m' : Mem} {base : Nat} (hr : Reachable ns m.gcd) (h : m.refill f base = some m') :
    m' = { m with gcd := m'.gcd } ∧ Quiet ns m.gcd m'.gcd := by
  unfold Mem.refill at h
  split at h
  · split at h
    · rename_i addr g hal
      injection h with h; subst h
      refine ⟨rfl, ?_⟩
      have hl := allocate_later hr refillReq hal
      obtain ⟨_, _, _, _, _, c, hu, hca, _, _, _, _, hup, _⟩ := allocate_ok hr refillReq hal
      refine ⟨hl.1, fun a x hx => ?_, hl.2⟩
      rw [hup a]
      by_cases ha : addr ≤ a ∧ a < addr + 512 * 4096
      · rw [if_pos ha]
        have := hu.2 a ha.1 ha.2
        rw [hx] at this
        injection this with this
        subst this
        exact ⟨_, rfl, ⟨rfl, rfl, rfl⟩, fun hh => by rw [hca] at hh; cases hh⟩
      · rw [if_neg ha]; exact ⟨x, hx, ⟨rfl, rfl, rfl⟩, fun _ => rfl⟩
    · cases h
  · injection h with h; subst h
    exact ⟨rfl, .refl hr⟩

/-! ### Setting the attributes in the memory space -/

theorem setAttributes_aligned {base len attrs : Nat} (h : g.setAttributes base len attrs = (.ok (), g')) :
    base % 4096 = 0 ∧ len % 4096 = 0 := by
  unfold Gcd.setAttributes at h
  split at h
  · cases h
  split at h
  · cases h
  split at h
  · cases h
  split at h
  · cases h
  · rename_i hh
    simp only [pageMask] at hh
    exact Classical.not_not.1 hh

/-- The memory space set the attributes, or refused and changed nothing. -/
theorem setGcd_cases {m : Mem} {base len attrs : Nat} (hr : Reachable ns m.gcd) (hb : base < W) (hl : len < W) (ha : attrs < W) :
    (∃ g', m.setGcd base len attrs = { m with gcd := g' } ∧ Later ns m.gcd g' ∧ g'.blocks.length ≤ m.gcd.blocks.length + 2 ∧
      base % 4096 = 0 ∧ len % 4096 = 0 ∧
      ∃ c, Uniform m.gcd.blocks base len c ∧ c.type ≠ .nonExistent ∧ c.caps ||| attrs = c.caps ∧
        Updated m.gcd.blocks g'.blocks base len { c with attrs := attrs }) ∨
    m.setGcd base len attrs = { m with refusals := m.refusals + 1 } := by
  unfold Mem.setGcd
  rcases hx : m.gcd.setAttributes base len attrs with ⟨r, g'⟩
  cases r with
  | ok u =>
    left
    obtain ⟨c, hu, h1, h2, h3, h4⟩ := set_attributes_ok hr hl hx
    have hs : m.gcd.step ns (.setAttributes base len attrs) = g' := by
      show (m.gcd.setAttributes base len attrs).2 = g'
      rw [hx]
    have hlt : Later ns m.gcd g' := by
      rw [← hs]
      exact later_step hr ⟨hb, hl, ha⟩ (by rw [hs]; exact h4.locked)
    have hne := ne_of_uniform hu
    have g2 := good_of hlt.reach (hlt.some hne)
    rw [hlt.max] at g2
    exact ⟨g', rfl, hlt, updated_length (good_of hr hne) g2 h3, (setAttributes_aligned hx).1, (setAttributes_aligned hx).2, c, hu, h1, h2, h3⟩
  | err e =>
    right
    rw [set_attributes_err hr hl hx]
  | panic =>
    exfalso
    have he := setAttributes_effect (base := base) (attrs := attrs) (reachable_inv hr).inv hl
    rw [hx] at he
    cases he

theorem setGcd_later {m : Mem} {base len attrs : Nat} (hr : Reachable ns m.gcd) (hb : base < W) (hl : len < W) (ha : attrs < W) :
    Later ns m.gcd (m.setGcd base len attrs).gcd ∧ (m.setGcd base len attrs).table = m.table ∧
      (m.setGcd base len attrs).dflt = m.dflt ∧ m.refusals ≤ (m.setGcd base len attrs).refusals ∧
      (m.setGcd base len attrs).gcd.blocks.length ≤ m.gcd.blocks.length + 2 := by
  rcases setGcd_cases (ns := ns) hr hb hl ha with ⟨g', e, h1, h2, _⟩ | e
  · rw [e]; exact ⟨h1, rfl, rfl, Nat.le_refl _, h2⟩
  · rw [e]; exact ⟨.refl hr, rfl, rfl, Nat.le_succ _, Nat.le_add_right _ _⟩

/-- If there is room, a supported change is not refused. -/
theorem setGcd_accepted {m : Mem} {base len attrs : Nat} {c : Cell} (hr : Reachable ns m.gcd) (hl : len < W)
    (hroom : Room m.gcd) (h1 : base % 4096 = 0) (h2 : len % 4096 = 0) (hu : Uniform m.gcd.blocks base len c)
    (h3 : c.type ≠ .nonExistent) (h4 : c.caps ||| attrs = c.caps) : (m.setGcd base len attrs).refusals = m.refusals := by
  obtain ⟨g', e⟩ := set_attributes_succeeds hr hl hroom h1 h2 hu h3 h4
  unfold Mem.setGcd
  rw [e]

end Verif.Paging
