import Verif.Gcd.Invariant
/-!
C17–C20: the memory space of the GCD. Everything is stated about `cellAt`, the state of one address, and about the list of
descriptors; `Reachable` ranges over all address widths and all histories of calls.
-/
namespace Verif.Gcd

/-! ### C17: the map is a partition -/

theorem Effect.same {g : Gcd} {base len : Nat} {tr : Cell → Option Cell} {r : Ret Unit} (h : Effect g base len tr r) :
    r.2.max = g.max ∧ r.2.cap = g.cap := by
  cases h with
  | err er => exact ⟨rfl, rfl⟩
  | ok c c' g' h1 h2 h3 h4 h5 h6 => exact ⟨h5.max, h5.cap⟩

theorem Alloc.same {g : Gcd} {len image : Nat} {device : Option Nat} {respect : Bool} {ok hit : Nat → Prop} {best : Nat → Nat → Prop}
    {r : Ret Nat} (h : Alloc g len image device respect ok hit best r) : r.2.max = g.max ∧ r.2.cap = g.cap := by
  cases h with
  | err er => exact ⟨rfl, rfl⟩
  | ok addr c g' a1 a2 a3 a4 a5 a6 a7 a8 a9 a10 a11 => exact ⟨a9.max, a9.cap⟩

theorem andThen_same {α : Type} {r : Ret Unit} {f : Gcd → Ret α} {m : Nat} (h : r.2.max = m) (hf : (f r.2).2.max = m) :
    (andThen r f).2.max = m := by
  unfold andThen
  obtain ⟨o, g⟩ := r
  cases o <;> assumption

theorem initBlocks_max {g : Gcd} (h : Inv2 g) {nodeSize : Nat} {ty : MemType} {base len caps : Nat} (hb : base < W) (hl : len < W) :
    (g.initBlocks nodeSize ty base len caps).2.max = g.max := by
  unfold Gcd.initBlocks
  simp only []
  split
  · rfl
  · split
    · rfl
    · rename_i hsz
      have hsz := Decidable.not_not.1 hsz
      have hf := fresh_inv h.inv
      have e1 := addSpace_effect (ty := ty) (base := base) (caps := caps) hf.inv hl
      have i1 := hf.effect e1 addTr_ok
      refine andThen_same e1.same.1 ?_
      have m1 := e1.same.1
      generalize hg1 : (Gcd.addSpace _ ty base len caps).2 = g1 at *
      change g1.max = g.max at m1
      have e2 := setAttributes_effect (base := base) (attrs := MEMORY_WB ||| MEMORY_XP) i1.inv hl
      have i2 := i1.effect e2 attrTr_ok
      refine andThen_same (e2.same.1.trans m1) ?_
      have m2 := e2.same.1.trans m1
      generalize hg2 : (g1.setAttributes base len (MEMORY_WB ||| MEMORY_XP)).2 = g2 at *
      have e3 := allocate_spec (at_ := .address base) (ty := .systemMemory) (shift := UEFI_PAGE_SHIFT)
        (len := SLOTS * nodeSize) (image := BOOT_DATA_HANDLE) (device := none) i2.inv (by decide) (by have := hsz.2; omega)
        (fun a ha => by injection ha with ha; omega)
      have i3 := i2.alloc e3
      have m3 := e3.same.1.trans m2
      split
      · rename_i heq
        rw [heq] at i3 m3
        unfold Gcd.protectRest
        split
        · exact (setAttributes_effect i3.inv (by omega)).same.1.trans m3
        · exact m3
      · rename_i heq; rw [heq] at m3; exact m3
      · rename_i heq; rw [heq] at m3; exact m3

theorem step_same {nodeSize : Nat} {g : Gcd} (h : Inv2 g) {op : Op} (ho : op.InRange) :
    (g.step nodeSize op).max = g.max ∧ (g.cap = SLOTS → (g.step nodeSize op).cap = SLOTS) := by
  have fin : ∀ g' : Gcd, g'.max = g.max ∧ g'.cap = g.cap → g'.max = g.max ∧ (g.cap = SLOTS → g'.cap = SLOTS) :=
    fun g' h => ⟨h.1, fun hc => h.2.trans hc⟩
  cases op with
  | add ty base len caps =>
    show (g.add nodeSize ty base len caps).2.max = g.max ∧ _
    simp only [Gcd.step]
    unfold Gcd.add
    split
    · exact ⟨rfl, id⟩
    · split
      · exact ⟨rfl, id⟩
      · split
        · exact ⟨rfl, id⟩
        · split
          · rename_i h0
            exact ⟨initBlocks_max h ho.1 ho.2.1, fun hc => by rw [h0] at hc; cases hc⟩
          · exact fin _ (addSpace_effect h.inv ho.2.1).same
  | remove base len => exact fin _ (removeSpace_effect h.inv ho.2).same
  | allocate at_ ty shift len image device =>
    refine fin _ (allocate_spec h.inv ho.2.1 ho.1 fun a ha => ?_).same
    have := ho.2.2
    rw [ha] at this
    exact this
  | free base len preserve =>
    apply fin
    simp only [Gcd.step]
    unfold Gcd.freeSpace
    split
    · exact ⟨rfl, rfl⟩
    · have hf := freeWorker_spec (base := base) (preserve := preserve) h.inv ho.2
      revert hf
      generalize g.freeWorker base len preserve = r
      intro hf
      cases hf with
      | err er _ => exact ⟨rfl, rfl⟩
      | ok c c' g' a1 _ _ a2 a3 a4 a5 a6 a7 => exact ⟨a6.max, a6.cap⟩
      | part c c' er g' a1 _ _ a2 a3 a4 _ a5 a6 a7 => exact ⟨a6.max, a6.cap⟩
  | setAttributes base len attrs => exact fin _ (setAttributes_effect h.inv ho.2.1).same
  | setCapabilities base len caps => exact fin _ (setCapabilities_effect h.inv ho.2.1).same
  | lock => exact ⟨rfl, id⟩
  | unlock => exact ⟨rfl, id⟩
  | prioritize32 b => exact ⟨rfl, id⟩

theorem run_same {nodeSize : Nat} {g : Gcd} (h : Inv2 g) {ops : List Op} (ho : ∀ op ∈ ops, Op.InRange op) :
    (g.run nodeSize ops).max = g.max ∧ (g.cap = SLOTS → (g.run nodeSize ops).cap = SLOTS) := by
  induction ops generalizing g with
  | nil => exact ⟨rfl, id⟩
  | cons op ops ih =>
    have h1 := step_same (nodeSize := nodeSize) h (ho op (by simp))
    have h2 := ih (step_inv (nodeSize := nodeSize) h (ho op (by simp))) fun o h => ho o (by simp [h])
    exact ⟨h2.1.trans h1.1, fun hc => h2.2 (h1.2 hc)⟩

/-- C17: for every address width and every history of calls, the descriptors are in order, non-empty, contiguous, cover all of
`[0, 2^bits)`, and no two neighbours could be merged; there are none before memory is first added. -/
theorem descriptors_partition (nodeSize bits : Nat) (prio : Bool) (ops : List Op) (hb : bits < 64) (ho : ∀ op ∈ ops, Op.InRange op) :
    ∃ l, ((Gcd.start bits prio).run nodeSize ops).descriptors = .ok l ∧
      (l = [] ∨ (Tiles 0 l (2 ^ bits) ∧ Coalesced l ∧ l.length ≤ 4096)) := by
  have hi := run_inv (nodeSize := nodeSize) (start_inv bits prio) ho
  have hm : ((Gcd.start bits prio).run nodeSize ops).max = 2 ^ bits := by
    rw [(run_same (start_inv bits prio) ho).1]
    exact oneShl_eq hb
  refine ⟨_, by unfold Gcd.descriptors; rw [if_neg (by have := hi.inv.pos; omega)], ?_⟩
  rcases hi.inv.map with ⟨_, h⟩ | ⟨_, h, hl⟩
  · exact .inl h
  · exact .inr ⟨by rw [← hm]; exact h.tiles, h.coal, hl⟩

/-- Once memory has been added, the map stays a partition. -/
theorem partition_stays {nodeSize : Nat} {g : Gcd} (hr : Reachable nodeSize g) (hne : g.blocks ≠ []) {ops : List Op}
    (ho : ∀ op ∈ ops, Op.InRange op) : (g.run nodeSize ops).blocks ≠ [] ∧ Tiles 0 (g.run nodeSize ops).blocks g.max := by
  have hi := reachable_inv hr
  have hc : g.cap = SLOTS := by
    rcases hi.inv.map with ⟨_, h⟩ | ⟨h, _⟩
    · exact absurd h hne
    · exact h
  have hs := run_same (nodeSize := nodeSize) hi ho
  have hi' := run_inv (nodeSize := nodeSize) hi ho
  rcases hi'.inv.map with ⟨h, _⟩ | ⟨_, h, _⟩
  · rw [hs.2 hc] at h; cases h
  · rw [hs.1] at h
    refine ⟨fun hn => ?_, h.tiles⟩
    have := h.tiles
    rw [hn] at this
    simp only [Tiles] at this
    have := hi.inv.pos
    omega

/-- In every reachable map: an address of existing memory has no attribute in force that is not among its capabilities, and
allocated addresses are existing, accepted memory with an owner. -/
theorem cells_ok {nodeSize : Nat} {g : Gcd} (hr : Reachable nodeSize g) {a : Nat} {c : Cell} (hc : cellAt g.blocks a = some c) :
    (c.type ≠ .nonExistent → c.caps ||| c.attrs = c.caps) ∧
    (c.allocated = true → c.type ≠ .nonExistent ∧ c.type ≠ .unaccepted ∧ c.image ≠ 0) :=
  ⟨((reachable_inv hr).cells a c hc).attrs, ((reachable_inv hr).cells a c hc).alloc⟩

/-- The descriptor reported for an address is the one that contains it. -/
theorem descriptor_contains {nodeSize : Nat} {g : Gcd} (hr : Reachable nodeSize g) (hne : g.blocks ≠ []) {a : Nat} (ha : a < g.max) :
    ∃ b, g.descriptorFor a = .ok b ∧ b ∈ g.blocks ∧ b.base ≤ a ∧ a < b.base + b.len ∧ cellAt g.blocks a = some b.st := by
  have hi := (reachable_inv hr).inv
  refine descriptorFor_spec hi ?_ a ha
  rcases hi.map with ⟨_, h⟩ | ⟨h, _⟩
  · exact absurd h hne
  · exact h

/-- A history used below: two ranges added, allocations from both ends, a free that keeps the owner, attributes on part of a
range, and part of the second range removed. -/
def demo : List Op :=
  [.add .systemMemory 0 0x100000 0xF, .add .memoryMappedIo 0x200000 0x10000 1,
   .allocate (.bottomUp none) .systemMemory 12 0x3000 9 none,
   .allocate (.topDown (some 0xFFFFFFFF)) .systemMemory 14 0x2000 7 (some 3),
   .free 0x1000 0x3000 true, .setAttributes 0x8000 0x1000 8, .remove 0x200000 0x1000]

def demoGcd : Gcd := (Gcd.start 32 false).run 1 demo

theorem demo_reachable : Reachable 1 demoGcd := by
  refine ⟨32, false, demo, ?_, rfl⟩
  intro op hop
  simp only [demo, List.mem_cons, List.not_mem_nil, or_false] at hop
  rcases hop with h | h | h | h | h | h | h <;> subst h <;> simp [Op.InRange, W]

example : demoGcd.blocks.map (fun b => (b.base, b.len, b.st.allocated, b.st.image)) =
    [(0, 0x1000, true, 6), (0x1000, 0x3000, false, 9), (0x4000, 0x4000, false, 0), (0x8000, 0x1000, false, 0),
     (0x9000, 0xF3000, false, 0), (0xFC000, 0x2000, true, 7), (0xFE000, 0x2000, false, 0), (0x100000, 0x100000, false, 0),
     (0x200000, 0x1000, false, 0), (0x201000, 0xF000, false, 0), (0x210000, 0xFFDF0000, false, 0)] := by decide +kernel

end Verif.Gcd
