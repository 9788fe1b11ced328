import Verif.Gcd.Ops
namespace Verif.Gcd

/-- What holds of every address. -/
structure CellOk (c : Cell) : Prop where
  attrs : c.type ≠ .nonExistent → c.caps ||| c.attrs = c.caps
  alloc : c.allocated = true → c.type ≠ .nonExistent ∧ c.type ≠ .unaccepted ∧ c.image ≠ 0

/-- The invariant of the memory space. -/
structure Inv2 (g : Gcd) : Prop where
  inv : Inv g
  cells : ∀ a c, cellAt g.blocks a = some c → CellOk c

theorem Inv2.update {g g' : Gcd} (h : Inv2 g) (hi : Inv g') {base len : Nat} {c c' : Cell} (hu : Uniform g.blocks base len c)
    (hup : Updated g.blocks g'.blocks base len c') (hc : CellOk c → CellOk c') : Inv2 g' := by
  refine ⟨hi, fun a x hx => ?_⟩
  rw [hup a] at hx
  split at hx
  · rename_i ha
    injection hx with hx
    subst hx
    exact hc (h.cells a c (hu.2 a ha.1 ha.2))
  · exact h.cells a x hx

theorem Inv2.effect {g : Gcd} (h : Inv2 g) {base len : Nat} {tr : Cell → Option Cell} {r : Ret Unit} (he : Effect g base len tr r)
    (ht : ∀ c c', tr c = some c' → CellOk c → CellOk c') : Inv2 r.2 := by
  cases he with
  | err er => exact h
  | ok c c' g' h1 h2 h3 h4 h5 h6 => exact h.update h6 h2 h4 (ht c c' h3)

theorem rp_in_caps (ty : MemType) (caps : Nat) : addCaps ty caps ||| MEMORY_RP = addCaps ty caps := by
  have h : ∀ i, MEMORY_RP.testBit i = true → (addCaps ty caps).testBit i = true := by
    intro i hi
    unfold addCaps MEMORY_ACCESS_MASK
    simp only [Nat.testBit_or, hi, Bool.true_or, Bool.or_true]
  apply Nat.eq_of_testBit_eq
  intro i
  rw [Nat.testBit_or]
  cases hr : MEMORY_RP.testBit i with
  | false => simp
  | true => rw [h i hr]; rfl

theorem addTr_some {ty : MemType} {caps attrs : Nat} {c c' : Cell} (h : addTr ty caps attrs c = some c') :
    c.allocated = false ∧ c.type = .nonExistent ∧ ty ≠ .nonExistent ∧ c' = { c with type := ty, caps := caps, attrs := attrs } := by
  unfold addTr at h
  split at h
  · rename_i h1; injection h with h; exact ⟨h1.1, h1.2.1, h1.2.2, h.symm⟩
  · cases h

theorem removeTr_some {c c' : Cell} (h : removeTr c = some c') :
    c.allocated = false ∧ c.type ≠ .nonExistent ∧ c' = { c with type := .nonExistent, caps := 0 } := by
  unfold removeTr at h
  split at h
  · rename_i h1; injection h with h; exact ⟨h1.1, h1.2, h.symm⟩
  · cases h

theorem capsTr_some {caps : Nat} {c c' : Cell} (h : capsTr caps c = some c') :
    c.type ≠ .nonExistent ∧ caps &&& c.attrs = c.attrs ∧ c' = { c with caps := caps } := by
  unfold capsTr at h
  split at h
  · split at h
    · cases h
    · rename_i h1 h2; injection h with h; exact ⟨h1, Decidable.not_not.1 h2, h.symm⟩
  · cases h

theorem or_of_and {x y : Nat} (h : x &&& y = y) : x ||| y = x := by
  apply Nat.eq_of_testBit_eq
  intro i
  have := congrArg (fun n => n.testBit i) h
  simp only [Nat.testBit_and] at this
  rw [Nat.testBit_or]
  cases hx : x.testBit i <;> cases hy : y.testBit i <;> simp_all

theorem addTr_ok {ty : MemType} {caps : Nat} (c c' : Cell) (h : addTr ty (addCaps ty caps) MEMORY_RP c = some c') (_ : CellOk c) :
    CellOk c' := by
  obtain ⟨h1, h2, h3, h4⟩ := addTr_some h
  subst h4
  exact ⟨fun _ => rp_in_caps ty caps, fun h => by simp only [h1] at h; cases h⟩

theorem removeTr_ok (c c' : Cell) (h : removeTr c = some c') (_ : CellOk c) : CellOk c' := by
  obtain ⟨h1, h2, h4⟩ := removeTr_some h
  subst h4
  exact ⟨fun h => absurd rfl h, fun h => by simp only [h1] at h; cases h⟩

theorem attrTr_ok {attrs : Nat} (c c' : Cell) (h : attrTr attrs c = some c') (hc : CellOk c) : CellOk c' := by
  obtain ⟨h1, h2, h4⟩ := attrTr_some h
  subst h4
  exact ⟨fun _ => h2, hc.alloc⟩

theorem capsTr_ok {caps : Nat} (c c' : Cell) (h : capsTr caps c = some c') (hc : CellOk c) : CellOk c' := by
  obtain ⟨h1, h2, h4⟩ := capsTr_some h
  subst h4
  exact ⟨fun _ => or_of_and h2, hc.alloc⟩

theorem freeTr_ok {preserve : Bool} (c c' : Cell) (h : freeTr preserve c = some c') (hc : CellOk c) : CellOk c' := by
  obtain ⟨h1, h2, h4⟩ := freeTr_some h
  subst h4
  exact ⟨hc.attrs, fun h => by cases h⟩

theorem Inv2.alloc {g : Gcd} (h : Inv2 g) {at_ : AllocType} {ty : MemType} {shift len image : Nat} {device : Option Nat} {r : Ret Nat}
    (he : Alloc g len image device at_.chooses (AllocOk g at_ ty shift len image) (fun _ => False) (fun _ _ => True) r) : Inv2 r.2 := by
  cases he with
  | err er _ => exact h
  | ok addr c g' a1 a2 a3 a4 a5 a6 a7 a8 a9 a10 a11 =>
    refine h.update a10 a2 a8 fun hc => ⟨hc.attrs, fun _ => ⟨a4, a5, ?_⟩⟩
    have := a7.2.2.1
    show image ≠ 0
    omega

theorem Inv2.free {g : Gcd} (h : Inv2 g) {base len : Nat} {preserve : Bool} {r : Ret Unit} (he : FreeRes g base len preserve r) :
    Inv2 r.2 := by
  cases he with
  | err er _ => exact h
  | ok c c' g' a1 _ _ a2 a3 a4 a5 a6 a7 =>
    refine h.update a7 a2 a5 fun hc => ⟨fun _ => ?_, ?_⟩
    · obtain ⟨_, _, f3⟩ := freeTr_some a3
      rw [f3]; exact a4
    · obtain ⟨_, _, f3⟩ := freeTr_some a3
      rw [f3]; intro h; cases h
  | part c c' er g' a1 _ _ a2 a3 a4 _ a5 a6 a7 => exact h.update a7 a2 a5 (freeTr_ok c c' a3)

theorem fresh_inv {g : Gcd} (h : Inv g) : Inv2 { g with cap := SLOTS, blocks := [⟨0, g.max, emptyCell⟩] } := by
  refine ⟨⟨h.pos, h.lt, Or.inr ⟨rfl, ⟨⟨rfl, h.pos, ?_⟩, trivial⟩, by simp [SLOTS]⟩⟩, ?_⟩
  · show 0 + g.max = g.max; omega
  · intro a c hc
    simp only [cellAt] at hc
    split at hc
    · injection hc with hc
      subst hc
      exact ⟨fun h => absurd rfl h, fun h => by cases h⟩
    · cases hc

theorem andThen_inv {α : Type} {r : Ret Unit} {f : Gcd → Ret α} (h : Inv2 r.2) (hf : Inv2 r.2 → Inv2 (f r.2).2) :
    Inv2 (andThen r f).2 := by
  unfold andThen
  obtain ⟨o, g⟩ := r
  cases o with
  | ok u => exact hf h
  | err e => exact h
  | panic => exact h

theorem setAttributes_inv {g : Gcd} (h : Inv2 g) {base len attrs : Nat} (hl : len < W) : Inv2 (g.setAttributes base len attrs).2 :=
  h.effect (setAttributes_effect h.inv hl) attrTr_ok

theorem initBlocks_inv {g : Gcd} (h : Inv2 g) {nodeSize : Nat} {ty : MemType} {base len caps : Nat} (hb : base < W) (hl : len < W) :
    Inv2 (g.initBlocks nodeSize ty base len caps).2 := by
  unfold Gcd.initBlocks
  simp only []
  split
  · exact h
  · split
    · exact h
    · rename_i hsz
      have hsz := Decidable.not_not.1 hsz
      have hf := fresh_inv h.inv
      refine andThen_inv (hf.effect (addSpace_effect hf.inv hl) addTr_ok) fun h1 => ?_
      refine andThen_inv (setAttributes_inv h1 hl) fun h2 => ?_
      have h3 := h2.alloc (allocate_spec (at_ := .address base) (ty := .systemMemory) (shift := UEFI_PAGE_SHIFT)
        (len := SLOTS * nodeSize) (image := BOOT_DATA_HANDLE) (device := none) h2.inv (by decide) (by have := hsz.2; omega)
        (fun a ha => by injection ha with ha; omega))
      split
      · rename_i heq
        rw [heq] at h3
        unfold Gcd.protectRest
        split
        · exact setAttributes_inv h3 (by omega)
        · exact h3
      · rename_i heq; rw [heq] at h3; exact h3
      · rename_i heq; rw [heq] at h3; exact h3

theorem step_inv {nodeSize : Nat} {g : Gcd} (h : Inv2 g) {op : Op} (ho : op.InRange) : Inv2 (g.step nodeSize op) := by
  cases op with
  | add ty base len caps =>
    show Inv2 (g.add nodeSize ty base len caps).2
    unfold Gcd.add
    split
    · exact h
    · split
      · exact h
      · split
        · exact h
        · split
          · exact initBlocks_inv h ho.1 ho.2.1
          · exact h.effect (addSpace_effect h.inv ho.2.1) addTr_ok
  | remove base len => exact h.effect (removeSpace_effect h.inv ho.2) removeTr_ok
  | allocate at_ ty shift len image device =>
    refine h.alloc (allocate_spec h.inv ho.2.1 ho.1 fun a ha => ?_)
    have := ho.2.2
    rw [ha] at this
    exact this
  | free base len preserve =>
    show Inv2 (g.freeSpace base len preserve).2
    unfold Gcd.freeSpace
    split
    · exact h
    · exact h.free (freeWorker_spec h.inv ho.2)
  | setAttributes base len attrs => exact setAttributes_inv h ho.2.1
  | setCapabilities base len caps => exact h.effect (setCapabilities_effect h.inv ho.2.1) capsTr_ok
  | lock => exact ⟨⟨h.inv.pos, h.inv.lt, h.inv.map⟩, h.cells⟩
  | unlock => exact ⟨⟨h.inv.pos, h.inv.lt, h.inv.map⟩, h.cells⟩
  | prioritize32 b => exact ⟨⟨h.inv.pos, h.inv.lt, h.inv.map⟩, h.cells⟩

theorem start_inv (bits : Nat) (prio : Bool) : Inv2 (Gcd.start bits prio) := by
  refine ⟨⟨Nat.two_pow_pos _, ?_, Or.inl ⟨rfl, rfl⟩⟩, fun a c hc => by cases hc⟩
  exact Nat.pow_le_pow_right (by omega) (by have := Nat.mod_lt bits (by omega : 64 > 0); omega)

theorem run_inv {nodeSize : Nat} {g : Gcd} (h : Inv2 g) {ops : List Op} (ho : ∀ op ∈ ops, Op.InRange op) :
    Inv2 (g.run nodeSize ops) := by
  induction ops generalizing g with
  | nil => exact h
  | cons op ops ih =>
    exact ih (step_inv h (ho op (by simp))) fun o h => ho o (by simp [h])

theorem reachable_inv {nodeSize : Nat} {g : Gcd} (h : Reachable nodeSize g) : Inv2 g := by
  obtain ⟨bits, prio, ops, ho, rfl⟩ := h
  exact run_inv (start_inv bits prio) ho

end Verif.Gcd
