import Verif.Paging.SyncProps
/-! The capabilities in the memory space are 64-bit values. -/
namespace Verif.Paging.Caps
open Verif.Gcd Verif.Paging

variable {ns : Nat} {g : Gcd}

def Wide (g : Gcd) : Prop := ∀ a c, cellAt g.blocks a = some c → c.caps < W

theorem Wide.update {g g' : Gcd} (h : Wide g) {base len : Nat} {c : Cell} (hup : Updated g.blocks g'.blocks base len c)
    (hc : c.caps < W) : Wide g' := by
  intro a x hx
  rw [hup a] at hx
  split at hx
  · injection hx with hx; subst hx; exact hc
  · exact h a x hx

theorem Wide.effect (h : Wide g) {base len : Nat} {tr : Cell → Option Cell} {r : Ret Unit} (he : Effect g base len tr r)
    (ht : ∀ c c', tr c = some c' → c.caps < W → c'.caps < W) : Wide r.2 := by
  cases he with
  | err er => exact h
  | ok c c' g' h1 h2 h3 h4 h5 h6 => exact h.update h4 (ht c c' h3 (h base c (h2.2 base (Nat.le_refl _) (by have := h2.1; omega))))

theorem Wide.alloc (h : Wide g) {at_ : AllocType} {ty : MemType} {shift len image : Nat} {device : Option Nat} {r : Ret Nat}
    (he : Alloc g len image device at_.chooses (AllocOk g at_ ty shift len image) (fun _ => False) (fun _ _ => True) r) : Wide r.2 := by
  cases he with
  | err er _ => exact h
  | ok addr c g' a1 a2 a3 a4 a5 a6 a7 a8 a9 a10 a11 =>
    exact h.update a8 (h addr c (a2.2 addr (Nat.le_refl _) (by have := a2.1; omega)))

theorem Wide.free (h : Wide g) {base len : Nat} {preserve : Bool} {r : Ret Unit} (he : FreeRes g base len preserve r) : Wide r.2 := by
  cases he with
  | err er _ => exact h
  | ok c c' g' a1 _ _ a2 a3 a4 a5 a6 a7 => 
    refine h.update a5 ?_
    have := (freeTr_some a3).2.2
    subst this
    exact h base c (a2.2 base (Nat.le_refl _) (by have := a2.1; omega))
  | part c c' er g' a1 _ _ a2 a3 a4 _ a5 a6 a7 =>
    refine h.update a5 ?_
    rw [(freeTr_some a3).2.2]
    exact h base c (a2.2 base (Nat.le_refl _) (by have := a2.1; omega))

theorem addCaps_lt {ty : MemType} {caps : Nat} (hW : caps < W) : addCaps ty caps < W := by
  unfold addCaps
  refine or_lt (or_lt hW (by unfold W; decide)) ?_
  split <;> (unfold W; decide)

theorem addTr_wide {ty : MemType} {caps : Nat} (hW : caps < W) (c c' : Cell) (h : addTr ty (addCaps ty caps) MEMORY_RP c = some c') (_ : c.caps < W) :
    c'.caps < W := by
  rw [(addTr_some h).2.2.2]
  exact addCaps_lt hW

theorem attrTr_wide {attrs : Nat} (c c' : Cell) (h : attrTr attrs c = some c') (hW : c.caps < W) : c'.caps < W := by
  rw [(attrTr_some h).2.2]; exact hW

theorem setAttributes_wide (hi : Inv2 g) (h : Wide g) {base len attrs : Nat} (hl : len < W) :
    Wide (g.setAttributes base len attrs).2 := h.effect (setAttributes_effect hi.inv hl) attrTr_wide

theorem andThen_wide {α : Type} {r : Ret Unit} {f : Gcd → Ret α} (h : Inv2 r.2) (hw : Wide r.2) (hf : Inv2 r.2 → Wide r.2 → Wide (f r.2).2) :
    Wide (andThen r f).2 := by
  unfold andThen
  obtain ⟨o, g⟩ := r
  cases o with
  | ok u => exact hf h hw
  | err e => exact hw
  | panic => exact hw

theorem initBlocks_wide (h : Inv2 g) (hw : Wide g) {ty : MemType} {base len caps : Nat} (hb : base < W) (hl : len < W) (hc : caps < W) :
    Wide (g.initBlocks ns ty base len caps).2 := by
  unfold Gcd.initBlocks
  simp only []
  split
  · exact hw
  · split
    · exact hw
    · rename_i hsz
      have hsz := Decidable.not_not.1 hsz
      have hf := fresh_inv h.inv
      have wf : Wide { g with cap := SLOTS, blocks := [⟨0, g.max, emptyCell⟩] } := by
        intro a c hx
        simp only [cellAt] at hx
        split at hx
        · injection hx with hx
          subst hx
          exact (by unfold W; decide : 0 < W)
        · cases hx
      have ea := addSpace_effect (ty := ty) (base := base) (caps := caps) hf.inv hl
      refine andThen_wide (hf.effect ea addTr_ok) (wf.effect ea (addTr_wide hc)) fun h1 v1 => ?_
      refine andThen_wide (setAttributes_inv h1 hl) (setAttributes_wide h1 v1 hl) fun h2 v2 => ?_
      have hx := (allocate_spec (at_ := .address base) (ty := .systemMemory) (shift := UEFI_PAGE_SHIFT)
        (len := SLOTS * ns) (image := BOOT_DATA_HANDLE) (device := none) h2.inv (by decide) (by have := hsz.2; omega)
        (fun a ha => by injection ha with ha; omega))
      have h3 := h2.alloc hx
      have v3 := v2.alloc hx
      split
      · rename_i heq
        rw [heq] at h3 v3
        unfold Gcd.protectRest
        split
        · exact setAttributes_wide h3 v3 (by omega)
        · exact v3
      · rename_i heq
        rw [heq] at v3; exact v3
      · rename_i heq
        rw [heq] at v3; exact v3

theorem step_wide (h : Inv2 g) (hw : Wide g) {op : Op} (ho : op.InRange) : Wide (g.step ns op) := by
  cases op with
  | add ty base len caps =>
    show Wide (g.add ns ty base len caps).2
    unfold Gcd.add
    split
    · exact hw
    · split
      · exact hw
      · split
        · exact hw
        · split
          · exact initBlocks_wide h hw ho.1 ho.2.1 (addCaps_lt ho.2.2)
          · exact hw.effect (addSpace_effect h.inv ho.2.1) (addTr_wide ho.2.2)
  | remove base len =>
    refine hw.effect (removeSpace_effect h.inv ho.2) fun c c' hc _ => ?_
    rw [(removeTr_some hc).2.2]; exact (by unfold W; decide : 0 < W)
  | allocate at_ ty shift len image device =>
    refine hw.alloc (at_ := at_) (ty := ty) (shift := shift) (allocate_spec h.inv ho.2.1 ho.1 fun a ha => ?_)
    have := ho.2.2
    rw [ha] at this
    exact this
  | free base len preserve =>
    show Wide (g.freeSpace base len preserve).2
    unfold Gcd.freeSpace
    split
    · exact hw
    · exact hw.free (freeWorker_spec h.inv ho.2)
  | setAttributes base len attrs => exact setAttributes_wide h hw ho.2.1
  | setCapabilities base len caps =>
    refine hw.effect (setCapabilities_effect h.inv ho.2.1) fun c c' hc _ => ?_
    rw [(capsTr_some hc).2.2]; exact ho.2.2
  | lock => exact hw
  | unlock => exact hw
  | prioritize32 b => exact hw

theorem run_wide {ops : List Op} (h : Inv2 g) (hw : Wide g) (ho : ∀ op ∈ ops, Op.InRange op) : Wide (g.run ns ops) := by
  induction ops generalizing g with
  | nil => exact hw
  | cons op ops ih => exact ih (step_inv h (ho op (by simp))) (step_wide h hw (ho op (by simp))) fun o h => ho o (by simp [h])

theorem reachable_wide (hr : Reachable ns g) : Wide g := by
  obtain ⟨bits, prio, ops, ho, rfl⟩ := hr
  exact run_wide (start_inv bits prio) (fun a c h => by cases h) ho

end Verif.Paging.Caps
