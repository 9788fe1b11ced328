import Verif.MemMap.Lemmas
import Verif.Gcd.AllocProps
/-!
As long as memory is added, removed and allocated in whole pages, every page of the memory space is in one state.
-/
namespace Verif.MemMap
open Gcd

variable {nodeSize : Nat} {g g' : Gcd}

/-- The call is about whole pages. (Freeing and setting attributes or capabilities refuse anything else.) -/
def WholePages : Op → Prop
  | .add _ base len _ => base % 4096 = 0 ∧ len % 4096 = 0
  | .remove base len => base % 4096 = 0 ∧ len % 4096 = 0
  | .allocate _ _ shift len _ _ => 12 ≤ shift ∧ len % 4096 = 0
  | _ => True

theorem updated_paged {base len : Nat} {c : Cell} (h : PageUniform g.blocks) (hb : base % 4096 = 0) (hl : len % 4096 = 0)
    (hu : Updated g.blocks g'.blocks base len c) : PageUniform g'.blocks := by
  intro a
  rw [hu a, hu (a - a % 4096), ← h a]
  have : (base ≤ a ∧ a < base + len) ↔ (base ≤ a - a % 4096 ∧ a - a % 4096 < base + len) := by omega
  by_cases hx : base ≤ a ∧ a < base + len
  · rw [if_pos hx, if_pos (this.1 hx)]
  · rw [if_neg hx, if_neg (fun h => hx (this.2 h))]

theorem effect_paged {base len : Nat} {tr : Cell → Option Cell} {r : Ret Unit} (h : PageUniform g.blocks)
    (he : Effect g base len tr r) (hb : r.1 = .ok () → base % 4096 = 0 ∧ len % 4096 = 0) : PageUniform r.2.blocks := by
  cases he with
  | err er => exact h
  | ok c c' g' h1 h2 h3 h4 h5 h6 => exact updated_paged h (hb rfl).1 (hb rfl).2 h4

theorem setAttributes_aligned {base len attrs : Nat} (h : (g.setAttributes base len attrs).1 = .ok ()) :
    base % 4096 = 0 ∧ len % 4096 = 0 := by
  unfold Gcd.setAttributes at h
  split at h
  · cases h
  · split at h
    · cases h
    · split at h
      · cases h
      · split at h
        · cases h
        · rename_i hm
          have hm := Decidable.not_not.1 hm
          rwa [pageMask, pageMask] at hm

theorem setCapabilities_aligned {base len caps : Nat} (h : (g.setCapabilities base len caps).1 = .ok ()) :
    base % 4096 = 0 ∧ len % 4096 = 0 := by
  unfold Gcd.setCapabilities at h
  split at h
  · cases h
  · split at h
    · cases h
    · split at h
      · cases h
      · split at h
        · cases h
        · rename_i hm
          have hm := Decidable.not_not.1 hm
          rwa [pageMask, pageMask] at hm

theorem setAttributes_paged (hi : Inv2 g) {base len attrs : Nat} (hl : len < W) (h : PageUniform g.blocks) :
    PageUniform (g.setAttributes base len attrs).2.blocks :=
  effect_paged h (setAttributes_effect hi.inv hl) setAttributes_aligned

theorem aligned_of_shift {addr shift : Nat} (h : addr % 2 ^ shift = 0) (hs : 12 ≤ shift) : addr % 4096 = 0 := by
  have h1 : 2 ^ 12 ∣ 2 ^ shift := Nat.pow_dvd_pow 2 hs
  exact Nat.mod_eq_zero_of_dvd (Nat.dvd_trans h1 (Nat.dvd_of_mod_eq_zero h))

theorem alloc_paged {at_ : AllocType} {ty : MemType} {shift len image : Nat} {device : Option Nat} {r : Ret Nat} (h : PageUniform g.blocks)
    (he : Alloc g len image device at_.chooses (AllocOk g at_ ty shift len image) (fun _ => False) (fun _ _ => True) r)
    (hs : 12 ≤ shift) (hl : len % 4096 = 0) : PageUniform r.2.blocks := by
  cases he with
  | err er _ => exact h
  | ok addr c g' a1 a2 a3 a4 a5 a6 a7 a8 a9 a10 a11 => exact updated_paged h (aligned_of_shift a7.1 hs) hl a8

theorem andThen_paged {α : Type} {r : Ret Unit} {f : Gcd → Ret α} (h : PageUniform r.2.blocks)
    (hf : PageUniform r.2.blocks → PageUniform (f r.2).2.blocks) : PageUniform (andThen r f).2.blocks := by
  unfold andThen
  obtain ⟨o, g⟩ := r
  cases o with
  | ok u => exact hf h
  | err e => exact h
  | panic => exact h

theorem initBlocks_paged (h : Inv2 g) (hm : g.max % 4096 = 0) {ty : MemType} {base len caps : Nat} (hb : base < W) (hl : len < W)
    (hba : base % 4096 = 0) (hla : len % 4096 = 0) (hp : PageUniform g.blocks) :
    PageUniform (g.initBlocks nodeSize ty base len caps).2.blocks := by
  unfold Gcd.initBlocks
  simp only []
  split
  · exact hp
  · split
    · exact hp
    · rename_i hsz
      have hsz := Decidable.not_not.1 hsz
      have hslice : SLOTS * nodeSize % 4096 = 0 := by show 4096 * nodeSize % 4096 = 0; omega
      have hf := fresh_inv h.inv
      have hfp : PageUniform ({ g with cap := SLOTS, blocks := [⟨0, g.max, emptyCell⟩] } : Gcd).blocks := by
        intro a
        simp only [cellAt]
        have : (0 ≤ a ∧ a < 0 + g.max) ↔ (0 ≤ a - a % 4096 ∧ a - a % 4096 < 0 + g.max) := by omega
        by_cases hx : 0 ≤ a ∧ a < 0 + g.max
        · rw [if_pos hx, if_pos (this.1 hx)]
        · rw [if_neg hx, if_neg (fun h => hx (this.2 h))]
      have e1 := addSpace_effect (ty := ty) (base := base) (caps := caps) hf.inv hl
      have i1 := hf.effect e1 addTr_ok
      refine andThen_paged (effect_paged hfp e1 fun _ => ⟨hba, hla⟩) fun p1 => ?_
      generalize hg1 : (Gcd.addSpace _ ty base len caps).2 = g1 at *
      have i2 := setAttributes_inv (base := base) (attrs := MEMORY_WB ||| MEMORY_XP) i1 hl
      refine andThen_paged (setAttributes_paged i1 hl p1) fun p2 => ?_
      generalize hg2 : (g1.setAttributes base len (MEMORY_WB ||| MEMORY_XP)).2 = g2 at *
      have e3 := allocate_spec (at_ := .address base) (ty := .systemMemory) (shift := UEFI_PAGE_SHIFT)
        (len := SLOTS * nodeSize) (image := BOOT_DATA_HANDLE) (device := none) i2.inv (by decide) (by have := hsz.2; omega)
        (fun a ha => by injection ha with ha; omega)
      have i3 := i2.alloc e3
      have p3 := alloc_paged p2 e3 (by decide) hslice
      split
      · rename_i heq
        rw [heq] at i3 p3
        unfold Gcd.protectRest
        split
        · exact setAttributes_paged i3 (by omega) p3
        · exact p3
      · rename_i heq; rw [heq] at p3; exact p3
      · rename_i heq; rw [heq] at p3; exact p3

theorem step_paged (h : Inv2 g) (hm : g.max % 4096 = 0) (hp : PageUniform g.blocks) {op : Op} (ho : op.InRange) (hw : WholePages op) :
    PageUniform (g.step nodeSize op).blocks := by
  cases op with
  | add ty base len caps =>
    show PageUniform (g.add nodeSize ty base len caps).2.blocks
    unfold Gcd.add
    split
    · exact hp
    · split
      · exact hp
      · split
        · exact hp
        · split
          · exact initBlocks_paged h hm ho.1 ho.2.1 hw.1 hw.2 hp
          · exact effect_paged hp (addSpace_effect h.inv ho.2.1) fun _ => hw
  | remove base len => exact effect_paged hp (removeSpace_effect h.inv ho.2) fun _ => hw
  | allocate at_ ty shift len image device =>
    refine alloc_paged hp (allocate_spec h.inv ho.2.1 ho.1 fun a ha => ?_) hw.1 hw.2
    have := ho.2.2
    rw [ha] at this
    exact this
  | free base len preserve =>
    show PageUniform (g.freeSpace base len preserve).2.blocks
    unfold Gcd.freeSpace
    split
    · exact hp
    · have he := freeWorker_spec (base := base) (preserve := preserve) h.inv ho.2
      revert he
      generalize g.freeWorker base len preserve = r
      intro he
      cases he with
      | err er _ => exact hp
      | ok x x' g' a1 b1 b2 a2 a3 a4 a5 a6 a7 => exact updated_paged hp b1 b2 a5
      | part x x' er g' a1 b1 b2 a2 a3 a4 _ a5 a6 a7 => exact updated_paged hp b1 b2 a5
  | setAttributes base len attrs => exact setAttributes_paged h ho.2.1 hp
  | setCapabilities base len caps => exact effect_paged hp (setCapabilities_effect h.inv ho.2.1) setCapabilities_aligned
  | lock => exact hp
  | unlock => exact hp
  | prioritize32 b => exact hp

theorem run_paged (h : Inv2 g) (hm : g.max % 4096 = 0) (hp : PageUniform g.blocks) {ops : List Op} (ho : ∀ op ∈ ops, Op.InRange op)
    (hw : ∀ op ∈ ops, WholePages op) : PageUniform (g.run nodeSize ops).blocks := by
  induction ops generalizing g with
  | nil => exact hp
  | cons op ops ih =>
    have h1 := step_same (nodeSize := nodeSize) h (ho op (by simp))
    exact ih (step_inv h (ho op (by simp))) (by rw [h1.1]; exact hm) (step_paged h hm hp (ho op (by simp)) (hw op (by simp)))
      (fun o h => ho o (by simp [h])) (fun o h => hw o (by simp [h]))

/-- For every address width of at least a page and every history of calls about whole pages. -/
theorem whole_pages_uniform (nodeSize bits : Nat) (prio : Bool) (ops : List Op) (hb : bits < 64) (hb2 : 12 ≤ bits)
    (ho : ∀ op ∈ ops, Op.InRange op) (hw : ∀ op ∈ ops, WholePages op) :
    PageUniform ((Gcd.start bits prio).run nodeSize ops).blocks := by
  refine run_paged (start_inv bits prio) ?_ (fun a => rfl) ho hw
  show oneShl bits % 4096 = 0
  rw [oneShl_eq hb]
  exact aligned_of_shift (Nat.mod_self _) hb2

end Verif.MemMap
