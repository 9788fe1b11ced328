import Verif.Paging.InitProps
import Verif.Paging.Witness
/-!
C108: concrete cases, and where the code falls short.
-/
namespace Verif.Paging
open Verif.Gcd

/-- 1 MiB of memory, of which page 0, two pages at 0x4000 and six pages at 0x10000 (the core) are allocated, and `mmio` bytes of
MMIO at `at_`. -/
def bootOps (at_ mmio : Nat) : List Op :=
  [.add .systemMemory 0 0x100000 0x2600F, .add .memoryMappedIo at_ mmio 0x26001,
   .allocate (.address 0) .systemMemory 12 0x1000 6 none, .allocate (.address 0x4000) .systemMemory 12 0x2000 7 none,
   .allocate (.address 0x10000) .systemMemory 12 0x6000 7 none, .setAttributes 0x10000 0x6000 8, .setAttributes at_ mmio 1]

def bootGcd (at_ mmio : Nat) : Gcd := (Gcd.start 32 false).run 1 (bootOps at_ mmio)

def bootMem (at_ mmio : Nat) : Mem := ⟨bootGcd at_ mmio, none, 0x4000, 0, 0⟩

/-- Headers, a page and a half of code, and data. -/
def bootPe : CorePe := ⟨0x1000, [⟨0x1000, 0x1800, 0x60000020⟩, ⟨0x3000, 0x2100, 0xC0000040⟩]⟩

def bootParse : Nat → Nat → Option CorePe := fun b _ => if b = 0x10000 then some bootPe else none

theorem boot_ok {at_ mmio : Nat} (h : at_ < W ∧ mmio < W) (hne : (bootGcd at_ mmio).blocks ≠ []) : MemOk 1 (bootMem at_ mmio) :=
  ⟨⟨32, false, bootOps at_ mmio, by
      intro op hop
      simp only [bootOps, List.mem_cons, List.not_mem_nil, or_false] at hop
      obtain ⟨h1, h2⟩ := h
      rcases hop with h | h | h | h | h | h | h <;> subst h <;> simp [Op.InRange] <;> first | decide | (unfold W at *; omega), rfl⟩,
    hne, (by intro t p a ht; cases ht), (show 0x4000 < W by decide)⟩

/-- How the page is mapped in the end; what was logged. -/
def outcome (dbg : Bool) (fs : Nat → Faults) (m : Mem) : Option (Nat × Nat × List (Option Nat)) :=
  match initPaging dbg fs bootParse [(0x10000, 0x6000), (0x4000, 0x2000)] m with
  | .at s => some (s.failed, s.mem.refusals, [0, 1, 4, 5, 0x10, 0x11, 0x12, 0x13, 0x14, 0x15, 0x16, 0x200, 0x201, 0x202].map (pageAt s.mem))
  | _ => none

theorem boot_outcome : outcome true (fun _ => calm) (bootMem 0x200000 0x2000) =
    some (0, 0, [none, none, some 0x4008, some 0x4008, some 0x4008, some 0x20008, some 0x20008, some 0x4008, some 0x4008, some 0x4008,
      none, some 0x4001, some 0x4001, none]) := by
  decide +kernel

theorem boot_mem_ok : MemOk 1 (bootMem 0x200000 0x2000) := boot_ok (by decide) (by decide +kernel)

/-- The hypotheses of the theorems are met: page 0 and two other pages of memory are allocated, there is a code section of two
pages and a data section of three, and two pages of MMIO. -/
example : CoreFits (bootMem 0x200000 0x2000) 0x10000 0x6000 bootPe := by
  refine ⟨by decide, by decide +kernel, ?_, by decide +kernel⟩
  intro c hc
  simp only [bootPe, List.mem_cons, List.not_mem_nil, or_false] at hc
  rcases hc with rfl | rfl <;> decide +kernel

example : ∃ m' t, SetUp true (fun _ => calm) (bootMem 0x200000 0x2000) 0x10000 0x6000 bootPe m' t ∧ t 0x11 = some 0x20008 := by
  have h := boot_outcome
  unfold outcome at h
  split at h
  · rename_i s hs
    injection h with h
    simp only [List.map_cons, Prod.mk.injEq, List.cons.injEq] at h
    obtain ⟨hf, hr, _, _, _, _, _, h11, _⟩ := h
    unfold pageAt at h11
    cases ht : s.mem.table with
    | none => rw [ht] at h11; cases h11
    | some t =>
      rw [ht] at h11
      refine ⟨s.mem, t, ⟨⟨bootParse, [(0x4000, 0x2000)], s.calls, rfl, ?_⟩, ?_, ht⟩, h11⟩
      · rw [hs, ← hf]
      · rw [hr]; rfl
  · cases h

/-- The further hypotheses of `page_table_agrees_from_the_start`. -/
example : (∀ b ∈ (bootGcd 0x200000 0x2000).blocks, b.st.type = .nonExistent ∨ b.st.allocated = true ∨ b.st.type = .memoryMappedIo ∨
      b.st.attrs.testBit 13 = true) ∧
    ∀ b ∈ (bootGcd 0x200000 0x2000).blocks, b.base % 4096 = 0 ∧ b.len % 4096 = 0 := by
  decide +kernel

/-- A page table that fails for the two pages of memory leaves them not mapped in a release build, which logs it; a debug build
stops. -/
example : (outcome false (fun n => if n = 1 then ⟨fun _ => some .other, fun _ => false⟩ else calm) (bootMem 0x200000 0x2000)).map
      (fun x => (x.1, x.2.2.take 5)) = some (1, [none, none, none, none, some 0x4008]) ∧
    outcome true (fun n => if n = 1 then ⟨fun _ => some .other, fun _ => false⟩ else calm) (bootMem 0x200000 0x2000) = none := by
  decide +kernel

/-! ### Findings -/

/-- FINDING (C108): "MMIO is not necessarily described at page granularity, but needs to be mapped as such in the page table"
(line 2159). It is not: a page and a half of MMIO at a page boundary is asked to be mapped as two pages, but setting the attributes
goes descriptor by descriptor, and a page and a half is refused by the memory space and by the page table. A debug build stops;
a release build logs errors, carries on, and none of the MMIO is mapped. -/
theorem odd_mmio_not_mapped :
    (outcome false (fun _ => calm) (bootMem 0x200000 0x1800)).map (fun x => (x.1, x.2.2.drop 11)) = some (1, [none, none, none]) ∧
    outcome true (fun _ => calm) (bootMem 0x200000 0x1800) = none := by
  decide +kernel

/-- FINDING (C108): the base is rounded down to a page, and the length, not the end, is rounded up: MMIO at [0x200800, 0x202800) is
asked to be mapped as [0x200000, 0x202000), which leaves its last page out. -/
theorem mmio_end_left_out : ∃ b ∈ mmioBlocks (bootGcd 0x200800 0x2000).blocks, b.base = 0x200800 ∧ b.len = 0x2000 ∧
    (mmioCall b).base = 0x200000 ∧ (mmioCall b).len = 0x2000 := by
  decide +kernel

/-- FINDING (C108), for all of MMIO: whenever the base is not at a page boundary and the length reaches further into its last
page than the base does into its first, the last page is not asked for. -/
theorem mmio_end_left_out_iff (b : Block Cell) (h : b.base + b.len + 0xFFF < W) :
    (mmioCall b).base + (mmioCall b).len < b.base + b.len ↔ 0 < b.base % 4096 ∧ (b.len % 4096 = 0 ∨ 4096 < b.base % 4096 + b.len % 4096) := by
  unfold mmioCall
  have : addw b.len 0xFFF = b.len + 0xFFF := by unfold addw; exact Nat.mod_eq_of_lt (by omega)
  rw [this]
  dsimp only
  omega

end Verif.Paging
