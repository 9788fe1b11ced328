import Verif.Alloc.HobAllocs
import Verif.Alloc.Witness
/-!
Concrete cases for the page services and the allocations described by HOBs.
-/
namespace Verif.Alloc
open Verif.Gcd

/-! ### Pages -/

theorem demo0_grained : demo0.Grained 0x10000 := fun f hf => by simp [demo0] at hf
theorem demo0_distinct : demo0.Distinct := fun i j f g hf => by simp [demo0] at hf
theorem demo0_handles : demo0.Handles := ⟨fun i j f g hf => by simp [demo0] at hf, fun f hf => by simp [demo0] at hf⟩
theorem demo0_is_possible : Possible demoEnv (demo0, ⟨[], []⟩) := (pool_possible demoEnvOk demoInfo_ok demo0_possible).1

/-- Three pages of runtime data, below 8 MiB, aligned to 128 KiB, with a granularity of 64 KiB. -/
def demoRt : Outcome EfiError Nat × World demoEnv.H := coreAllocatePages demoEnv true 0x10000 demo0 1 6 8 3 (some 0x7FFFFF) (some 0x20000)

theorem demoRt_ok : demoRt = (.ok 0x7E0000, demoRt.2) := by
  have h1 : demoRt.1 = .ok 0x7E0000 := by decide +kernel
  exact Prod.ext h1 rfl

/-- `coreAllocatePages_ok` applies, and then `coreFreePages_ok`: sixteen pages were allocated. -/
theorem demoRt_pages : ∃ (n i : Nat) (f : Fsb demoEnv.H) (sp : List Span), Fulfils 0x10000 1 6 3 0x7FFFFF (some 0x20000) 0x7E0000 n ∧
    demoRt.2.fsbs[i]? = some f ∧ Live demoRt.2.gcd 0x7E0000 (n * 4096) f.handle ∧ Possible demoEnv (demoRt.2, ⟨[], sp⟩) := by
  obtain ⟨n, i, f, sp, h1, _, _, _, h2, _, h3, _, h4, _⟩ := coreAllocatePages_ok (dbg := true) demoEnvOk demo0_is_possible gran16 demo0_grained demo0_distinct
    demo0_handles (kind := 1) (type := 6) (handle := 8) (pages := 3) (m := 0x7FFFFF) (by decide) (by decide)
    (fun _ f hf => by simp [demo0] at hf) (alignment := some 0x20000)
    (fun al h => by rw [Option.some.injEq] at h; subst h; exact ⟨17, by omega, rfl⟩) (by decide) demoRt_ok
  exact ⟨n, i, f, sp, h1, h2, h3, demo0_is_possible.steps h4⟩

example : (coreFreePages true demoRt.2 0x7E0000 3).1 = .ok () ∧ (coreFreePages true demoRt.2 0x7E0000 3).2.gcd.blocks = demoGcd.blocks := by
  decide +kernel
example : (coreAllocatePages demoEnv true 0x10000 demo0 2 6 8 3 (some 0x201000) none).1 = .err .invalidParameter := by decide +kernel

/-! ### HOBs -/

/-- The memory of `demoGcd`, and 1 MiB of memory-mapped I/O above it. -/
def useOps : List Op := demoOps ++ [.add .memoryMappedIo 0x1000000 0x100000 0x2600F]
def useGcd : Gcd := (Gcd.start 32 false).run 64 useOps
def use0 : World demoEnv.H := ⟨useGcd, fun _ => 0xAF, []⟩
def useHdl (type : Nat) : Nat := type + 2

theorem useGcd_reachable : Reachable demoEnv.gcdNode useGcd := by
  refine ⟨32, false, useOps, ?_, rfl⟩
  intro op hop
  simp only [useOps, demoOps, List.mem_cons, List.not_mem_nil, or_false, List.cons_append, List.nil_append] at hop
  rcases hop with h | h | h <;> subst h <;> simp [Op.InRange, W]

theorem use0_possible : Possible demoEnv (use0, ⟨[], []⟩) := ⟨(use0, ⟨[], []⟩), ⟨useGcd_reachable, rfl, rfl⟩, .refl⟩
theorem use0_allocators : Allocators 0x10000 useHdl use0 :=
  ⟨fun f hf => by simp [use0] at hf, fun i j f g hf => by simp [use0] at hf,
    ⟨fun t => by unfold useHdl; omega, fun t u h => by unfold useHdl at h; omega, fun f hf => by simp [use0] at hf⟩⟩
theorem demo_contained : Contained demoEnv := fun _ _ _ _ _ => rfl

/-- Runtime data, boot services data (listed twice), the core's stack, a firmware volume, and memory that is free. -/
def useHobs : List UseHob :=
  [.memory 6 0x200000 0x20000, .memory 4 0x300000 0x3000, .other, .memory 7 0x500000 0x1000, .memory 4 0x300000 0x3000, .volume 0x1000800 0x8800]

theorem useHobs_inRange : ∀ b ∈ useHobs, b.InRange := by
  intro b hb
  simp only [useHobs, List.mem_cons, List.not_mem_nil, or_false] at hb
  rcases hb with h | h | h | h | h | h <;> subst h <;> simp [UseHob.InRange, W]

def use1 : World demoEnv.H := (processHobs demoEnv true 0x10000 useHdl useHobs use0).getD use0
theorem use1_ok : processHobs demoEnv true 0x10000 useHdl useHobs use0 = some use1 := by
  have h : (processHobs demoEnv true 0x10000 useHdl useHobs use0).isSome = true := by decide +kernel
  unfold use1
  obtain ⟨x, hx⟩ := Option.isSome_iff_exists.1 h
  rw [hx]; rfl

theorem use_tiles : Tiles 0 useGcd.blocks useGcd.max := by
  have hi := (reachable_inv useGcd_reachable).inv
  rcases hi.map with ⟨_, e⟩ | ⟨_, e, _⟩
  · have : useGcd.blocks ≠ [] := by decide +kernel
    exact absurd e this
  · exact e.tiles

theorem use_free {base len : Nat} {ty : MemType} (hpos : 0 < len)
    (hb : ∃ b ∈ useGcd.blocks, b.base ≤ base ∧ base + len ≤ b.base + b.len ∧ b.st.allocated = false ∧ b.st.image = 0 ∧ b.st.type = ty) :
    FreeAs useGcd base len ty := by
  obtain ⟨b, hm, h1, h2, h3, h4, h5⟩ := hb
  exact ⟨by decide +kernel, by unfold Room; decide +kernel, b.st, ⟨hpos, fun a a1 a2 => cellAt_mem use_tiles hm (by omega) (by omega)⟩, h3, h4, h5⟩

theorem use_room (n : Nat) (hn : n ≤ 6) : ∀ w1, takeHobs demoEnv true 0x10000 useHdl (useHobs.take n) use0 = some w1 → Room w1.gcd := by
  intro w1 hw
  have h : ∀ n ≤ 6, ((takeHobs demoEnv true 0x10000 useHdl (useHobs.take n) use0).map fun w => decide (w.gcd.blocks.length + 2 ≤ 4096)) = some true := by
    decide +kernel
  have := h n hn
  rw [hw] at this
  simp only [Option.map_some, Option.some.injEq, decide_eq_true_eq] at this
  exact this

/-- `claimed_memory_taken` applies to the first HOB ... -/
example : Live use1.gcd 0x200000 0x20000 8 := by
  obtain ⟨_, _, _, _, h, _⟩ := claimed_memory_taken demoEnvOk demo_contained use0_possible gran16 use0_allocators (pre := [])
    (b := .memory 6 0x200000 0x20000) (s := ⟨8, 0x200000, 0x20000⟩) useHobs_inRange
    ⟨by decide, by decide, by decide, rfl, rfl, by decide, .inl ⟨use_free (by decide) (by decide +kernel), by unfold TypeAllowed; decide, fun _ => by decide, rfl⟩⟩
    (fun c hc => absurd hc (List.not_mem_nil)) (use_room 0 (by decide)) use1_ok
  exact h

/-- ... and to the firmware volume. -/
example : Live use1.gcd 0x1000800 0x8800 1 := by
  obtain ⟨_, _, _, _, h, _⟩ := claimed_memory_taken demoEnvOk demo_contained use0_possible gran16 use0_allocators (pre := useHobs.take 5) (post := [])
    (b := .volume 0x1000800 0x8800) (s := ⟨1, 0x1000800, 0x8800⟩) useHobs_inRange
    ⟨use_free (by decide) (by decide +kernel), rfl⟩ (by
      intro c hc x h1 h2
      simp only [useHobs, List.take_succ_cons, List.take_zero, List.mem_cons, List.not_mem_nil, or_false] at hc
      have h1' : 0x1000800 ≤ x := h1.1
      rcases hc with rfl | rfl | rfl | rfl | rfl <;> simp only [UseHob.Within] at h2 <;> omega) (use_room 5 (by decide)) use1_ok
  exact h

/-- `page_zero_taken` applies, and `unclaimed_memory_kept` does to the memory that a HOB lists as free. -/
example : Live use1.gcd 0 4096 6 :=
  page_zero_taken demoEnvOk demo_contained use0_possible gran16 use0_allocators useHobs_inRange (use_free (by decide) (by decide +kernel)) (by
      intro c hc x h1 h2
      simp only [useHobs, List.mem_cons, List.not_mem_nil, or_false] at hc
      rcases hc with rfl | rfl | rfl | rfl | rfl | rfl <;> simp only [UseHob.Within] at h2 <;> omega) (use_room 6 (by decide)) use1_ok
example : use1.gcd.blocks.filterMap (fun b => if b.st.allocated then some (b.base, b.len, b.st.image) else none) =
    [(0, 0x1000, 6), (0x100000, 262144, 6), (0x200000, 0x20000, 8), (0x300000, 0x3000, 6), (0x1000800, 0x8800, 1)] := by decide +kernel

/-! ### Behaviours worth knowing -/

/-- Finding: with a granularity of 64 KiB for the types that persist (AArch64), runtime memory that is page-aligned but not 64 KiB-aligned
is not taken. The failure is logged; the memory stays free, and the next allocation may get it. -/
theorem unaligned_runtime_left_free :
    ((takeHobs demoEnv true 0x10000 useHdl [.memory 6 0x201000 0x1000] use0).map fun w => w.gcd.blocks) = some useGcd.blocks := by
  decide +kernel

/-- Finding: one that is aligned but not whole units long is rounded up, and what follows it can no longer be taken for its own HOB:
the boot services data next to it belongs to the runtime allocator afterwards. -/
theorem short_runtime_takes_neighbour :
    ((takeHobs demoEnv true 0x10000 useHdl [.memory 6 0x200000 0x1000, .memory 4 0x201000 0x1000] use0).map fun w =>
      (cellAt w.gcd.blocks 0x201000).map (·.image)) = some (some 8) := by
  decide +kernel

/-- Finding: in the other order the runtime memory is not taken at all. -/
theorem short_runtime_not_taken :
    ((takeHobs demoEnv true 0x10000 useHdl [.memory 4 0x201000 0x1000, .memory 6 0x200000 0x1000] use0).map fun w =>
      (cellAt w.gcd.blocks 0x200000).map (·.allocated)) = some (some false) := by
  decide +kernel

/-- Finding: a HOB for more than one block of the memory map is not honoured. Here the second HOB covers memory that the first has a
page of. Nothing of the rest is taken. -/
theorem spanning_not_taken :
    ((takeHobs demoEnv true 0x10000 useHdl [.memory 4 0x301000 0x1000, .memory 4 0x300000 0x3000] use0).map fun w =>
      (cellAt w.gcd.blocks 0x300000).map (·.allocated)) = some (some false) := by
  decide +kernel

end Verif.Alloc
