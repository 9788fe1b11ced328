import Verif.MemMap.KeyProps
/-!
Concrete cases that meet the hypotheses of the theorems on the memory map, and cases where the map is not what one would expect.
-/
namespace Verif.MemMap
open Gcd

/-- The handles and types of the static allocators (allocator.rs lines 115-121) and of the other well-known types. -/
def demoOwners : List (Nat × Nat) := [(3, 1), (5, 3), (6, 4), (7, 5), (8, 6), (2, 0), (4, 2), (9, 9), (10, 10)]

theorem demoOwners_distinct : Distinct demoOwners := by unfold Distinct; decide

theorem demo_whole : ∀ op ∈ demo, WholePages op := by
  intro op hop
  simp only [demo, List.mem_cons, List.not_mem_nil, or_false] at hop
  rcases hop with h | h | h | h | h | h | h <;> subst h <;> simp [WholePages]

theorem demo_inRange : ∀ op ∈ demo, Op.InRange op := by
  intro op hop
  simp only [demo, List.mem_cons, List.not_mem_nil, or_false] at hop
  rcases hop with h | h | h | h | h | h | h <;> subst h <;> simp [Op.InRange, W]

def demoMem : Mem := ⟨demoGcd, demoOwners⟩

/-- Page 0 is boot services data, then pages kept for ACPI tables, free memory, runtime code, free memory, and I/O. The free
ranges on both sides of the page with other attributes are one entry. -/
example : demoMem.map.map (fun e => (e.type, e.start, e.pages)) =
    [(4, 0, 1), (9, 0x1000, 3), (7, 0x4000, 0xF8), (5, 0xFC000, 2), (7, 0xFE000, 2), (11, 0x201000, 15)] := by decide +kernel

/-- `map_exact` applies. -/
example : Reports demoMem.map 0xFC123 5 (MEMORY_RUNTIME ||| 0xF) ↔
    ∃ c, cellAt demoGcd.blocks 0xFC123 = some c ∧ HasType demoOwners c 5 ∧ HasAttr false c 5 (MEMORY_RUNTIME ||| 0xF) :=
  map_exact 1 32 false demo (by decide) (by decide) demo_inRange demo_whole demoOwners_distinct false _ _ _

/-- `map_allocated` applies to the pages allocated for runtime code. -/
example : Live demoGcd 0xFC000 0x2000 7 ∧ demoGcd.max % 4096 = 0 ∧ PageUniform demoGcd.blocks ∧ (7, 5) ∈ demoOwners := by
  refine ⟨?_, by decide +kernel, whole_pages_uniform 1 32 false demo (by decide) (by decide) demo_inRange demo_whole, by decide⟩
  have hb : (⟨0xFC000, 0x2000, ⟨true, .systemMemory, 0x800000000002600F, 0x2000, 7, 3⟩⟩ : Block Cell) ∈ demoGcd.blocks ∨
      (⟨0xFC000, 0x2000, ⟨true, .systemMemory, 0x800000000002600F, 0x2008, 7, 3⟩⟩ : Block Cell) ∈ demoGcd.blocks := by decide +kernel
  obtain ⟨h1, _, _⟩ := reachable_tiles demo_reachable (by decide +kernel)
  intro a h2 h3
  rcases hb with hb | hb
  · exact ⟨_, cellAt_mem h1 hb h2 h3, rfl, rfl⟩
  · exact ⟨_, cellAt_mem h1 hb h2 h3, rfl, rfl⟩

/-! ### The calls -/

def demoPad : Nat → Nat := fun _ => 0
def demoEnv : Env := ⟨fun g m => if g = .beforeEbs then { m with gcd := m.gcd.step 1 (.free 0xFC000 0x2000 false) } else m, some, demoPad, true, false, true⟩

def demoArgs (n : Nat) : MapArgs := ⟨some n, true, true, true, false⟩

example : ∃ o, getMemoryMap some demoPad (demoArgs 0) demoMem = (.ret .bufferTooSmall o, demoMem) ∧ o.size = some 240 :=
  ⟨_, Prod.ext (by decide +kernel : (getMemoryMap some demoPad (demoArgs 0) demoMem).1 = .ret .bufferTooSmall ⟨some 240, none, none, some 40, none⟩) rfl, rfl⟩

def demoKey : Nat := crc32 (mapBytes demoPad 0 demoMem.map)

/-- The first call of a loader fails, because a callback frees memory; after it has read the map again the second succeeds. -/
def demoFirst : ExitRes × Sys := exitBootServices demoEnv demoKey ⟨demoMem, false, []⟩

example : demoFirst.1 = .invalidParameter ∧
    demoFirst.2.log = [.signal .preEbs, .signal .beforeEbs, .timerOff, .signal .ebsFailed] ∧ demoFirst.2.mem.gcd.locked = false := by
  decide +kernel

def demoSecond : ExitRes × Sys := exitBootServices demoEnv (crc32 (mapBytes demoPad 0 demoFirst.2.mem.map)) demoFirst.2

example : demoSecond.1 = .success ∧
    demoSecond.2.log = [.signal .preEbs, .signal .beforeEbs, .timerOff, .signal .ebsFailed, .timerOff, .signal .exitBootServices,
      .interruptsOff, .clearBootServices, .atRuntime] ∧ demoSecond.2.mem.gcd.locked = true := by decide +kernel

/-- The hypotheses of `retry_succeeds` are met there. -/
example : ∃ o, getMemoryMap demoEnv.prep demoEnv.pad (demoArgs 4096) demoFirst.2.mem = (.ret .success o, demoFirst.2.mem) ∧
    Quiet demoEnv.prep (demoFirst.2.mem.setLock true) := by
  obtain ⟨o, h⟩ := get_succeeds (prep := some) (pad := demoPad) (a := demoArgs 4096) (m := demoFirst.2.mem) (m' := demoFirst.2.mem) rfl
    (by decide +kernel) (sz := 4096) rfl (by decide +kernel) rfl
  exact ⟨o, h, _, rfl, rfl⟩

/-- `retyped_key_rejected`: the pages of the runtime code become pages of runtime data. -/
example : (terminateMemoryMap some demoPad demoKey ⟨demoGcd, [(3, 1), (4, 2), (5, 3), (6, 4), (7, 6), (8, 5), (9, 9), (10, 10), (2, 0)]⟩).1 =
    some false := by decide +kernel

/-! ### Findings -/

/-- The key covers the padding bytes of the descriptors, which nothing initialises (`efi::MemoryDescriptor` has 4 bytes of
padding after its type): the key of a map that has not changed at all is refused if the padding was different. -/
theorem padding_spoils_key :
    ∃ o m', getMemoryMap some (fun _ => 0) (demoArgs 4096) demoMem = (.ret .success o, m') ∧ m' = demoMem ∧
      ∃ key, o.key = some key ∧ (terminateMemoryMap some (fun _ => 1) key m').1 = some false := by
  obtain ⟨o, h⟩ := get_succeeds (prep := some) (pad := fun _ => 0) (a := demoArgs 4096) (m := demoMem) (m' := demoMem) rfl
    (by decide +kernel) (sz := 4096) rfl (by decide +kernel) rfl
  refine ⟨o, demoMem, h, rfl, _, (get_success h).2.2.2.2.2.2.1 rfl, ?_⟩
  decide +kernel

/-- Memory whose range does not begin at a page boundary is left out of the map, also the whole pages in it. -/
def oddOps : List Op := [.add .systemMemory 0 0x100000 0xF, .add .systemMemory 0x200800 0x3800 0xF]
def oddGcd : Gcd := (Gcd.start 32 false).run 1 oddOps

theorem unaligned_left_out :
    (∀ a, 0x201000 ≤ a → a < 0x204000 → ∃ c, cellAt oddGcd.blocks a = some c ∧ HasType demoOwners c 7) ∧
    ∀ a t w, 0x200000 ≤ a → a < 0x204000 → ¬ Reports (memoryMap demoOwners false oddGcd.blocks) a t w := by
  have hr : Reachable 1 oddGcd := by
    refine ⟨32, false, oddOps, ?_, rfl⟩
    intro op hop
    simp only [oddOps, List.mem_cons, List.not_mem_nil, or_false] at hop
    rcases hop with h | h <;> subst h <;> simp [Op.InRange, W]
  constructor
  · intro a h1 h2
    have hb : (⟨0x200800, 0x3800, ⟨false, .systemMemory, 0x800000000002600F, 0x2000, 0, 0⟩⟩ : Block Cell) ∈ oddGcd.blocks := by decide +kernel
    obtain ⟨ht, _, _⟩ := reachable_tiles hr (by decide +kernel)
    exact ⟨_, cellAt_mem ht hb (by simp only; omega) (by simp only; omega), .conventional (by decide) rfl⟩
  · rintro a t w h1 h2 ⟨e, he, h3, h4, _⟩
    have : ∀ e ∈ memoryMap demoOwners false oddGcd.blocks, e.stop ≤ 0x200000 := by decide +kernel
    have := this e he
    omega

/-- Memory that is removed after it was freed with its owner kept is still reported, as memory of that owner's type. -/
def goneGcd : Gcd := demoGcd.run 1 [.remove 0x1000 0x3000]

theorem removed_still_reported :
    (∃ c, cellAt goneGcd.blocks 0x1000 = some c ∧ c.type = .nonExistent) ∧
    ∃ e ∈ memoryMap demoOwners false goneGcd.blocks, e.start = 0x1000 ∧ e.pages = 3 ∧ e.type = 9 := by
  decide +kernel

/-- Free memory that was added as "more reliable" is not reported at all. -/
def moreGcd : Gcd := demoGcd.run 1 [.add .moreReliable 0x300000 0x10000 0xF]

theorem more_reliable_left_out :
    (∃ c, cellAt moreGcd.blocks 0x300000 = some c ∧ c.type = .moreReliable ∧ c.allocated = false) ∧
    ∀ e ∈ memoryMap demoOwners false moreGcd.blocks, e.stop ≤ 0x300000 := by
  refine ⟨by decide +kernel, by decide +kernel⟩

end Verif.MemMap
