import Verif.Paging.CompatProps
/-!
C116: concrete cases, and where the code falls short.
-/
namespace Verif.Paging
open Verif.Gcd

/-- 0x9F000 bytes of memory, and a page above it that is reserved (`ebda`) or does not exist. Four pages at 0x4000 are
allocated; the memory has the cache attributes `cache` and what is not allocated is not accessible. -/
def legacyOps (ebda : Bool) (cache : Nat) : List Op :=
  [.add .systemMemory 0x100000 0x100000 0x2600F, .add .systemMemory 0 0x9F000 0x2600F] ++
  (if ebda then [.add .reserved 0x9F000 0x1000 0x2600F] else []) ++
  [.setAttributes 0 0x9F000 (0x2000 ||| cache), .allocate (.address 0x4000) .systemMemory 12 0x4000 7 none,
   .setAttributes 0x4000 0x4000 (0x4000 ||| cache)]

def legacyGcd (ebda : Bool) (cache : Nat) : Gcd := (Gcd.start 32 false).run 1 (legacyOps ebda cache)

/-- The allocated pages are mapped, not executable. -/
def legacyMem (ebda : Bool) (cache : Nat) : Mem :=
  ⟨legacyGcd ebda cache, some fun p => if 4 ≤ p ∧ p < 8 then some (0x4000 ||| cache) else none, 0x4000, 0, 0⟩

theorem legacy_ok {ebda : Bool} {cache : Nat} (hc : cache < 0x20) (h : (legacyGcd ebda cache).blocks ≠ []) :
    MemOk 1 (legacyMem ebda cache) := by
  have hb : ∀ x, x < 0x8000 → x ||| cache < 0x8000 := fun x hx => Nat.or_lt_two_pow (n := 15) hx (by omega)
  have h1 := hb 0x2000 (by decide)
  have h2 := hb 0x4000 (by decide)
  refine ⟨⟨32, false, legacyOps ebda cache, ?_, rfl⟩, h, ?_, show 0x4000 < W by decide⟩
  · intro op hop
    simp only [legacyOps, List.mem_append, List.mem_cons, List.not_mem_nil, or_false] at hop
    have hE : ∀ op ∈ (if ebda then [Op.add .reserved 0x9F000 0x1000 0x2600F] else []), op.InRange := by
      intro op hop
      cases ebda
      · cases hop
      · rw [if_pos rfl, List.mem_singleton] at hop; subst hop; simp [Op.InRange]; decide
    rcases hop with ((h | h) | h) | (h | h | h)
    · subst h; simp [Op.InRange]; decide
    · subst h; simp [Op.InRange]; decide
    · exact hE op h
    · subst h; simp [Op.InRange]; unfold W; omega
    · subst h; simp [Op.InRange]; decide
    · subst h; simp [Op.InRange]; unfold W; omega
  · intro t p a ht hp
    injection ht with ht; subst ht
    dsimp only at hp
    split at hp
    · injection hp with hp; subst hp
      rw [Nat.testBit_or]
      have e1 : Nat.testBit 0x4000 13 = false := by decide
      have e2 : cache.testBit 13 = false := Nat.testBit_lt_two_pow (by omega)
      rw [e1, e2]; rfl
    · cases hp

/-- What was logged, how the pages are mapped, and what the memory space says of them. -/
def compatOutcome (p : Progress) : Option (Nat × Nat × List (Option Nat)) :=
  match p with
  | .at s => some (s.failed, s.mem.refusals, [0, 1, 4, 7, 8, 0x9E, 0x9F, 0xA0].map (pageAt s.mem))
  | _ => none

/-- The hypotheses of the theorems are met: all of the memory is freely mapped, the page above it is not mapped. -/
theorem compat_demo : compatOutcome (activateCompat true (fun _ => calm) (legacyMem true 8)) =
    some (0, 0, [some 8, some 8, some 8, some 8, some 8, some 8, none, none]) := by
  decide +kernel

example : MemOk 1 (legacyMem true 8) ∧ HasLegacy (legacyMem true 8) :=
  ⟨legacy_ok (by decide) (by decide +kernel), by unfold HasLegacy; decide +kernel⟩

example : ∃ m', Entered true (fun _ => calm) (legacyMem true 8) m' := by
  have h := compat_demo
  unfold compatOutcome at h
  split at h
  · rename_i s hs
    injection h with h
    simp only [Prod.mk.injEq] at h
    exact ⟨s.mem, ⟨s.calls, by rw [hs, ← h.1]⟩, h.2.1⟩
  · cases h

/-- The memory below 0xA0000 that is system memory has cache attributes. -/
example : ∀ b ∈ (legacyGcd true 8).blocks, b.base < 0xA0000 → b.st.type = .systemMemory → b.st.attrs &&& 0x101F ≠ 0 := by
  decide +kernel

/-- The state after it. -/
def Progress.mem (p : Progress) (m : Mem) : Mem :=
  match p with
  | .at s => s.mem
  | _ => m

def compatMem : Mem := (activateCompat true (fun _ => calm) (legacyMem true 8)).mem (legacyMem true 8)

/-- An allocation of two pages after it is executable. -/
example : ((compatMem.allocate true calm (.address 0x10000) .systemMemory 12 0x2000 9 none).map fun x =>
    (x.1, pageAt x.2 0x10, pageAt x.2 0x11)) = some (.ok 0x10000, some 8, some 8) := by
  decide +kernel

/-! ### Findings -/

/-- FINDING (C116): "if the legacy region is not system memory, we should not map it" (line 2596). When a second such application
is loaded, it is: the free memory was made one descriptor with page 0, and its length is counted from page 1 on, so that it
reaches a page into what follows, and so does every descriptor after it. A reserved page there becomes readable, writable and
executable. -/
theorem compat_twice_maps_reserved :
    compatOutcome (activateCompat true (fun _ => calm) compatMem) =
      some (0, 0, [some 8, some 8, some 8, some 8, some 8, some 8, some 8, none]) ∧
    (compatMem.gcd.descriptorFor 0x9F000 matches .ok ⟨0x9F000, 0x1000, ⟨_, .reserved, _, _, _, _⟩⟩) = true := by
  decide +kernel

/-- FINDING (C116): if no memory exists there, a release build maps it all the same and logs that the memory space refuses; a
debug build panics. -/
theorem compat_twice_maps_nothing :
    (compatOutcome (activateCompat false (fun _ => calm) ((activateCompat false (fun _ => calm) (legacyMem false 8)).mem (legacyMem false 8))) =
      some (0, 1, [some 8, some 8, some 8, some 8, some 8, some 8, some 8, none])) ∧
    compatOutcome (activateCompat true (fun _ => calm) ((activateCompat true (fun _ => calm) (legacyMem false 8)).mem (legacyMem false 8))) = none := by
  decide +kernel

/-- FINDING (C116): memory without cache attributes is not mapped, and allocated memory stays not executable, although nothing is
logged and the memory space now says of both that they may be accessed in every way. -/
theorem compat_uncached_not_mapped :
    compatOutcome (activateCompat true (fun _ => calm) (legacyMem true 0)) =
      some (0, 0, [some 8, none, some 0x4000, some 0x4000, none, none, none, none]) ∧
    (((activateCompat true (fun _ => calm) (legacyMem true 0)).mem (legacyMem true 0)).gcd.blocks.filter fun b => b.base < 0x9F000).map
      (fun b => (b.base, b.st.attrs)) = [(0, 8), (0x1000, 0), (0x4000, 0), (0x8000, 0)] := by
  decide +kernel

/-- FINDING (C116): an allocation there, after that, succeeds and is not mapped. -/
example : ((((activateCompat true (fun _ => calm) (legacyMem true 0)).mem (legacyMem true 0)).allocate true calm (.address 0x10000)
    .systemMemory 12 0x2000 9 none).map fun x => (x.1, pageAt x.2 0x10, pageAt x.2 0x11)) = some (.ok 0x10000, none, none) := by
  decide +kernel

end Verif.Paging
