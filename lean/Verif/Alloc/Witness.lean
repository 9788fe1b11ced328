import Verif.Alloc.PoolCore
import Verif.Alloc.Reserve
import Verif.Alloc.Bump
/-!
Concrete systems: the theorems' hypotheses are met, and some behaviours worth knowing.
-/
namespace Verif.Alloc
open Verif.Gcd
open Verif.Hob (Mem)

/-- 16 MiB of memory; the GCD's own table is at 1 MiB. -/
def demoOps : List Op := [.add .systemMemory 0x100000 0xF00000 0x2600F, .add .systemMemory 0 0x100000 0x2600F]
def demoGcd : Gcd := (Gcd.start 32 false).run 64 demoOps

theorem demoGcd_reachable : Reachable demoEnv.gcdNode demoGcd := by
  refine ⟨32, false, demoOps, ?_, rfl⟩
  intro op hop
  simp only [demoOps, List.mem_cons, List.not_mem_nil, or_false] at hop
  rcases hop with h | h <;> subst h <;> simp [Op.InRange, W]

/-- The layout the compiler chooses: the fields with alignment 8 first. -/
def demoInfo : InfoLayout := ⟨16, 20, 0, 8⟩
theorem demoInfo_ok : demoInfo.Ok := by
  constructor <;> simp [demoInfo, INFO]

def demo0 : World demoEnv.H := ⟨demoGcd, fun _ => 0xAF, []⟩
/-- 100 bytes of boot services data, then 5000 bytes of runtime services data with a granularity of 64 KiB. -/
def demo1 : World demoEnv.H := (coreAllocatePool demoEnv demoInfo false 0x10000 demo0 4 6 100).2
def demo2 : World demoEnv.H := (coreAllocatePool demoEnv demoInfo false 0x10000 demo1 6 8 5000).2

theorem demo1_ok : coreAllocatePool demoEnv demoInfo false 0x10000 demo0 4 6 100 = (.ok 15728792, demo1) := by
  have : (coreAllocatePool demoEnv demoInfo false 0x10000 demo0 4 6 100).1 = .ok 15728792 := by decide +kernel
  exact Prod.ext this rfl

theorem demo2_ok : coreAllocatePool demoEnv demoInfo false 0x10000 demo1 6 8 5000 = (.ok 14680152, demo2) := by
  have : (coreAllocatePool demoEnv demoInfo false 0x10000 demo1 6 8 5000).1 = .ok 14680152 := by decide +kernel
  exact Prod.ext this rfl

theorem gran16 : GranOk 0x10000 := ⟨16, by omega, by omega, rfl⟩

theorem demo0_possible : PoolPossible demoEnv demoInfo (demo0, ⟨[], []⟩, []) :=
  ⟨demo0, ⟨[], []⟩, ⟨demoGcd_reachable, rfl, rfl⟩, .refl⟩

theorem demo1_gran : ∀ f ∈ demo1.fsbs, GranOk f.gran := by
  have : demo1.fsbs.map (·.gran) = [4096] := by decide +kernel
  intro f hf
  have hm : f.gran ∈ demo1.fsbs.map (·.gran) := List.mem_map_of_mem hf
  rw [this, List.mem_singleton] at hm
  exact ⟨12, by omega, by omega, hm⟩

theorem demo2_gran : ∀ f ∈ demo2.fsbs, GranOk f.gran := by
  have : demo2.fsbs.map (·.gran) = [4096, 0x10000] := by decide +kernel
  intro f hf
  have hm : f.gran ∈ demo2.fsbs.map (·.gran) := List.mem_map_of_mem hf
  rw [this] at hm
  simp only [List.mem_cons, List.not_mem_nil, or_false] at hm
  rcases hm with hm | hm
  · exact ⟨12, by omega, by omega, hm⟩
  · exact ⟨16, by omega, by omega, hm⟩

/-- The two buffers are in use in a possible state. -/
theorem demo2_possible : ∃ b1 b2 h, PoolPossible demoEnv demoInfo (demo2, h, [b2, b1]) ∧ demo2.Distinct ∧
    b1.addr = 15728792 ∧ b1.size = 100 ∧ b2.addr = 14680152 ∧ b2.size = 5000 ∧ h.grants = [b2.grant, b1.grant] := by
  obtain ⟨b1, sp1, f1, e1, e2, _, _, _, _, e3, e4⟩ := coreAllocatePool_ok demoEnvOk demoInfo_ok demo0_possible
    (fun i j f g hf => by simp [demo0] at hf) (fun f hf => by simp [demo0] at hf) gran16 (by decide) demo1_ok
  obtain ⟨b2, sp2, f2, k1, k2, _, _, _, _, k3, k4⟩ := coreAllocatePool_ok demoEnvOk demoInfo_ok (demo0_possible.steps e3) e4
    demo1_gran gran16 (by decide) demo2_ok
  exact ⟨b1, b2, _, (demo0_possible.steps e3).steps k3, k4, e2, e1, k2, k1, rfl⟩

/-- `block_placed`, `blocks_apart`, `pool_placed`, `pool_apart`, `coreFreePool_ok` and `coreFreePool_twice` apply to it: freeing the
first buffer works, and freeing it again is an error, also after more has been allocated elsewhere. -/
example : ∃ h b1 b2 w1, PoolPossible demoEnv demoInfo (demo2, h, [b2, b1]) ∧ b1.addr = 15728792 ∧
    coreFreePool demoEnv demoInfo true demo2 15728792 = (.ok (), w1) ∧
    coreFreePool demoEnv demoInfo false w1 15728792 = (.err .invalidParameter, w1) := by
  obtain ⟨b1, b2, h, hp, hd, e1, e2, _⟩ := demo2_possible
  obtain ⟨w1, k1, k2⟩ := coreFreePool_ok demoEnvOk demoInfo_ok hp hd (b := b1) (by simp) true
  rw [e1] at k1
  refine ⟨h, b1, b2, w1, hp, e1, k1, ?_⟩
  have := coreFreePool_twice demoEnvOk demoInfo_ok (by decide) hp hd (b := b1) (by simp) (by rw [e2]; decide) (dbg := true) (by rw [e1]; exact k1) .refl
  rw [e1] at this
  exact this

/-- Pages from the second allocator of `demo2`: `allocatePages_ok` and `freePages_ok` apply. -/
def demoF : Fsb demoEnv.H := demo2.fsbs.getD 1 (Fsb.new demoEnv.H 0 0 0)
theorem demoF_ok : demo2.fsbs[1]? = some demoF ∧ demoF.gran = 0x10000 ∧ demoF.handle = 8 := by
  have hl : demo2.fsbs.length = 2 := by decide +kernel
  refine ⟨?_, by decide +kernel, by decide +kernel⟩
  unfold demoF
  rw [List.getD_eq_getElem?_getD, List.getElem?_eq_getElem (by omega)]
  rfl

def demoPages : Got demoEnv.H Nat := Machine.allocatePages demoEnv true (demo2.machine demoF) (.topDown none) 3 0x20000

example : demoPages.1 = .ok 14548992 := by decide +kernel
example : 14548992 % 0x20000 = 0 := by decide
example : (Machine.freePages true demoPages.2 14548992 16).1 = .ok () := by decide +kernel
/-- Freeing only the three pages asked for gives back the sixteen they were rounded up to. -/
example : (Machine.freePages true demoPages.2 14548992 3).2.gcd.blocks = demo2.gcd.blocks := by decide +kernel

/-- `allocate_succeeds` applies: there is room to grow the first allocator's heap by 1 MiB, at 2 MiB. -/
def demoG : Fsb demoEnv.H := demo2.fsbs.getD 0 (Fsb.new demoEnv.H 0 0 0)
theorem demoG_ok : demo2.fsbs[0]? = some demoG ∧ demoG.gran = 2 ^ 12 ∧ demoG.handle = 6 := by
  have hl : demo2.fsbs.length = 2 := by decide +kernel
  refine ⟨?_, by decide +kernel, by decide +kernel⟩
  unfold demoG
  rw [List.getD_eq_getElem?_getD, List.getElem?_eq_getElem (by omega)]
  rfl

example : ∃ p s', Machine.allocate demoEnv false (demo2.machine demoG) ⟨0x3000, 4096⟩ = (.ok p, s') := by
  obtain ⟨b1, b2, h, hp, _⟩ := demo2_possible
  have hp' := (pool_possible demoEnvOk demoInfo_ok hp).1
  obtain ⟨F, (ok : WorldOk demoEnvOk demo2 h F)⟩ := possible_world (hE := demoEnvOk) hp'
  have hb : ∃ b ∈ demo2.gcd.blocks, b.base = 1310720 ∧ b.len = 13369344 ∧ b.st.allocated = false ∧ b.st.image = 0 ∧ b.st.type = .systemMemory := by
    decide +kernel
  obtain ⟨b, hm, hbase, hblen, h1, h2, h3⟩ := hb
  have hi := (reachable_inv ok.reach).inv
  have ht : Tiles 0 demo2.gcd.blocks demo2.gcd.max := by
    rcases hi.map with ⟨_, e⟩ | ⟨_, e, _⟩
    · rw [e] at hm; cases hm
    · exact e.tiles
  refine allocate_succeeds demoEnvOk hp' demoG_ok.1 ⟨⟨12, rfl⟩, by decide⟩ demoG_ok.2.1 ⟨by omega, by omega⟩ (.inr (.inr ⟨by decide, ?_, by decide⟩))
    (by decide +kernel) (by unfold Room; decide +kernel) (by rw [demoG_ok.2.2]; decide) (len := 0x100000) (a := 0x200000) ?_ ?_ (by decide)
  · rw [demoG_ok.2.1]; decide
  · rw [demoG_ok.2.1, show max (required demoEnv (heapLayout ⟨0x3000, 4096⟩)) 0x100000 = 0x100000 by decide]
    exact ⟨⟨256, rfl⟩, Nat.le_refl _, fun m _ hm => hm⟩
  · exact ⟨⟨by decide, by decide, b.st, ⟨by decide, fun a a1 a2 => cellAt_mem ht hm (by omega) (by omega)⟩, h1, h3, .inl h2⟩, by decide, by decide⟩

/-- 20 pages (rounded up to 32) reserved for the second allocator of `demo2`: `reserve_ok` applies, and so do `stays_reserved` and
`reserved_exclusive` after it. -/
def demoRes : Got demoEnv.H Unit := Machine.reserve demoEnv true (demo2.machine demoF) 20

theorem demoRes_ok : demoRes = (.ok (), demoRes.2) ∧ demoRes.2.fsb.reserved = some (14548992, 14548992 + 32 * 4096) := by
  have h1 : demoRes.1 = .ok () := by decide +kernel
  exact ⟨Prod.ext h1 rfl, by decide +kernel⟩

theorem demoRes_reserved : ∃ h, Possible demoEnv (demo2.put 1 demoRes.2, h) ∧ Holds demoEnv 14548992 (32 * 4096) 8 (demo2.put 1 demoRes.2).gcd := by
  obtain ⟨b1, b2, h, hp, _⟩ := demo2_possible
  have hp' := (pool_possible demoEnvOk demoInfo_ok hp).1
  obtain ⟨_, _, a, n, sp, hn, _, _, _, hr, hk, _, _, _, hs, _⟩ := reserve_ok demoEnvOk hp' demoF_ok.1 (demoF_ok.2.1 ▸ gran16) (by decide)
    (fun n hn => by
      rw [demoF_ok.2.1] at hn
      have := hn.2.2 32 ⟨2, rfl⟩ (by decide)
      unfold W; omega) demoRes_ok.1
  rw [demoRes_ok.2] at hr
  simp only [Option.some.injEq, Prod.mk.injEq] at hr
  obtain ⟨rfl, hr⟩ := hr
  have hn32 : n = 32 := by omega
  subst hn32
  obtain ⟨F, (ok : WorldOk demoEnvOk _ _ F)⟩ := possible_world (hE := demoEnvOk) (hp'.steps hs)
  exact ⟨_, hp'.steps hs, ok.reach, demoF_ok.2.2 ▸ hk⟩

/-- Pages of another type do not come from it, pages of its own type may. -/
example : (Machine.allocatePages demoEnv true ((demo2.put 1 demoRes.2).machine demoG) (.topDown (some 14680063)) 1 4096).1 = .ok 14544896 ∧
    (Machine.allocatePages demoEnv true ((demo2.put 1 demoRes.2).machine demoRes.2.fsb) (.topDown (some 14680063)) 1 4096).1 = .ok 14614528 := by
  decide +kernel

/-! ### Behaviours worth knowing -/

/-- Finding: the reserved range is not preferred. Although all 32 pages of it are free, pages of its own type are taken from
elsewhere as soon as there is other memory above it (here, after the pages above were given back). `reserve_memory_pages` says
that the allocations come from the range. -/
def demoAbove : Got demoEnv.H Nat := Machine.allocatePages demoEnv true (demo2.machine demoG) (.topDown none) 64 4096
def demoBelow : Got demoEnv.H Unit := Machine.reserve demoEnv true ((demo2.put 0 demoAbove.2).machine demoF) 20
def demoFreed : Got demoEnv.H Unit := Machine.freePages true (((demo2.put 0 demoAbove.2).put 1 demoBelow.2).machine demoAbove.2.fsb) 14417920 64
theorem reserve_not_preferred : demoAbove.1 = .ok 14417920 ∧ demoBelow.2.fsb.reserved = some (14286848, 14417920) ∧ demoFreed.1 = .ok () ∧
    (Machine.allocatePages demoEnv true ((((demo2.put 0 demoAbove.2).put 1 demoBelow.2).put 0 demoFreed.2).machine demoBelow.2.fsb)
      (.topDown none) 16 4096).1 = .ok 14614528 := by
  decide +kernel

/-- Finding: another type can take pages of the reserved range by asking for their address; when it gives them back they are no
longer reserved, and so the range does not survive. -/
def demoTaken : Got demoEnv.H Nat := Machine.allocatePages demoEnv true ((demo2.put 1 demoRes.2).machine demoG) (.address 14548992) 1 4096
def demoGiven : Got demoEnv.H Unit := Machine.freePages true (((demo2.put 1 demoRes.2).put 0 demoTaken.2).machine demoTaken.2.fsb) 14548992 1
theorem reserve_lost_by_address : demoTaken.1 = .ok 14548992 ∧ demoGiven.1 = .ok () ∧
    (cellAt demoRes.2.gcd.blocks 14548992).map (·.image) = some 8 ∧ (cellAt demoGiven.2.gcd.blocks 14548992).map (·.image) = some 0 := by
  decide +kernel

def demoFresh : Machine demoEnv.H := ⟨demoGcd, fun _ => 0, Fsb.new demoEnv.H 4 4096 6⟩

/-- Finding: there is a size just below 1 MiB, with page alignment, that cannot be allocated although 15 MiB are free, while slightly
smaller and larger sizes can. The heap grows by 1 MiB, the block fits, but the 8 bytes left after it are too few for a hole. (With
the first-fit heap `bump`, which follows the rules for holes of the heap used.) -/
theorem unlucky_size_fails :
    (Machine.allocate demoEnv false demoFresh ⟨0x100000 - 4096 - 8, 4096⟩).1 = .err .outOfResources ∧
      (Machine.allocate demoEnv false demoFresh ⟨0x100000 - 4096 - 16, 4096⟩).1 = .ok 0xF01000 ∧
      (Machine.allocate demoEnv false demoFresh ⟨0x100000 - 4096, 4096⟩).1 = .ok 0xF01000 := by
  decide +kernel

/-- The same after the top page has been allocated by somebody else. -/
def demoUsed : Machine demoEnv.H :=
  { demoFresh with gcd := demoGcd.run 64 [.allocate (.topDown none) .systemMemory 12 0x1000 9 none] }

/-- Finding: a block of 2 MiB aligned to 2 MiB fails the same way: the range the heap grows by has room for the block, but is aligned to the
granularity only. The range stays with the heap. -/
theorem large_alignment_fails :
    (Machine.allocate demoEnv false demoUsed ⟨0x200000, 0x200000⟩).1 = .err .outOfResources ∧
      (Machine.allocate demoEnv false demoUsed ⟨0x200000, 0x200000⟩).2.fsb.regions.length = 1 := by
  decide +kernel

/-- Finding: asking for the page at address 0, when it is free, is an error, but the page is allocated all the same, and stays so. -/
theorem zero_page_lost :
    (Machine.allocatePages demoEnv false demoFresh (.address 0) 1 4096).1 = .err .outOfResources ∧
      (cellAt demoFresh.gcd.blocks 0).map (·.allocated) = some false ∧
      (cellAt (Machine.allocatePages demoEnv false demoFresh (.address 0) 1 4096).2.gcd.blocks 0).map (fun c => (c.allocated, c.image)) =
        some (true, 6) := by
  decide +kernel

/-- Finding: a page count whose size does not fit 64 bits is not refused in a release build: one page is allocated, and the caller is told
that 2^52 + 1 were. A debug build stops with an arithmetic overflow. -/
theorem page_count_wraps :
    (Machine.allocatePages demoEnv false demoFresh (.bottomUp none) (2 ^ 52 + 1) 4096).1 = .ok 4096 ∧
      (cellAt (Machine.allocatePages demoEnv false demoFresh (.bottomUp none) (2 ^ 52 + 1) 4096).2.gcd.blocks 8192).map (·.allocated) = some false ∧
      (Machine.allocatePages demoEnv true demoFresh (.bottomUp none) (2 ^ 52 + 1) 4096).1 = .panic := by
  decide +kernel

/-- Finding: `free_pool` trusts the memory before the address it gets. A user who writes something that looks like the info of a pool buffer
into a pool buffer can free an address that was never given out; the memory is then given out again while it is still in use. -/
def demoForged : World demoEnv.H :=
  { demo2 with mem := writeInfo demoInfo demo2.mem 15728800 4 ⟨INFO + 16, 8⟩ }

theorem forged_info_freed :
    (coreFreePool demoEnv demoInfo false demoForged 15728824).1 = .ok () ∧
      (coreAllocatePool demoEnv demoInfo false 0x10000 (coreFreePool demoEnv demoInfo false demoForged 15728824).2 4 6 16).1 = .ok 15728824 ∧
      15728792 ≤ 15728824 ∧ 15728824 + 16 ≤ 15728792 + 100 := by
  decide +kernel

end Verif.Alloc
