import Verif.Paging.WalkProps
/-!
C65, C66: concrete cases, and where the code falls short.
-/
namespace Verif.Paging
open Verif.Gcd

variable {ns : Nat} {f : Faults} {m : Mem} {base len attrs rounds : Nat} {upd : Nat → Nat}

/-- The state a call leaves. -/
def left {ε : Type} (m : Mem) (x : Option (Outcome ε Unit × Mem)) : Mem := (x.map Prod.snd).getD m

/-- What a call returns. -/
def returned {ε : Type} (x : Option (Outcome ε Unit × Mem)) : Option (Outcome ε Unit) := x.map Prod.fst

/-- The attributes of an address in the memory space. -/
def attrsIn (m : Mem) (a : Nat) : Option Nat := (cellAt m.gcd.blocks a).map Cell.attrs

theorem demo_supports {base len : Nat} {upd : Nat → Nat} (h : ∀ b ∈ demoGcd.blocks, b.base < base + len → base < b.base + b.len →
    b.st.type ≠ .nonExistent ∧ b.st.caps ||| upd b.st.attrs = b.st.caps) (hm : base + len ≤ demoGcd.max) : SupportsUpd demoMem.gcd base len upd := by
  have hg := good_of demo_reachable (by decide +kernel)
  intro a h1 h2
  obtain ⟨b, hb, b1, b2, b3⟩ := cellAt_some hg.tiles (Nat.zero_le a) (by omega)
  exact ⟨b.st, b3, h b hb (by omega) (by omega)⟩

theorem demo_pageWise {base len : Nat} (h1 : base % 4096 = 0) (h2 : len % 4096 = 0) : PageWise demoMem.gcd base len :=
  ⟨h1, h2, fun a _ _ => pageWise_blocks demo_aligned a⟩

/-! ### The theorems are about something -/

/-- Clearing read-protection of a range of three descriptors: the hypotheses are met, and all of the range gets mapped. -/
example : (0x4000 + 0x6000 ≤ demoMem.gcd.max) ∧ (0x4000 % 4096 = 0 ∧ 0x6000 % 4096 = 0 ∧ 0x2000 ≠ 0 ∧ 0x2000 &&& 0x26000 = 0x2000) ∧
    SupportsUpd demoMem.gcd 0x4000 0x6000 (fun a => andNot a 0x2000) ∧ PageWise demoMem.gcd 0x4000 0x6000 ∧ demoMem.gcd.blocks.length + 8 ≤ 4096 ∧
    returned (demoMem.clearMemoryAttributes true calm 0x6001 0x4000 0x6000 0x2000) = some (.ok ()) ∧
    (List.range 12).map (pageAt demoMem) = [some 0x4008, none, none, none, none, none, none, none, some 8, none, none, none] ∧
    (List.range 12).map (pageAt (left demoMem (demoMem.clearMemoryAttributes true calm 0x6001 0x4000 0x6000 0x2000))) =
      [some 0x4008, none, none, none, some 8, some 8, some 8, some 8, some 8, some 8, none, none] := by
  refine ⟨by decide +kernel, by decide, demo_supports (by decide +kernel) (by decide +kernel), demo_pageWise (by decide) (by decide), ?_⟩
  decide +kernel

/-- Making a page non-executable. -/
example : SupportsUpd demoMem.gcd 0x8000 0x1000 (fun a => a ||| 0x4000) ∧
    returned (demoMem.setMemoryAttributes true calm 0x1001 0x8000 0x1000 0x4000) = some (.ok ()) ∧ pageAt demoMem 8 = some 8 ∧
    pageAt (left demoMem (demoMem.setMemoryAttributes true calm 0x1001 0x8000 0x1000 0x4000)) 8 = some 0x4008 ∧
    attrsIn (left demoMem (demoMem.setMemoryAttributes true calm 0x1001 0x8000 0x1000 0x4000)) 0x8FFF = some 0x4008 ∧
    attrsIn (left demoMem (demoMem.setMemoryAttributes true calm 0x1001 0x8000 0x1000 0x4000)) 0x9000 = some 0x2008 := by
  refine ⟨demo_supports (by decide +kernel) (by decide +kernel), ?_⟩
  decide +kernel

/-- Asking about one whole descriptor. -/
example : demoMem.getMemoryAttributes 0x8000 0x1000 = .ok 0 ∧ demoMem.getMemoryAttributes 0x4000 0x4000 = .ok 0x2000 := by decide +kernel

theorem demo_caps {a : Nat} {c : Cell} (h1 : 0x4000 ≤ a) (h2 : a < 0x4000 + 6 * 4096) (hc : cellAt demoMem.gcd.blocks a = some c) :
    c.type ≠ .nonExistent ∧ c.caps = 0x800000000002600F ∧ (c.attrs = 8 ∨ c.attrs = 0x2008) := by
  have h : ∀ b ∈ demoGcd.blocks, b.base < 0xA000 → 0x4000 < b.base + b.len →
      b.st.type ≠ .nonExistent ∧ b.st.caps = 0x800000000002600F ∧ (b.st.attrs = 8 ∨ b.st.attrs = 0x2008) := by decide +kernel
  have hg := good_of demo_reachable (by decide +kernel)
  have hmax : demoGcd.max = 0x100000000 := by decide +kernel
  obtain ⟨b, hb, b1, b2, b3⟩ := cellAt_some hg.tiles (Nat.zero_le a) (by omega)
  have hc : cellAt demoGcd.blocks a = some c := hc
  rw [b3] at hc; injection hc with hc
  rw [← hc]
  exact h b hb (by omega) (by omega)

theorem ofAttributes_readOnly {a : Nat} (h : AccessType.ofAttributes a = .readOnly) : a.testBit 13 = false := by
  cases h13 : a.testBit 13 with
  | false => rfl
  | true =>
    exfalso
    have : a &&& MEMORY_RP ≠ 0 := by rw [(rp_iff a).2 h13]; decide
    unfold AccessType.ofAttributes at h
    rw [if_pos this] at h
    cases h

/-- The range of three descriptors supports being read-only and cached write-through. -/
example : SupportsAccess demoMem.gcd 0x4000 (6 * 4096) .readOnly (some .writeThrough) := by
  have hg := good_of demo_reachable (by decide +kernel)
  have hmax : demoGcd.max = 0x100000000 := by decide +kernel
  intro a h1 h2
  obtain ⟨b, hb, b1, b2, b3⟩ := cellAt_some hg.tiles (Nat.zero_le a) (by omega)
  obtain ⟨k1, k2, k3⟩ := demo_caps h1 h2 b3
  refine ⟨b.st, b3, k1, fun new g hw => ?_⟩
  rw [k2]
  apply Nat.eq_of_testBit_eq
  intro i
  rw [Nat.testBit_or]
  cases hn : new.testBit i with
  | false => simp
  | true =>
    rw [Bool.or_true]
    symm
    by_cases hC : Nat.testBit 0x101F i = true
    · have hc := g.cached _ rfl
      have hcm : new &&& CACHE_ATTRIBUTE_MASK = 4 := by
        unfold CachingType.ofAttributes at hc
        repeat' split at hc
        all_goals first | assumption | (injection hc with hc; cases hc) | cases hc
      have : (new &&& 0x101F).testBit i = true := by rw [Nat.testBit_and, hn, hC]; rfl
      rw [show (0x101F : Nat) = CACHE_ATTRIBUTE_MASK from rfl, hcm, show (4 : Nat) = 2 ^ 2 from rfl, Nat.testBit_two_pow] at this
      have : i = 2 := (of_decide_eq_true this).symm
      subst this; decide
    · by_cases hA : Nat.testBit 0x26000 i = true
      · rw [show (0x800000000002600F : Nat) = 0x26000 ||| 0x800000000000000F from by decide, Nat.testBit_or, hA]; rfl
      · have := g.others i (by simpa using hA) (by simpa using hC)
        rw [hn] at this
        exfalso
        rcases k3 with k | k <;> rw [k] at this
        · apply hC
          rw [show (0x101F : Nat) = 8 ||| 0x1017 from by decide, Nat.testBit_or, ← this]; rfl
        · rw [show (0x2008 : Nat) = 0x2000 ||| 8 from by decide, Nat.testBit_or] at this
          have := this.symm
          rw [Bool.or_eq_true] at this
          rcases this with t | t
          · apply hA
            rw [show (0x26000 : Nat) = 0x2000 ||| 0x24000 from by decide, Nat.testBit_or, t]; rfl
          · apply hC
            rw [show (0x101F : Nat) = 8 ||| 0x1017 from by decide, Nat.testBit_or, t]; rfl

/-- Setting it, and asking. -/
example :
    let x := demoMem.setPageAttributes true calm 0x6001 0x4000 6 .readOnly (some .writeThrough)
    returned x = some (.ok ()) ∧ (List.range 12).map (pageAt (left demoMem x)) =
      [some 0x4008, none, none, none, some 0x24004, some 0x24004, some 0x24004, some 0x24004, some 0x24004, some 0x24004, none, none] ∧
    (left demoMem x).getPageAttributes true 0x5000 2 = .ok (.readOnly, .writeThrough) ∧
    (left demoMem x).getPageAttributes true 0x8000 1 = .ok (.readOnly, .writeThrough) := by
  decide +kernel

/-! ### Where the code falls short -/

/-- The memory attribute protocol does not report attributes it has just set, if the range is part of a larger descriptor afterwards:
here a page is made read-protected like its neighbours, and asking about it finds no mapping. -/
theorem set_not_reported :
    let x := demoMem.setMemoryAttributes false calm 0x1001 0x8000 0x1000 0x2000
    returned x = some (.ok ()) ∧ attrsIn (left demoMem x) 0x8000 = some 0x2008 ∧
    (left demoMem x).getMemoryAttributes 0x8000 0x1000 = .err .noMapping := by
  decide +kernel

/-- The same for any part of a descriptor: two pages in one and the same state are not reported. -/
theorem part_not_reported : demoMem.getMemoryAttributes 0x4000 0x2000 = .err .noMapping ∧ attrsIn demoMem 0x4000 = some 0x2008 ∧
    ∀ a, 0x4000 ≤ a → a < 0x6000 → attrsIn demoMem a = some 0x2008 := by
  refine ⟨by decide +kernel, by decide +kernel, fun a h1 h2 => ?_⟩
  have hg := good_of demo_reachable (by decide +kernel)
  have hmem : (⟨0x4000, 0x4000, ⟨false, .systemMemory, 0x800000000002600F, 0x2008, 0, 0⟩⟩ : Block Cell) ∈ demoGcd.blocks := by decide +kernel
  have := cellAt_mem hg.tiles hmem (a := a) h1 (by show a < 0x4000 + 0x4000; omega)
  show (cellAt demoGcd.blocks a).map Cell.attrs = _
  rw [this]; rfl

/-- Read-protecting memory that is already read-protected succeeds in a release build and panics in a debug build. -/
theorem set_read_protect_panics :
    returned (demoMem.setMemoryAttributes false calm 0x1001 0x4000 0x1000 0x2000) = some (.ok ()) ∧
    returned (demoMem.setMemoryAttributes true calm 0x1001 0x4000 0x1000 0x2000) = some .panic := by
  decide +kernel

/-- So does taking access away twice through the memory manager service. -/
theorem no_access_twice_panics :
    let x := demoMem.setPageAttributes true calm 0x1001 0x8000 1 .noAccess none
    returned x = some (.ok ()) ∧ pageAt (left demoMem x) 8 = none ∧
    returned ((left demoMem x).setPageAttributes true calm 0x1001 0x8000 1 .noAccess none) = some .panic ∧
    returned ((left demoMem x).setPageAttributes false calm 0x1001 0x8000 1 .noAccess none) = some (.ok ()) := by
  decide +kernel

/-- Memory that does not exist is reported as readable, writable, executable and cached write-back. -/
theorem missing_reported_accessible :
    (cellAt demoMem.gcd.blocks 0x180000).map Cell.type = some .nonExistent ∧ pageAt demoMem 0x180 = none ∧
    demoMem.getPageAttributes true 0x180000 1 = .ok (.readWriteExecute, .writeBack) := by
  decide +kernel

/-- A range that is in different descriptors with the same access and caching is reported inconsistent. -/
theorem equal_reported_inconsistent :
    demoMem.getPageAttributes true 0x1000 7 = .err .inconsistentRangeAttributes ∧
    demoMem.getPageAttributes true 0x1000 3 = .ok (.noAccess, .writeBack) ∧ demoMem.getPageAttributes true 0x4000 4 = .ok (.noAccess, .writeBack) := by
  decide +kernel

/-- In a release build a range that does not fit the address space at all is reported as if it did. -/
theorem wrapped_reported :
    demoMem.getPageAttributes false 0x1000 (2 ^ 52) = .ok (.noAccess, .writeBack) ∧ demoMem.getPageAttributes true 0x1000 (2 ^ 52) = .panic := by
  decide +kernel

/-- Access the memory does not support is reported as given, and given in the page table; the memory space still has the old attributes. -/
theorem unsupported_access_reported :
    let x := demoMem.setPageAttributes false calm 0x1001 0x180000 1 .readWrite none
    returned x = some (.ok ()) ∧ pageAt (left demoMem x) 0x180 = some 0x4000 ∧ attrsIn (left demoMem x) 0x180000 = some 0 := by
  decide +kernel

/-- The descriptor found for an address, whatever the address, ends inside the memory space. -/
theorem descriptor_ends (hr : Reachable ns m.gcd) (hne : m.gcd.blocks ≠ []) (cur : Nat) :
    ∃ d, m.gcd.descriptorFor cur = .ok d ∧ d ∈ m.gcd.blocks ∧ addw d.base d.len ≤ m.gcd.max ∧ (m.gcd.max ≤ cur → addw d.base d.len = m.gcd.max) := by
  have hi := (reachable_inv hr).inv
  have hg := good_of hr hne
  obtain ⟨z, hz, hplug, hle, hlt, haft⟩ := seek_spec (k := cur) hg.tiles hi.pos
  have hmem : z.cur ∈ m.gcd.blocks := by rw [← hplug]; unfold Zip.plug; simp
  have hend := (tiles_mem hg.tiles hmem).2.2
  have hltW := hi.ltW
  refine ⟨z.cur, ?_, hmem, Nat.le_trans (Nat.mod_le _ _) hend, fun hc => ?_⟩
  · unfold Gcd.descriptorFor
    rw [if_neg (by have := hi.pos; omega), hz]
  · have hnil : z.after = [] := by
      cases ha : z.after with
      | nil => rfl
      | cons b l =>
        exfalso
        have hb := haft b (by rw [ha]; exact List.mem_cons_self)
        have := tiles_mem hg.tiles (b := b) (by rw [← hplug]; unfold Zip.plug; rw [ha]; simp)
        omega
    have ht := hg.tiles
    rw [← hplug] at ht
    unfold Zip.plug at ht
    rw [hnil] at ht
    obtain ⟨k, _, e1, _, e2⟩ := tiles_append.1 ht
    have e2 : k + z.cur.len = m.gcd.max := e2
    unfold addw
    rw [e1, e2, Nat.mod_eq_of_lt hltW]

theorem setAttributes_empty {dbg : Bool} {n cur len a : Nat} (h1 : cur + len < W ∨ dbg = false) (h2 : addw cur len ≤ cur) :
    m.setAttributes dbg f (n + 1) cur len a = some (.ok (), m) := by
  unfold Mem.setAttributes
  rw [if_neg (by rcases h1 with h | h; · omega
                 · rw [h]; simp)]
  unfold Mem.setLoop
  rw [if_neg (by omega)]

theorem core_empty {dbg : Bool} {n cur len a : Nat} (h1 : cur + len < W ∨ dbg = false) (h2 : addw cur len ≤ cur) :
    m.coreSetAttributes dbg f (n + 1) cur len a = some (.ok (), m) := by
  unfold Mem.coreSetAttributes
  rw [setAttributes_empty h1 h2]

/-- A change of a range that begins at the end of the memory space does not end. -/
theorem walk_at_end {dbg : Bool} {stop n : Nat} (hm : MemOk ns m) (h1 : m.gcd.max < stop) : m.walk dbg f upd stop n m.gcd.max = none := by
  induction n with
  | zero => rfl
  | succ n ih =>
    obtain ⟨d, hd, _, _, he⟩ := descriptor_ends hm.reach hm.some m.gcd.max
    have hW := (reachable_inv hm.reach).inv.ltW
    have e : min (addw d.base d.len) stop = m.gcd.max := by rw [he (Nat.le_refl _)]; omega
    have e2 : subw m.gcd.max m.gcd.max = 0 := by
      unfold subw
      rw [show m.gcd.max + W - m.gcd.max = W by omega]
      exact Nat.mod_self W
    unfold Mem.walk
    rw [if_pos h1, hd]
    dsimp only
    rw [e, e2, if_neg (by omega), core_empty (Or.inl (by omega)) (Nat.mod_le _ _)]
    exact ih

/-- Setting or clearing attributes of a range that begins where the memory space ends never returns, in debug and in release builds. -/
theorem beyond_end_hangs {dbg : Bool} (hm : MemOk ns m) (hb : m.gcd.max % 4096 = 0 ∧ len % 4096 = 0 ∧ attrs ≠ 0 ∧ attrs &&& 0x26000 = attrs)
    (hl : len ≠ 0) (hW : m.gcd.max + len < W) (rounds : Nat) :
    m.setMemoryAttributes dbg f rounds m.gcd.max len attrs = none ∧ m.clearMemoryAttributes dbg f rounds m.gcd.max len attrs = none := by
  rw [setMemory_eq hb hW, clearMemory_eq hb hW, walk_at_end hm (by omega), walk_at_end hm (by omega)]
  exact ⟨rfl, rfl⟩

/-- The memory manager service does not return either. -/
theorem beyond_end_manager_hangs {dbg : Bool} {count : Nat} {access : AccessType} {caching : Option CachingType} (hm : MemOk ns m)
    (h1 : m.gcd.max % 4096 = 0) (h2 : count ≠ 0) (hs : Supported access caching) (hW : m.gcd.max + count * 4096 < W) (rounds : Nat) :
    m.setPageAttributes dbg f rounds m.gcd.max count access caching = none := by
  obtain ⟨a, c, ha, hcc⟩ := supported_some hs
  rw [setPage_eq h2 h1 ha hcc hW, walk_at_end hm (by omega)]
  rfl

/-- For example the page after the memory space of the example. -/
example : MemOk 1 demoMem ∧ demoMem.gcd.max = 0x100000000 ∧ 0x100000000 + 0x1000 < W := ⟨demo_ok, by decide +kernel, by decide⟩

end Verif.Paging
