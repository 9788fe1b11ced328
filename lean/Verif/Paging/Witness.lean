import Verif.Paging.HistProps
/-!
C63: concrete cases, and where the code falls short.
-/
namespace Verif.Paging
open Verif.Gcd

variable {ns : Nat} {dbg : Bool} {f : Faults} {m : Mem} {base len attrs : Nat}

/-! ### A state the theorems are about -/

/-- The page table that goes with a memory space whose descriptors are made of whole pages. -/
def tableOf (g : Gcd) : Table := fun p =>
  match cellAt g.blocks (p * 4096) with
  | some c => mappingOf c
  | none => none

theorem pageWise_blocks {l : List (Block Cell)} (h : ∀ b ∈ l, b.base % 4096 = 0 ∧ b.len % 4096 = 0) (a : Nat) :
    cellAt l a = cellAt l (a / 4096 * 4096) := by
  induction l with
  | nil => rfl
  | cons b l ih =>
    have hb := h b List.mem_cons_self
    have ih := ih fun x hx => h x (List.mem_cons_of_mem _ hx)
    unfold cellAt
    by_cases hin : b.base ≤ a ∧ a < b.base + b.len
    · rw [if_pos hin, if_pos (by omega)]
    · rw [if_neg hin, if_neg (by omega)]; exact ih

theorem sync_tableOf {d s k : Nat} {g : Gcd} (h : ∀ b ∈ g.blocks, b.base % 4096 = 0 ∧ b.len % 4096 = 0) : Sync ⟨g, some (tableOf g), d, s, k⟩ := by
  intro t ht a c hc
  injection ht with ht; subst ht
  have hc : cellAt g.blocks a = some c := hc
  unfold tableOf
  rw [← pageWise_blocks h, hc]

theorem tableOk_tableOf {d s k : Nat} {g : Gcd} : TableOk ⟨g, some (tableOf g), d, s, k⟩ := by
  intro t p a ht hp
  injection ht with ht; subst ht
  unfold tableOf at hp
  cases hc : cellAt g.blocks (p * 4096) with
  | none => rw [hc] at hp; cases hp
  | some c =>
    rw [hc] at hp
    have hp : mappingOf c = some a := hp
    unfold mappingOf at hp
    split at hp
    · cases hp
    · exact mappingFor_ok hp

/-- The memory space of `demoGcd`, with its page table. -/
def demoMem : Mem := ⟨demoGcd, some (tableOf demoGcd), 0x4000, 0, 0⟩

theorem demo_ok : MemOk 1 demoMem :=
  ⟨demo_reachable, by decide +kernel, tableOk_tableOf, by decide⟩

theorem demo_aligned : ∀ b ∈ demoGcd.blocks, b.base % 4096 = 0 ∧ b.len % 4096 = 0 := by decide +kernel

theorem demo_sync : Sync demoMem := sync_tableOf demo_aligned

/-- The page table neither fails nor needs memory. -/
def calm : Faults := ⟨fun _ => none, fun _ => false⟩

/-- The state after a call, if it returns. -/
def after (dbg : Bool) (f : Faults) (m : Mem) (c : Call) : Mem := ((m.step dbg 1 f c).map Prod.snd).getD m

/-- The result of the call. -/
def result (dbg : Bool) (f : Faults) (m : Mem) (c : Call) : Option (Outcome EfiError Unit) := (m.step dbg 1 f c).map Prod.fst

/-- How page `p` is mapped. -/
def pageAt (m : Mem) (p : Nat) : Option Nat := m.table.bind (· p)

/-- The hypotheses of the theorems about setting attributes are met by a range of three descriptors, two of which are
read-protected. -/
example : (0x4000 + 0x6000 ≤ demoMem.gcd.max) ∧ (0x4008 &&& 0x2701F ≠ 0) ∧ PageWise demoMem.gcd 0x4000 0x6000 ∧
    demoMem.gcd.blocks.length + 8 ≤ 4096 ∧ pageAt demoMem 4 = none ∧ pageAt demoMem 8 = some 8 ∧
    result true calm demoMem (.setAttributes 0x4000 0x6000 0x4008) = some (.ok ()) ∧
    (List.range 12).map (pageAt (after true calm demoMem (.setAttributes 0x4000 0x6000 0x4008))) =
      [some 0x4008, none, none, none, some 0x4008, some 0x4008, some 0x4008, some 0x4008, some 0x4008, some 0x4008, none, none] ∧
    (after true calm demoMem (.setAttributes 0x4000 0x6000 0x4008)).signals = 2 := by
  refine ⟨by decide +kernel, by decide, ⟨by decide, by decide, fun a _ _ => pageWise_blocks demo_aligned a⟩, ?_⟩
  decide +kernel

example : Supports demoMem.gcd 0x4000 0x6000 0x4008 := by
  have h : ∀ b ∈ demoGcd.blocks, b.base < 0xA000 → 0x4000 < b.base + b.len → b.st.type ≠ .nonExistent ∧ b.st.caps ||| 0x4008 = b.st.caps := by
    decide +kernel
  have hg := good_of demo_reachable (by decide +kernel)
  intro a h1 h2
  have hmax : demoGcd.max = 0x100000000 := by decide +kernel
  obtain ⟨b, hb, b1, b2, b3⟩ := cellAt_some hg.tiles (Nat.zero_le a) (by omega)
  exact ⟨b.st, b3, h b hb (by omega) (by omega)⟩

/-- The hypotheses about allocating and freeing: two pages are allocated, mapped non-executable, freed and unmapped again. -/
example :
    let c : Call := .allocate (.topDown none) .systemMemory 12 0x2000 9 none
    let m1 := after true calm demoMem c
    let m2 := after true calm m1 (.free 0xFE000 0x2000)
    result true calm demoMem c = some (.ok ()) ∧ pageAt demoMem 0xFE = none ∧ pageAt m1 0xFE = some 0x4008 ∧ pageAt m1 0xFF = some 0x4008 ∧
    result true calm m1 (.free 0xFE000 0x2000) = some (.ok ()) ∧ pageAt m2 0xFE = none ∧ pageAt m2 0xFF = none := by
  decide +kernel

/-- The conditions on the memory an allocation may get hold in the example. -/
example : Call.Proper calm demoMem (.allocate (.topDown none) .systemMemory 12 0x2000 9 none) := by
  have h : ∀ b ∈ demoGcd.blocks, b.st.type ≠ .nonExistent → b.st.caps.testBit 14 = true := by decide +kernel
  refine ⟨by decide, by decide, by decide +kernel, fun a c hc hty => ?_⟩
  have hg := good_of demo_reachable (by decide +kernel)
  obtain ⟨b, hb, _, _, b3⟩ := cellAt_some hg.tiles (Nat.zero_le a) (cellAt_bounds hg.tiles hc).2
  have hc : cellAt demoGcd.blocks a = some c := hc
  rw [b3] at hc; injection hc with hc
  rw [← hc] at hty ⊢
  exact h b hb hty

/-- So there are histories of more than one call that `page_table_agrees` is about. -/
example : ∃ m1 m2, History true 1 (fun f m c => c.InRange m ∧ c.Proper f m) demoMem m2 ∧ m1 = after true calm demoMem .lock ∧
    m2 = after true calm m1 .unlock :=
  ⟨_, _, .call (.call (.none _) ⟨trivial, trivial⟩ (f := calm) (c := .lock) rfl (by simp)) ⟨trivial, trivial⟩ (f := calm) (c := .unlock) rfl (by simp),
    rfl, rfl⟩

/-! ### Where the code falls short -/

/-- After the memory space is locked (ExitBootServices), a free of any page-aligned range, allocated or not, reports success
and takes it out of the page table, although the memory space is left alone (release and debug builds). -/
theorem locked_free_unmaps {t : Table} (hlk : m.gcd.locked = true) (ht : m.table = some t) (h1 : base % 4096 = 0) (h2 : len % 4096 = 0)
    (h3 : len ≠ 0) (hf : f.fail base = none) (hr : f.refill base = false) :
    m.free dbg f base len = (.ok (), { m with table := some (t.set base len none) }) := by
  unfold Mem.free
  rw [locked_free hlk]
  dsimp only
  rw [ht]
  dsimp only
  unfold Mem.unmap Mem.refill
  rw [if_neg (by rw [hr]; simp)]
  dsimp only
  rw [if_neg (by rw [rangeOk_iff.2 ⟨h1, h2, h3⟩]; simp), hf]

/-- For example the page with the map of the memory space itself: after the lock anyone can have it unmapped. -/
example :
    let m1 := after false calm demoMem .lock
    let m2 := after false calm m1 (.free 0 0x1000)
    result false calm m1 (.free 0 0x1000) = some (.ok ()) ∧ pageAt m1 0 = some 0x4008 ∧ pageAt m2 0 = none ∧
    (cellAt m2.gcd.blocks 0).map (fun c => (c.allocated, c.attrs)) = some (true, 0x4008) := by
  decide +kernel

/-- Memory freed but kept for its owner stays mapped, though its descriptor says it is read-protected. -/
theorem kept_memory_stays_mapped :
    let m1 := after false calm demoMem (.allocate (.address 0x1000) .systemMemory 12 0x1000 9 none)
    let m2 := after false calm m1 (.freeKeep 0x1000 0x1000)
    result false calm m1 (.freeKeep 0x1000 0x1000) = some (.ok ()) ∧ pageAt m2 1 = some 0x4008 ∧
    (cellAt m2.gcd.blocks 0x1000).map (fun c => (c.allocated, c.attrs)) = some (false, 0x2008) := by
  decide +kernel

/-- … and the next allocation by that owner that covers both this page and pages that are not mapped is handed out with those
pages not mapped, in a release build; a debug build panics. -/
theorem kept_memory_breaks_allocation :
    let m1 := after false calm demoMem (.allocate (.address 0x1000) .systemMemory 12 0x1000 9 none)
    let m2 := after false calm m1 (.freeKeep 0x1000 0x1000)
    let c : Call := .allocate (.address 0x1000) .systemMemory 12 0x3000 9 none
    result false calm m2 c = some (.ok ()) ∧ pageAt (after false calm m2 c) 2 = none ∧ pageAt (after false calm m2 c) 3 = none ∧
    result true calm m2 c = some .panic := by
  decide +kernel

/-- Attributes that the memory does not support are reported as set, and the page table has them; the memory space does not. -/
theorem refused_reported_set :
    let m1 := after false calm demoMem (.setAttributes 0x8000 0x1000 0x1008)
    result false calm demoMem (.setAttributes 0x8000 0x1000 0x1008) = some (.ok ()) ∧ pageAt m1 8 = some 0x1008 ∧
    (cellAt m1.gcd.blocks 0x8000).map Cell.attrs = some 8 := by
  decide +kernel

/-- Attributes without any access or cache attribute are set in the memory space only. -/
theorem no_cache_attributes_desync :
    let m1 := after false calm demoMem (.setAttributes 0x4000 0x1000 0x8000000000000000)
    result false calm demoMem (.setAttributes 0x4000 0x1000 0x8000000000000000) = some (.ok ()) ∧ pageAt m1 4 = none ∧
    (cellAt m1.gcd.blocks 0x4000).map Cell.attrs = some 0x8000000000000000 ∧ ¬ Sync m1 := by
  refine ⟨by decide +kernel, by decide +kernel, by decide +kernel, fun h => ?_⟩
  have e : (after false calm demoMem (.setAttributes 0x4000 0x1000 0x8000000000000000)).table = some (tableOf demoGcd) := rfl
  have := h (tableOf demoGcd) e 0x4000
  generalize hc : cellAt (after false calm demoMem (.setAttributes 0x4000 0x1000 0x8000000000000000)).gcd.blocks 0x4000 = x at this
  have hx : x = some ⟨false, .systemMemory, 0x800000000002600F, 0x8000000000000000, 0, 0⟩ := by rw [← hc]; decide +kernel
  rw [hx] at this
  have := this _ rfl
  revert this
  decide +kernel

/-- An allocation that is not a whole number of pages is handed out without being mapped. -/
theorem unaligned_not_mapped :
    let c : Call := .allocate (.topDown none) .systemMemory 12 0x800 9 none
    result false calm demoMem c = some (.ok ()) ∧ pageAt (after false calm demoMem c) 0xFF = none ∧
    (cellAt (after false calm demoMem c).gcd.blocks 0xFF000).map (fun c => (c.allocated, c.image)) = some (true, 9) := by
  decide +kernel

/-- If the page table fails to unmap freed memory, the free reports success and the memory stays mapped. -/
theorem free_hides_failure :
    let f : Faults := ⟨fun _ => some .outOfResources, fun _ => false⟩
    result false f demoMem (.free 0 0x1000) = some (.ok ()) ∧ pageAt (after false f demoMem (.free 0 0x1000)) 0 = some 0x4008 ∧
    (cellAt (after false f demoMem (.free 0 0x1000)).gcd.blocks 0).map (fun c => (c.allocated, c.attrs)) = some (false, 0x2008) := by
  decide +kernel

/-- If the page table fails to map newly allocated memory, the allocation succeeds (release builds) and is not mapped. -/
theorem allocate_hides_failure :
    let f : Faults := ⟨fun _ => some .outOfResources, fun _ => false⟩
    let c : Call := .allocate (.topDown none) .systemMemory 12 0x2000 9 none
    result false f demoMem c = some (.ok ()) ∧ pageAt (after false f demoMem c) 0xFE = none := by
  decide +kernel

theorem beyond_end_stuck {stop n : Nat} (ha : attrs < W) (h2 : stop < W) : ∀ {m : Mem} {cur : Nat} {res : Outcome EfiError Unit},
    Reachable ns m.gcd → m.gcd.blocks ≠ [] → m.table = none ∨ attrs &&& PT_MASK = 0 → m.gcd.max < stop → cur < stop →
    Mem.setLoop false f attrs stop n m cur res = none := by
  induction n with
  | zero => intros; rfl
  | succ n ih =>
    intro m cur res hr hne ht h1 h3
    have hi := (reachable_inv hr).inv
    have hg := good_of hr hne
    obtain ⟨z, hz, hplug, _⟩ := seek_spec (k := cur) hg.tiles hi.pos
    have hmem : z.cur ∈ m.gcd.blocks := by rw [← hplug]; unfold Zip.plug; simp
    have hend := (tiles_mem hg.tiles hmem).2.2
    have hd : m.gcd.descriptorFor cur = .ok z.cur := by
      unfold Gcd.descriptorFor
      rw [if_neg (by have := hi.pos; omega), hz]
    have hw : addw z.cur.base z.cur.len ≤ m.gcd.max := Nat.le_trans (Nat.mod_le _ _) hend
    generalize hl : subw (min (addw z.cur.base z.cur.len) stop) cur = l
    have hlw : l < W := by rw [← hl]; exact Nat.mod_lt _ (by decide)
    obtain ⟨x1, x2, _⟩ := setGcd_later (ns := ns) (m := m) (attrs := attrs) (base := cur) (len := l) hr (by omega) hlw ha
    unfold Mem.setLoop
    rw [if_pos h3, hd]
    dsimp only
    rw [hl]
    unfold Mem.setPiece
    rw [if_neg (by simp)]
    generalize m.setGcd cur l attrs = m1 at x1 x2 ⊢
    have hmax := x1.max
    have hne1 := x1.some hne
    have hgo : ∀ r, Mem.setLoop false f attrs stop n m1 (min (addw z.cur.base z.cur.len) stop) r = none := fun r =>
      ih x1.reach hne1 (by rw [x2]; exact ht) (by omega) (by omega)
    unfold Mem.setTable
    by_cases h0 : attrs &&& PT_MASK = 0
    · rw [if_pos h0]; exact hgo _
    · rw [if_neg h0]
      have ht1 : m1.table = none := by rw [x2]; exact ht.resolve_right h0
      unfold Mem.setPaging
      rw [ht1]
      exact hgo _

/-- Setting the attributes of a range that reaches beyond the end of the memory space does not return (release builds), if there is
no page table yet or no access or cache attribute is asked for: the loop has not ended after any number of rounds. -/
theorem beyond_end_never_returns (hm : MemOk ns m) (ha : attrs < W) (ht : m.table = none ∨ attrs &&& 0x2701F = 0) (hl : len ≠ 0)
    (h1 : m.gcd.max < base + len) (h2 : base + len < W) (rounds : Nat) : m.setAttributes false f rounds base len attrs = none := by
  unfold Mem.setAttributes
  have e : addw base len = base + len := Nat.mod_eq_of_lt h2
  rw [if_neg (by simp), e]
  exact beyond_end_stuck ha h2 hm.reach hm.some ht h1 (by omega)

/-- For example the last page and one more, with only the runtime attribute. -/
example : MemOk 1 demoMem ∧ demoMem.gcd.max < 0xFFFFF000 + 0x2000 ∧ 0x8000000000000000 &&& 0x2701F = 0 :=
  ⟨demo_ok, by decide +kernel, by decide⟩

end Verif.Paging
