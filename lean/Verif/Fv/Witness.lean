import Verif.Fv.Sections
import Verif.Fv.Install
import Verif.Services.Witness
/-!
Cases that meet the hypotheses of C81-C84, and limits of the code.
-/
namespace Verif.Fv.Witness
open Verif.Ffs Verif.Protocol Verif.Services

/-- A leaf, a packed leaf, and a leaf packed twice. -/
def leaf : Section := rawLeaf [2, 3] false
def once : Section := wrap [6, 0, 0, 0x19, 2, 3] leaf
def twice : Section := wrap ((SecHdr.guidDefined 7 24 1 [] 6).serialize ++ [6, 0, 0, 0x19, 2, 3]) once

/-- The extractor that undoes this packing. -/
def unpack : Extractor := fun s => .ok s.data

/-- Three files, one of them with padding before the next. -/
def demo : Volume := ⟨FFS2, 0x804, none, [⟨4, 64⟩, ⟨2, 128⟩],
  [⟨7, 0x07, 0, true, [rawLeaf [1, 2, 3, 4, 5] false, once]⟩, ⟨8, 0x02, 0x08, true, [leaf]⟩, ⟨9, 0x07, 0, true, [twice]⟩], some 512⟩

def demoBytes : List UInt8 := match demo.serialize with | .ok b => b | _ => []

/-- It is at 0x1000. -/
def mem (bytes : List UInt8) : Mem := fun a => if a < 0x1000 then 0 else bytes.getD (a - 0x1000) 0xff

def info : Info := BMap.insert (BMap.insert [] 0x50 (.block, 0x1000)) 0x60 (.volume, 0x1000)

def noPool : Nat → Except Status Nat := fun n => if n ≤ 100 then .ok 0x9000 else .error .outOfResources

theorem demo_serializes : demo.serialize = .ok demoBytes ∧ demoBytes.length = 512 := by
  have h : (match demo.serialize with | .ok b => b.length == 512 | _ => false) = true := by decide +kernel
  unfold demoBytes
  cases hs : demo.serialize with
  | ok b => rw [hs] at h; exact ⟨rfl, by simpa using h⟩
  | err e => rw [hs] at h; cases h
  | panic => rw [hs] at h; cases h

theorem demo_expressible : demo.Expressible := by
  refine ⟨Or.inl rfl, by decide, by decide, by decide, by decide, ?_, ?_⟩
  · intro f hf
    simp only [demo, List.mem_cons, List.not_mem_nil, or_false] at hf
    rcases hf with rfl | rfl | rfl <;> decide
  · intro e data h
    simp only [demo] at h
    cases h

theorem demo_stored : Stored (mem demoBytes) 0x1000 demoBytes := by
  intro i hi
  unfold mem
  rw [if_neg (by omega), Nat.add_sub_cancel_left, List.getD_eq_getElem?_getD, List.getElem?_eq_getElem hi]
  rfl

/-! ### C82 -/

/-- The hypotheses of `built_volume_read`: the volume is enumerated and its files are read. -/
example : ∃ enough, ∀ fuel, enough ≤ fuel → ∃ os, enumerate (mem demoBytes) info fuel 0x60 0 fuel 0 = some (os, .notFound) ∧
    os.map (fun o => (o.name, o.type)) = [(7, 0x07), (8, 0x02), (9, 0x07)] := by
  obtain ⟨n, h⟩ := built_volume_read noPool demo demo_expressible demoBytes demo_serializes.1 (by rw [demo_serializes.2]; decide) (by decide)
    demo_stored (info := info) (this := 0x60) (by decide)
  exact ⟨n, fun fuel hf => (h fuel hf).1⟩

example : (enumerate (mem demoBytes) info 50 0x60 0x07 50 0).map (fun x => (x.1.map (fun o => (o.key, o.name, o.size)), x.2))
    = some ([(1, 7, 66), (2, 9, 78)], .notFound) := by decide +kernel
example : readFile noPool (mem demoBytes) info 50 0x60 true 8 (some 5) 100 = some ⟨.success, some (2, 4, 6), none, some (5, [6, 0, 0, 0x19, 2, 3])⟩ ∧
    readFile noPool (mem demoBytes) info 50 0x60 true 8 (some 5) 5 = some ⟨.bufferTooSmall, some (2, 4, 6), none, none⟩ ∧
    readFile noPool (mem demoBytes) info 50 0x60 true 8 (some 5) 0 = some ⟨.success, some (2, 4, 6), some 0x9000, some (0x9000, [6, 0, 0, 0x19, 2, 3])⟩ ∧
    readFile noPool (mem demoBytes) info 50 0x60 true 3 (some 5) 100 = some ⟨.notFound, none, none, none⟩ ∧
    readFile noPool (mem demoBytes) info 50 0x50 true 8 (some 5) 100 = some ⟨.notFound, none, none, none⟩ := by decide +kernel

/-! ### C81 -/

theorem demo_block : ∃ v, BlockOf (mem demoBytes) info 0x50 0x1000 v ∧ v.blockMap = [⟨4, 64⟩, ⟨2, 128⟩] := by
  have h : (match openVolume (mem demoBytes) 0x1000 with | .ok v => decide (v.blockMap = [⟨4, 64⟩, ⟨2, 128⟩]) | _ => false) = true := by decide +kernel
  cases hv : openVolume (mem demoBytes) 0x1000 with
  | ok v => rw [hv] at h; exact ⟨v, ⟨by decide, hv⟩, of_decide_eq_true h⟩
  | err e => rw [hv] at h; cases h
  | panic => rw [hv] at h; cases h

/-- The hypotheses of `block_read_partial` for the last block of the first region, of `first_block_size_zero` and of `read_wrong_place`. -/
example : (layoutFrom 0 [⟨4, 64⟩, ⟨2, 128⟩])[3]? = some (192, 64) ∧ numBlocks [⟨4, 64⟩, ⟨2, 128⟩] = 6 ∧ numBytes [⟨4, 64⟩, ⟨2, 128⟩] = 512 ∧
    numBytes [⟨4, 64⟩] + (numBlocks [⟨4, 64⟩] + 1) * 128 < 2 ^ 32 := by decide

example : blockRead false (mem demoBytes) info 0x50 1 60 8 true = ⟨.badBufferSize, some 4, some [0, 0, 0, 0]⟩ ∧
    blockRead true (mem demoBytes) info 0x50 1 60 8 true = ⟨.panics, none, none⟩ ∧
    (blockRead false (mem demoBytes) info 0x50 1 8 4 true).status = .success ∧
    blockRead false (mem demoBytes) info 0x50 6 0 4 true = ⟨.invalidParameter, none, none⟩ ∧
    blockSize false (mem demoBytes) info 0x50 1 true = (.success, some (64, 64)) ∧
    blockSize false (mem demoBytes) info 0x50 0 true = (.success, some (0, 64)) := by decide +kernel

/-! ### C83 -/

theorem leaf_tidy : leaf.Tidy := by
  simp [leaf, rawLeaf, Section.Tidy, AllTidy, Section.Good, Section.isDirty, SecHdr.WF, SecHdr.FitsAt,
    SecHdr.encapsulates, SecHdr.contentSize, contentLoop]
  decide

theorem once_tidy : once.Tidy := by
  simp [once, leaf, wrap, rawLeaf, Section.Tidy, AllTidy, Section.Good, Section.isDirty, anyDirty, SecHdr.WF, SecHdr.FitsAt,
    SecHdr.encapsulates, SecHdr.contentSize, contentLoop, Section.serialize, SecHdr.contentOffset]
  decide

theorem once_packed : once.Packed unpack := by
  refine ⟨fun _ => ⟨[6, 0, 0, 0x19, 2, 3], ?_, fun s' _ h _ => by simp [unpack, h]⟩, ?_⟩
  · have e : (SecHdr.standard 25 2).serialize = [6, 0, 0, 0x19] := by decide
    simp [leaf, rawLeaf, contentLoop, Section.serialize, Section.isDirty, e]
  · simp [AllPacked, leaf, rawLeaf, Section.Packed]

/-- The hypotheses of `read_section_partial` for the first file. -/
example : AllTidy [rawLeaf [1, 2, 3, 4, 5] false, once] ∧ AllPacked unpack [rawLeaf [1, 2, 3, 4, 5] false, once] ∧
    maxDepth [rawLeaf [1, 2, 3, 4, 5] false, once] = 2 ∧ OneLevel [rawLeaf [1, 2, 3, 4, 5] false, once] := by
  refine ⟨⟨?_, once_tidy, trivial⟩, ⟨?_, once_packed, trivial⟩, by decide, ?_⟩
  · simp [rawLeaf, Section.Tidy, AllTidy, Section.Good, Section.isDirty, SecHdr.WF, SecHdr.FitsAt,
      SecHdr.encapsulates, SecHdr.contentSize, contentLoop]
    decide
  · simp [AllPacked, rawLeaf, Section.Packed]
  · intro s hs t ht
    simp only [List.mem_cons, List.not_mem_nil, or_false] at hs
    rcases hs with rfl | rfl
    · simp [rawLeaf] at ht
    · simp [once, wrap] at ht; subst ht; rfl

example : readSection false noPool unpack 10 (mem demoBytes) info 50 0x60 true 7 0x19 0 0 0 = some ⟨.success, some 5, some 0x9000, some (0x9000, [1, 2, 3, 4, 5])⟩ ∧
    readSection false noPool unpack 10 (mem demoBytes) info 50 0x60 true 7 0x19 1 0 0 = some ⟨.success, some 2, some 0x9000, some (0x9000, [2, 3])⟩ ∧
    readSection false noPool unpack 10 (mem demoBytes) info 50 0x60 true 7 0x19 2 0 0 = some ⟨.notFound, none, none, none⟩ ∧
    readSection false noPool unpack 10 (mem demoBytes) info 50 0x60 true 7 0x19 0 7 3 = some ⟨.warnBufferTooSmall, some 5, none, some (7, [1, 2, 3])⟩ ∧
    readSection false noPool unpack 10 (mem demoBytes) info 50 0x60 true 7 0x19 0 7 6 = some ⟨.panics, some 5, none, none⟩ := by decide +kernel

/-- Finding: a section that is packed twice is not found, although the extractor takes everything apart. -/
theorem nested_missed : (twice.Tidy ∧ twice.Packed unpack ∧ leaf ∈ deepAll [twice] ∧ leaf.hdr.ty = 0x19) ∧
    readSection false noPool unpack 10 (mem demoBytes) info 50 0x60 true 9 0x19 0 0 0 = some ⟨.notFound, none, none, none⟩ := by
  have e : (SecHdr.guidDefined 7 24 1 [] 6).serialize = [30, 0, 0, 2, 7, 0, 0, 0, 0, 0, 0, 0, 0, 0, 0, 0, 0, 0, 0, 0, 24, 0, 1, 0] := by decide
  refine ⟨⟨⟨⟨?_, ?_, rfl, ?_, ?_⟩, rfl, rfl, rfl, ?_, ?_, once_tidy, trivial⟩, ⟨fun _ => ⟨_, ?_, fun s' _ h _ => by simp [unpack, h]; rfl⟩, once_packed, trivial⟩, ?_, rfl⟩, by decide +kernel⟩
  · decide
  · simp only [SecHdr.WF, SecHdr.FitsAt, e]; decide
  · decide
  · decide
  · intro h; cases h
  · intro body hb
    simp [once, wrap, leaf, rawLeaf, contentLoop, Section.serialize, Section.isDirty, anyDirty, e] at hb
    rw [← hb]; decide
  · simp [once, wrap, leaf, rawLeaf, contentLoop, Section.serialize, Section.isDirty, anyDirty]
  · simp only [deepAll, deep_eq, twice, once, wrap]
    simp

/-! ### C84 -/

/-- A world in which events do nothing. -/
def quietWorld : World (Rest Unit) where
  hash := idHash
  lim := 10
  disconnect := fun s _ _ => (true, s)
  connect := fun s _ => s
  signal := fun s _ => (true, s)
  queue := fun r _ => (true, r)
  pool := fun r _ => (none, r)
  remaining := fun _ _ _ => none
  isEnd := fun _ _ => false

theorem honest : Honest quietWorld := ⟨fun _ _ _ h => h, fun _ _ h => h, fun _ _ h => h⟩
theorem keeps : Keeps quietWorld := ⟨fun _ _ _ _ _ => rfl, fun _ _ _ _ => rfl, fun _ _ _ _ => rfl⟩
theorem grows : Grows quietWorld := ⟨fun _ _ _ _ _ h => h, fun _ _ _ _ h => h, fun _ _ _ _ h => h, fun _ _ => ⟨fun _ _ h => h, fun _ _ h => h⟩⟩
theorem unused (p : Nat) : Unused quietWorld p := ⟨fun _ _ h => h, fun _ _ h => h⟩

/-- The core's handle is there, and no volume. -/
def start : St (Rest Unit) := ⟨Db.new.run idHash 10 [.install none 5 500], ⟨[], [], ()⟩⟩

theorem start_made : Made quietWorld.hash quietWorld.lim start.db := ⟨_, rfl⟩

theorem start_fresh (l : List Nat) (h : l.Nodup) : Fresh quietWorld start l := ⟨h, fun p _ => ⟨⟨rfl, rfl⟩, unused p⟩⟩

/-- Two volumes from HOBs, the second time the same memory; then a damaged one and another. -/
example : (installVolume false quietWorld false (mem demoBytes) start 0x1000 ⟨0x10, 0x50, 0x60⟩).1 = .ok 2 ∧
    (installHobs false quietWorld false (mem demoBytes) [(0x1000, 512, ⟨0x10, 0x50, 0x60⟩), (0x1000, 512, ⟨0x11, 0x51, 0x61⟩)] start).1 = .ok () ∧
    (installHobs false quietWorld false (mem demoBytes)
      [(0x1000, 512, ⟨0x10, 0x50, 0x60⟩), (0, 512, ⟨0x11, 0x51, 0x61⟩), (0x1000, 512, ⟨0x12, 0x52, 0x62⟩)] start).1 = .err .volumeCorrupted := by
  decide +kernel

end Verif.Fv.Witness
