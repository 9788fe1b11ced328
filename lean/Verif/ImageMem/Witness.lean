import Verif.ImageMem.Stack
import Verif.Paging.WalkWitness
/-!
C64: concrete cases, and where the code falls short.
-/
namespace Verif.ImageMem
open Verif.Gcd Verif.Paging

/-- Six pages are allocated for an image, in the memory space of `demoMem`. -/
def loadCall : Call := .allocate (.address 0x10000) .systemMemory 12 0x6000 9 none

def imgMem : Mem := after true calm demoMem loadCall

theorem img_step : demoMem.step true 1 calm loadCall = some (.ok (), imgMem) := by
  have h : (demoMem.step true 1 calm loadCall).map Prod.fst = some (.ok ()) := by decide +kernel
  unfold imgMem after
  cases hx : demoMem.step true 1 calm loadCall with
  | none => rw [hx] at h; cases h
  | some p =>
    rw [hx] at h
    simp only [Option.map_some, Option.some.injEq] at h
    obtain ⟨r, m⟩ := p
    have h : r = .ok () := h
    rw [h]; rfl

theorem load_inRange : loadCall.InRange demoMem := by
  show ReqOk _ _ _
  exact ⟨by decide, by decide, by decide⟩

theorem demo_xp : ∀ a c, cellAt demoGcd.blocks a = some c → c.type ≠ .nonExistent → c.caps.testBit 14 = true := by
  have hall : ∀ b ∈ demoGcd.blocks, b.st.type ≠ .nonExistent → b.st.caps.testBit 14 = true := by decide +kernel
  have hg := good_of demo_reachable (by decide +kernel)
  intro a c hc
  obtain ⟨b, hb, b1, b2, b3⟩ := cellAt_some hg.tiles (Nat.zero_le a) (cellAt_bounds hg.tiles hc).2
  rw [hc] at b3; injection b3 with b3; rw [b3]
  exact hall b hb

theorem img_ok : MemOk 1 imgMem := (step_after demo_ok load_inRange img_step (by simp)).ok

theorem img_sync : Sync imgMem :=
  sync_step demo_ok demo_sync rfl load_inRange ⟨by decide, by decide, by decide +kernel, demo_xp⟩ img_step (by simp)

def imgCell : Cell := ⟨true, .systemMemory, 0x800000000002600F, 0x4008, 9, 0⟩

theorem img_uniform : Uniform imgMem.gcd.blocks 0x10000 (0x16000 - 0x10000) imgCell := by
  have h : ⟨0x10000, 0x6000, imgCell⟩ ∈ imgMem.gcd.blocks := by decide +kernel
  exact ⟨by decide, fun a h1 h2 => cellAt_mem (good_of img_ok.reach img_ok.some).tiles h h1 (by omega)⟩

/-- Headers, then code, constants and data; the data takes one and a half pages. -/
def text : Section := ⟨0x1000, 0xFFF, 0x60000020⟩
def rdata : Section := ⟨0x2000, 0x10, 0x40000040⟩
def data : Section := ⟨0x3000, 0x1800, 0xC0000040⟩

def sections : List (Section × Faults) := [(text, calm), (rdata, calm), (data, calm)]

theorem calm_calm : Calm calm := fun _ => ⟨rfl, rfl⟩

theorem spans_of {s : Section} {n : Nat} (h1 : 4096 ∣ n) (h2 : s.size ≤ n) (h3 : n < s.size + 4096) : s.Spans 4096 n :=
  ⟨h1, h2, fun m hm hs => by obtain ⟨a, rfl⟩ := h1; obtain ⟨b, rfl⟩ := hm; omega⟩

theorem sections_within : ∀ p ∈ sections, p.1.Within 0x10000 4096 0x10000 0x16000 ∧ Calm p.2 := by
  intro p hp
  simp only [sections, List.mem_cons, List.not_mem_nil, or_false] at hp
  rcases hp with rfl | rfl | rfl
  · exact ⟨⟨by decide, by decide, by decide, by decide, 0x1000, spans_of (by decide) (by decide) (by decide), by decide, by decide⟩, calm_calm⟩
  · exact ⟨⟨by decide, by decide, by decide, by decide, 0x1000, spans_of (by decide) (by decide) (by decide), by decide, by decide⟩, calm_calm⟩
  · exact ⟨⟨by decide, by decide, by decide, by decide, 0x2000, spans_of (by decide) (by decide) (by decide), by decide, by decide⟩, calm_calm⟩

/-- The hypotheses of the theorems about protecting and unloading are met by this image. -/
example : (∃ j, (4096 : Nat) = 2 ^ j ∧ 12 ≤ j) ∧ 0x10000 % 4096 = 0 ∧ imgMem.gcd.blocks.length + 4 * sections.length + 8 ≤ 4096 ∧
    imgMem.gcd.locked = false ∧ imgCell.allocated = true ∧ imgCell.caps ||| (0x26000 ||| 8) = imgCell.caps ∧ imgCell.attrs = 0x4000 ||| 8 ∧
    8 &&& 0xE6000 = 0 :=
  ⟨⟨12, rfl, by decide⟩, by decide, by decide +kernel, by decide +kernel, rfl, by decide, by decide, by decide⟩

theorem img_holds : Holds imgMem 0x10000 0x16000 8 :=
  ⟨by decide +kernel, by decide, ⟨by decide, by decide, fun a h1 h2 => by
      rw [img_uniform.2 a h1 h2, img_uniform.2 _ (by omega) (by omega)]⟩,
   fun a h1 h2 => ⟨imgCell, img_uniform.2 a h1 (by omega), by decide, by decide, by decide⟩⟩

/-- So the theorems apply: the image can be protected, unprotected and freed. -/
example : ∃ m1 m2 m3, protect true 1 0x10000 4096 sections imgMem = some (.ok (), m1) ∧ unprotect true 1 0x10000 4096 sections m1 = some (.ok (), m2) ∧
    m2.step true 1 calm (.free 0x10000 0x6000) = some (.ok (), m3) := by
  obtain ⟨m1, m2, m3, e1, e2, _, e3, _⟩ := loaded_then_unloaded (dbg := true) (base := 0x10000) (align := 4096) (k := 8) (l := sections) (l' := sections)
    ⟨12, rfl, by decide⟩ (by decide) img_ok img_sync (by decide +kernel) (by decide +kernel) sections_within sections_within rfl calm_calm img_uniform
    (by decide) (by decide) rfl (by decide) (by decide) (by decide)
  exact ⟨m1, m2, m3, e1, e2, e3⟩

/-- The state after protecting these sections. -/
def done (dbg : Bool) (l : List (Section × Faults)) (m : Mem) : Mem := ((protect dbg 1 0x10000 4096 l m).map Prod.snd).getD m
def undone (dbg : Bool) (l : List (Section × Faults)) (m : Mem) : Mem := ((unprotect dbg 1 0x10000 4096 l m).map Prod.snd).getD m

/-- How the pages of the image, and the next one, are mapped: headers, code, constants, twice data, and the rest. -/
example : (List.range 7).map (fun i => pageAt (done true sections imgMem) (16 + i)) =
      [some 0x4008, some 0x20008, some 0x24008, some 0x4008, some 0x4008, some 0x4008, none] ∧
    (List.range 7).map (fun i => pageAt (undone true sections (done true sections imgMem)) (16 + i)) =
      [some 0x4008, some 0x4008, some 0x4008, some 0x4008, some 0x4008, some 0x4008, none] := by
  decide +kernel

/-- The stack pages of the theorems: three pages, of which the first becomes the guard page. -/
example : StackPages imgMem 0x10000 (0x16000 - 0x10000) 8 imgCell :=
  ⟨⟨by decide, by decide⟩, img_uniform, rfl, by decide, by decide, by decide⟩

/-- The result of setting up the guard page. -/
def guarded (dbg : Bool) (m : Mem) : Mem := ((guard dbg 1 calm m 0x10000).map Prod.snd).getD m

example : (List.range 7).map (fun i => pageAt (guarded true imgMem) (16 + i)) =
    [none, some 0x4008, some 0x4008, some 0x4008, some 0x4008, some 0x4008, none] := by decide +kernel

/-- Stack and placement: a stack of 128 kilobytes and one byte; an image of 0x3000 bytes, with an alignment of 0x2000, in pages at
0x11000. -/
example : stackPages 4096 16 0x20001 = .ok (34, 0x20010) ∧ imagePages 0x4000 0x2000 = some 6 ∧ imageStart 0x11000 0x2000 = .ok 0x12000 := by
  decide +kernel

/-! ### Where the code falls short -/

/-- The virtual size of a section is not compared with the size of the image: a section that claims more makes memory of others read-only
and executable. Here the code section of the image, whose memory ends at 0x16000, claims sixteen pages more, and the memory after the image
is in use by someone else. -/
theorem section_reaches_out :
    let other := after true calm imgMem (.allocate (.address 0x16000) .systemMemory 12 0x1000 10 none)
    let greedy : Section := ⟨0x1000, 0x6000, 0x60000020⟩
    pageAt other 0x16 = some 0x4008 ∧ pageAt (done false [(greedy, calm)] other) 0x16 = some 0x20008 := by
  decide +kernel

/-- Memory of an image with protections cannot be freed as one range: it is not in one state. (That is why unloading removes them first; if
setting the attributes back fails, the memory stays allocated.) -/
theorem protected_not_freed :
    result true calm (done true sections imgMem) (.free 0x10000 0x6000) ≠ some (.ok ()) ∧
    result true calm (undone true sections (done true sections imgMem)) (.free 0x10000 0x6000) = some (.ok ()) := by
  decide +kernel

/-- A section alignment that is a multiple of the page size but not a power of two passes the checks made when an image is loaded; pages are
allocated for it, and then it is refused. (Nothing frees the pages: image.rs lines 208-212.) -/
theorem odd_alignment_refused_late : 0x3000 % 4096 = 0 ∧ imagePages 0x6000 0x3000 = some 9 ∧ imageStart 0x10000 0x3000 = .err .loadError := by
  decide +kernel

/-- Code that is marked writable is not: self-modifying code, or data in a code section, faults. -/
theorem writable_code_is_read_only : ∀ flags, flags.testBit 5 = true → sectionAccess flags = 0x20000 :=
  fun flags h => (access_of ⟨0, 0, flags⟩).code h

/-- If the page table fails in the middle, a section is left without its protections; the image is run nevertheless. -/
theorem failure_leaves_unprotected :
    let broken : Faults := ⟨fun _ => some .other, fun _ => false⟩
    (protect false 1 0x10000 4096 [(text, calm), (rdata, broken), (data, calm)] imgMem).map Prod.fst = some (.ok ()) ∧
    (List.range 4).map (fun i => pageAt (done false [(text, calm), (rdata, broken), (data, calm)] imgMem) (16 + i)) =
      [some 0x4008, some 0x20008, some 0x4008, some 0x4008] := by
  decide +kernel

end Verif.ImageMem
