import Verif.Pecoff.Model
/-!
C60: loading an image places exactly the bytes its header asks for.
-/
namespace Verif.Pecoff
open Verif

theorem getRange_some {b : List UInt8} {i n : Nat} {s : List UInt8} :
    getRange b i n = some s ↔ i + n ≤ b.length ∧ s = (b.drop i).take n := by
  unfold getRange
  split
  · rename_i h
    simp only [Option.some.injEq]
    exact ⟨fun e => ⟨h, e.symm⟩, fun e => e.2.symm⟩
  · rename_i h
    exact ⟨(fun e => by cases e), fun e => absurd e.1 h⟩

theorem getRange_none {b : List UInt8} {i n : Nat} : getRange b i n = none ↔ b.length < i + n := by
  unfold getRange
  split
  · rename_i h
    exact ⟨(fun e => by cases e), fun e => absurd h (by omega)⟩
  · rename_i h
    exact ⟨fun _ => by omega, fun _ => rfl⟩

theorem put_length {b : List UInt8} {i : Nat} {bs : List UInt8} (h : i + bs.length ≤ b.length) :
    (put b i bs).length = b.length := by
  unfold put
  simp only [List.length_append, List.length_take, List.length_drop]
  omega

theorem put_get {b : List UInt8} {i : Nat} {bs : List UInt8} (h : i + bs.length ≤ b.length) (j : Nat) :
    (put b i bs)[j]? = if i ≤ j ∧ j < i + bs.length then bs[j - i]? else b[j]? := by
  unfold put
  rw [List.append_assoc, List.getElem?_append]
  have l1 : (b.take i).length = i := by rw [List.length_take]; omega
  rw [l1]
  by_cases h1 : j < i
  · rw [if_pos h1, if_neg (by omega), List.getElem?_take, if_pos h1]
  · rw [if_neg h1, List.getElem?_append]
    by_cases h2 : j < i + bs.length
    · rw [if_pos (by omega), if_pos ⟨by omega, h2⟩]
    · rw [if_neg (by omega), if_neg (by omega), List.getElem?_drop]
      congr 1
      omega

/-- How many bytes of the section come from the file: what the file holds of it, but not more than the section takes up in
memory (a virtual size of 0 says nothing about that). -/
def Section.fromFile (s : Section) : Nat :=
  if s.virtualSize = 0 then s.sizeOfRawData else min s.virtualSize s.sizeOfRawData

theorem Section.copied_eq (s : Section) : s.copied = s.fromFile := by
  unfold Section.copied Section.fromFile
  by_cases h1 : s.virtualSize = 0
  · rw [if_pos (Or.inl h1), if_pos h1]
  · rw [if_neg h1]
    by_cases h2 : s.virtualSize > s.sizeOfRawData
    · rw [if_pos (Or.inr h2)]; omega
    · rw [if_neg (by omega)]; omega

/-- Byte `i` of the loaded image lies in the part of the section that comes from the file. -/
def Section.Covers (s : Section) (i : Nat) : Prop :=
  s.virtualAddress ≤ i ∧ i < s.virtualAddress + s.fromFile

/-- The section fits into the file and into the buffer. -/
def Section.Fits (s : Section) (image buf : List UInt8) : Prop :=
  s.virtualAddress + s.fromFile ≤ buf.length ∧ s.pointerToRawData + s.fromFile ≤ image.length

theorem loadSections_length (image : List UInt8) (ss : List Section) (buf : List UInt8) :
    (loadSections image ss buf).2.length = buf.length := by
  induction ss generalizing buf with
  | nil => rfl
  | cons s ss ih =>
    simp only [loadSections, Section.copied_eq]
    cases h1 : getRange buf s.virtualAddress s.fromFile with
    | none => rfl
    | some d =>
      cases h2 : getRange image s.pointerToRawData s.fromFile with
      | none => rfl
      | some src =>
        simp only
        rw [ih, put_length]
        obtain ⟨a1, _⟩ := getRange_some.1 h1
        obtain ⟨a2, a3⟩ := getRange_some.1 h2
        rw [a3, List.length_take, List.length_drop]
        omega

theorem loadSections_cases (image : List UInt8) (ss : List Section) (buf : List UInt8) :
    ((loadSections image ss buf).1 = .ok () ∧ ∀ s ∈ ss, s.Fits image buf) ∨
    ((∃ n w, (loadSections image ss buf).1 = .err (.bufferTooShort n w)) ∧ ∃ s ∈ ss, ¬ s.Fits image buf) := by
  induction ss generalizing buf with
  | nil => exact Or.inl ⟨rfl, fun s hs => (List.not_mem_nil hs).elim⟩
  | cons s ss ih =>
    simp only [loadSections, Section.copied_eq]
    cases h1 : getRange buf s.virtualAddress s.fromFile with
    | none =>
      exact Or.inr ⟨⟨_, _, rfl⟩, s, List.mem_cons_self, fun f => by
        have := getRange_none.1 h1; have := f.1; omega⟩
    | some d =>
      cases h2 : getRange image s.pointerToRawData s.fromFile with
      | none =>
        exact Or.inr ⟨⟨_, _, rfl⟩, s, List.mem_cons_self, fun f => by
          have := getRange_none.1 h2; have := f.2; omega⟩
      | some src =>
        obtain ⟨a1, _⟩ := getRange_some.1 h1
        obtain ⟨a2, a3⟩ := getRange_some.1 h2
        have hl : (put buf s.virtualAddress src).length = buf.length := put_length (by
          rw [a3, List.length_take, List.length_drop]; omega)
        have key : ∀ t : Section, t.Fits image (put buf s.virtualAddress src) ↔ t.Fits image buf := fun t => by
          unfold Section.Fits; rw [hl]
        rcases ih (put buf s.virtualAddress src) with ⟨e, f⟩ | ⟨e, t, ht, nf⟩
        · refine Or.inl ⟨e, fun t ht => ?_⟩
          rcases List.mem_cons.1 ht with rfl | ht
          · exact ⟨a1, a2⟩
          · exact (key t).1 (f t ht)
        · exact Or.inr ⟨e, t, List.mem_cons_of_mem _ ht, fun f => nf ((key t).2 f)⟩

theorem loadSections_uncovered (image : List UInt8) (ss : List Section) (buf : List UInt8) (i : Nat)
    (h : ∀ s ∈ ss, ¬ s.Covers i) : (loadSections image ss buf).2[i]? = buf[i]? := by
  induction ss generalizing buf with
  | nil => rfl
  | cons s ss ih =>
    simp only [loadSections, Section.copied_eq]
    cases h1 : getRange buf s.virtualAddress s.fromFile with
    | none => rfl
    | some d =>
      cases h2 : getRange image s.pointerToRawData s.fromFile with
      | none => rfl
      | some src =>
        simp only
        rw [ih _ (fun t ht => h t (List.mem_cons_of_mem _ ht))]
        obtain ⟨a1, _⟩ := getRange_some.1 h1
        obtain ⟨a2, a3⟩ := getRange_some.1 h2
        have hl : src.length = s.fromFile := by rw [a3, List.length_take, List.length_drop]; omega
        rw [put_get (by omega), if_neg]
        intro c
        exact h s List.mem_cons_self ⟨c.1, by omega⟩

theorem loadSections_covered (image : List UInt8) (pre : List Section) (s : Section) (post : List Section)
    (buf out : List UInt8) (h : loadSections image (pre ++ s :: post) buf = (.ok (), out)) (i : Nat)
    (c : s.Covers i) (hp : ∀ t ∈ post, ¬ t.Covers i) :
    out[i]? = image[s.pointerToRawData + (i - s.virtualAddress)]? := by
  induction pre generalizing buf with
  | nil =>
    simp only [List.nil_append, loadSections, Section.copied_eq] at h
    cases h1 : getRange buf s.virtualAddress s.fromFile with
    | none => simp only [h1] at h; cases h
    | some d =>
      cases h2 : getRange image s.pointerToRawData s.fromFile with
      | none => simp only [h1, h2] at h; cases h
      | some src =>
        simp only [h1, h2] at h
        have e : out = (loadSections image post (put buf s.virtualAddress src)).2 := by rw [h]
        rw [e, loadSections_uncovered _ _ _ _ hp]
        obtain ⟨a1, _⟩ := getRange_some.1 h1
        obtain ⟨a2, a3⟩ := getRange_some.1 h2
        have hl : src.length = s.fromFile := by rw [a3, List.length_take, List.length_drop]; omega
        obtain ⟨c1, c2⟩ := c
        rw [put_get (by omega), if_pos ⟨c1, by omega⟩, a3, List.getElem?_take, if_pos (by omega), List.getElem?_drop]
  | cons t pre ih =>
    simp only [List.cons_append, loadSections, Section.copied_eq] at h
    cases h1 : getRange buf t.virtualAddress t.fromFile with
    | none => simp only [h1] at h; cases h
    | some d =>
      cases h2 : getRange image t.pointerToRawData t.fromFile with
      | none => simp only [h1, h2] at h; cases h
      | some src =>
        simp only [h1, h2] at h
        exact ih _ h

/-- What the buffer holds before the sections are copied. -/
theorem loadImage_eq (info : PeInfo) (image buf : List UInt8) :
    (info.sizeOfHeaders ≤ buf.length ∧ info.sizeOfHeaders ≤ image.length ∧
      loadImage info image buf = loadSections image info.sections
        (put (List.replicate buf.length 0) 0 (image.take info.sizeOfHeaders))) ∨
    (¬ (info.sizeOfHeaders ≤ buf.length ∧ info.sizeOfHeaders ≤ image.length) ∧
      ∃ w, loadImage info image buf = (.err (.bufferTooShort info.sizeOfHeaders w), List.replicate buf.length 0)) := by
  unfold loadImage
  simp only
  cases h1 : getRange (List.replicate buf.length 0) 0 info.sizeOfHeaders with
  | none =>
    have := getRange_none.1 h1
    rw [List.length_replicate] at this
    exact Or.inr ⟨fun c => by omega, _, rfl⟩
  | some d =>
    have a1 := (getRange_some.1 h1).1
    rw [List.length_replicate] at a1
    cases h2 : getRange image 0 info.sizeOfHeaders with
    | none => have := getRange_none.1 h2; exact Or.inr ⟨fun c => by omega, _, rfl⟩
    | some src =>
      obtain ⟨a2, a3⟩ := getRange_some.1 h2
      refine Or.inl ⟨by omega, by omega, ?_⟩
      simp only [a3, List.drop_zero]

/-- **C60.** Loading succeeds exactly if the headers and every section fit into the file and into the
buffer; it never panics, and refuses everything else as "buffer too short". -/
theorem loadImage_result (info : PeInfo) (image buf : List UInt8) :
    ((loadImage info image buf).1 = .ok () ↔
      (info.sizeOfHeaders ≤ buf.length ∧ info.sizeOfHeaders ≤ image.length) ∧
        ∀ s ∈ info.sections, s.Fits image buf) ∧
    ((loadImage info image buf).1 ≠ .ok () → ∃ n w, (loadImage info image buf).1 = .err (.bufferTooShort n w)) := by
  rcases loadImage_eq info image buf with ⟨h1, h2, e⟩ | ⟨h, w, e⟩
  · have hl : (put (List.replicate buf.length 0) 0 (image.take info.sizeOfHeaders)).length = buf.length := by
      rw [put_length, List.length_replicate]
      rw [List.length_take, List.length_replicate]; omega
    have key : ∀ t : Section, t.Fits image (put (List.replicate buf.length 0) 0 (image.take info.sizeOfHeaders)) ↔
        t.Fits image buf := fun t => by unfold Section.Fits; rw [hl]
    rw [e]
    rcases loadSections_cases image info.sections (put (List.replicate buf.length 0) 0 (image.take info.sizeOfHeaders))
      with ⟨g, f⟩ | ⟨⟨n, w, g⟩, t, ht, nf⟩
    · exact ⟨⟨fun _ => ⟨⟨h1, h2⟩, fun s hs => (key s).1 (f s hs)⟩, fun _ => g⟩, fun c => absurd g c⟩
    · rw [g]
      exact ⟨⟨(fun c => by cases c), fun c => absurd ((key t).2 (c.2 t ht)) nf⟩, fun _ => ⟨n, w, rfl⟩⟩
  · rw [e]
    exact ⟨⟨(fun c => by cases c), fun c => absurd c.1 h⟩, fun _ => ⟨_, w, rfl⟩⟩

/-- **C60.** The buffer keeps its size. -/
theorem loadImage_length (info : PeInfo) (image buf : List UInt8) :
    (loadImage info image buf).2.length = buf.length := by
  rcases loadImage_eq info image buf with ⟨h1, h2, e⟩ | ⟨h, w, e⟩
  · rw [e, loadSections_length, put_length, List.length_replicate]
    rw [List.length_take, List.length_replicate]; omega
  · rw [e]; exact List.length_replicate

/-- **C60.** A byte inside the file part of a section is the corresponding byte of the file, where the
last of several overlapping sections counts. -/
theorem loadImage_section (info : PeInfo) (image buf out : List UInt8)
    (h : loadImage info image buf = (.ok (), out)) (pre post : List Section) (s : Section)
    (hs : info.sections = pre ++ s :: post) (i : Nat) (c : s.Covers i) (hp : ∀ t ∈ post, ¬ t.Covers i) :
    out[i]? = image[s.pointerToRawData + (i - s.virtualAddress)]? := by
  rcases loadImage_eq info image buf with ⟨h1, h2, e⟩ | ⟨h', w, e⟩
  · rw [e, hs] at h
    exact loadSections_covered image pre s post _ out h i c hp
  · rw [e] at h; cases h

/-- **C60.** A byte outside all sections is the header byte of the file, or zero behind the headers:
nothing the buffer held before shows through. -/
theorem loadImage_rest (info : PeInfo) (image buf out : List UInt8)
    (h : loadImage info image buf = (.ok (), out)) (i : Nat) (hi : i < buf.length)
    (c : ∀ s ∈ info.sections, ¬ s.Covers i) :
    out[i]? = if i < info.sizeOfHeaders then image[i]? else some 0 := by
  rcases loadImage_eq info image buf with ⟨h1, h2, e⟩ | ⟨h', w, e⟩
  · have e2 : out = (loadSections image info.sections
        (put (List.replicate buf.length 0) 0 (image.take info.sizeOfHeaders))).2 := by rw [← e, h]
    have hl : (image.take info.sizeOfHeaders).length = info.sizeOfHeaders := by rw [List.length_take]; omega
    rw [e2, loadSections_uncovered _ _ _ _ c, put_get (by rw [hl, List.length_replicate]; omega), hl]
    by_cases k : i < info.sizeOfHeaders
    · rw [if_pos (by omega), if_pos k, List.getElem?_take, Nat.sub_zero, if_pos k]
    · rw [if_neg (by omega), if_neg k, List.getElem?_replicate, if_pos hi]
  · rw [e] at h; cases h

/-- **C60.** What the buffer held before does not matter. -/
theorem loadImage_forgets (info : PeInfo) (image buf buf' : List UInt8) (h : buf.length = buf'.length) :
    loadImage info image buf = loadImage info image buf' := by
  unfold loadImage
  rw [h]

/-! A concrete image: 4 header bytes, a text section of 3 bytes and a data section whose virtual size
exceeds the file part, in a buffer of 20 dirty bytes. -/

def demoInfo : PeInfo :=
  { imageBaseFieldOffset := 0, sizeOfHeaders := 4, relocDir := none,
    sections := [⟨[], 3, 8, 4, 4⟩, ⟨[], 6, 12, 2, 8⟩] }

def demoFile : List UInt8 := [1, 2, 3, 4, 5, 6, 7, 8, 9, 10]

example : loadImage demoInfo demoFile (List.replicate 20 0xFF) =
    (.ok (), [1, 2, 3, 4, 0, 0, 0, 0, 5, 6, 7, 0, 9, 10, 0, 0, 0, 0, 0, 0]) := by decide +kernel

example : (loadImage demoInfo demoFile (List.replicate 13 0xFF)).1 = .err (.bufferTooShort 2 false) := by
  decide +kernel

end Verif.Pecoff
