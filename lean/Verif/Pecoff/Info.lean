import Verif.Pecoff.Model
/-!
What the core learns about an image from its headers: `patina_dxe_core/src/pecoff.rs` L85-191
(`UefiPeInfo::parse`, `from_te`, `from_pe`, `read_filename`), and the checks at the start of
`core_load_pe_image`, `patina_dxe_core/src/image.rs` L579-622.

The `goblin` crate splits the file into fields; it is not part of the repository, so the fields are a
parameter here (`PeHeader`, `TeHeader`) and a refusal by goblin is `none`. File names are bytes; the
replacement of malformed UTF-8 by `from_utf8_lossy` (L180) is left out.
-/
namespace Verif.Pecoff.Info
open Verif Verif.Pecoff

/-- The fields of goblin's `PE` that pecoff.rs uses or could use. `is64` is the magic of the optional
header, `optional` whether there is one. All numbers are `u32` or `u16`. -/
structure PeHeader where
  machine : Nat
  optional : Bool := true
  is64 : Bool := true
  entry : Nat
  subsystem : Nat
  sectionAlignment : Nat
  sizeOfImage : Nat
  sizeOfHeaders : Nat
  dllCharacteristics : Nat
  pePointer : Nat
  sections : List Section
  relocDir : Option DataDir
  pdb70 : Option (List UInt8) := none
  pdb20 : Option (List UInt8) := none
deriving DecidableEq, Repr

/-- The fields of goblin's `TE` that pecoff.rs uses or could use. -/
structure TeHeader where
  machine : Nat
  rvaOffset : Nat
  entry : Nat
  subsystem : Nat
  baseOfCode : Nat
  sections : List Section
  relocDir : DataDir
  pdb70 : Option (List UInt8) := none
deriving DecidableEq, Repr

/-- What a file is: too short for a signature, a PE or a TE file which goblin parses (`some`) or not,
or a file with another signature. -/
inductive File where
  | short
  | pe (h : Option PeHeader)
  | te (h : Option TeHeader)
  | other (sig : Nat)
deriving DecidableEq, Repr

/-- pecoff.rs L60-83 `UefiPeInfo`; `te` is the offset inside `HeaderType::Te`. -/
structure Info where
  te : Option Nat
  baseField : Nat
  entry : Nat
  imageType : Nat
  sizeOfImage : Nat
  sectionAlignment : Nat
  sizeOfHeaders : Nat
  sections : List Section
  filename : Option (List UInt8)
  relocDir : Option DataDir
  nxCompat : Bool
deriving DecidableEq, Repr

/-- pecoff/error.rs: the errors of parsing. -/
inductive ParseError where
  | parse
  | goblin
  | noOptionalHeader
  | noSections
  | badSignature (sig : Nat)
deriving DecidableEq, Repr

/-- 2³². -/
def W32 : Nat := 4294967296

/-- `".pdb"`, `".dll"` and `".efi"` in bytes. -/
def dotPdb : List UInt8 := [46, 112, 100, 98]
def dotDll : List UInt8 := [46, 100, 108, 108]
def dotEfi : List UInt8 := [46, 101, 102, 105]

/-- pecoff.rs L186: `'/'` and `'\\'`. -/
def isSep (b : UInt8) : Bool := b == 47 || b == 92

/-- pecoff.rs L186-188: what is left behind the last separator. -/
def afterLast (n : List UInt8) : List UInt8 := (n.reverse.takeWhile fun b => !isSep b).reverse

/-- pecoff.rs L182-184: cuts off `.pdb` or `.dll`. -/
def cutExt (n : List UInt8) : List UInt8 :=
  if dotPdb <:+ n ∨ dotDll <:+ n then n.take (n.length - 4) else n

/-- pecoff.rs L178-191 `read_filename`. -/
def readFilename (bytes : List UInt8) : List UInt8 :=
  afterLast (cutExt (bytes.takeWhile (· != 0))) ++ dotEfi

/-- pecoff.rs L96-131 `from_te`, after goblin. `dbg`: whether the addition at L118 panics on overflow. -/
def fromTe (dbg : Bool) (h : TeHeader) : Outcome ParseError Info :=
  match h.sections.getLast? with
  | none => .err .noSections
  | some s =>
    if dbg = true ∧ W32 ≤ s.virtualAddress + s.virtualSize then .panic
    else .ok {
      te := some h.rvaOffset
      baseField := 0x10
      entry := h.entry
      imageType := h.subsystem
      sizeOfImage := (s.virtualAddress + s.virtualSize) % W32
      sectionAlignment := 0
      sizeOfHeaders := h.baseOfCode
      sections := h.sections
      filename := h.pdb70.map readFilename
      relocDir := if h.relocDir.size ≠ 0 then some h.relocDir else none
      nxCompat := true }

/-- pecoff.rs L134-175 `from_pe`, after goblin. The offset of the image base (L159-163) adds the sizes
of the signature (4), of the COFF header (20) and of the standard fields of a 64-bit image (24). -/
def fromPe (dbg : Bool) (h : PeHeader) : Outcome ParseError Info :=
  if h.optional = false then .err .noOptionalHeader
  else if dbg = true ∧ W32 ≤ h.pePointer + 48 then .panic
  else .ok {
    te := none
    baseField := (h.pePointer + 20 + 4 + 24) % W32
    entry := h.entry
    imageType := h.subsystem
    sizeOfImage := h.sizeOfImage
    sectionAlignment := h.sectionAlignment
    sizeOfHeaders := h.sizeOfHeaders
    sections := h.sections
    filename := match h.pdb70 with
      | some n => some (readFilename n)
      | none => h.pdb20.map readFilename
    relocDir := h.relocDir
    nxCompat := h.dllCharacteristics.testBit 8 }

/-- pecoff.rs L86-92 `parse`. -/
def parse (dbg : Bool) : File → Outcome ParseError Info
  | .short => .err .parse
  | .pe none => .err .goblin
  | .te none => .err .goblin
  | .pe (some h) => fromPe dbg h
  | .te (some h) => fromTe dbg h
  | .other sig => .err (.badSignature sig)

/-- image.rs L589-597: the memory types of the code and data of an image (r-efi: `LOADER_CODE` 1,
`LOADER_DATA` 2, `BOOT_SERVICES_CODE` 3, `BOOT_SERVICES_DATA` 4, `RUNTIME_SERVICES_CODE` 5,
`RUNTIME_SERVICES_DATA` 6). -/
def memTypes (imageType : Nat) : Option (Nat × Nat) :=
  if imageType = 10 then some (1, 2)
  else if imageType = 11 then some (3, 4)
  else if imageType = 12 then some (5, 6)
  else none

/-- What passes the checks: the information, the image size and the memory types. -/
structure Accepted where
  info : Info
  codeType : Nat
  dataType : Nat
deriving DecidableEq, Repr

/-- image.rs L579-622: parsing and checking, up to the allocation. `dbg`: whether `debug_assert!`
and overflow panic. -/
def check (dbg : Bool) (f : File) : Outcome EfiError Accepted :=
  match parse dbg f with
  | .panic => .panic
  | .err _ => .err .unsupported
  | .ok info =>
    match memTypes info.imageType with
    | none => .err .unsupported
    | some (code, data) =>
      if info.sectionAlignment % 4096 ≠ 0 ∨ info.sectionAlignment = 0 then
        if dbg then .panic else .err .loadError
      else if info.sizeOfImage % info.sectionAlignment ≠ 0 then
        if dbg then .panic else .err .loadError
      else .ok ⟨info, code, data⟩

/-! ## Specification -/

/-- The memory types the UEFI specification (7.4, `LoadImage`) asks for: loader memory for
applications, boot services memory for boot drivers, runtime memory for runtime drivers. -/
inductive TypesFor : Nat → Nat → Nat → Prop
  | application : TypesFor 10 1 2
  | bootDriver : TypesFor 11 3 4
  | runtimeDriver : TypesFor 12 5 6

theorem typesFor_iff (t c d : Nat) : TypesFor t c d ↔ memTypes t = some (c, d) := by
  unfold memTypes
  constructor
  · intro h; cases h <;> rfl
  · intro h
    split at h
    · cases h; subst t; exact .application
    · split at h
      · cases h; subst t; exact .bootDriver
      · split at h
        · cases h; subst t; exact .runtimeDriver
        · cases h

/-- The bytes of a text. -/
def ascii (s : String) : List UInt8 := s.toList.map fun c => c.toNat.toUInt8

/-- A path separator. -/
def Sep (b : UInt8) : Prop := b ∈ ascii "/" ∨ b ∈ ascii "\\"

theorem isSep_iff (b : UInt8) : isSep b = true ↔ Sep b := by
  have h1 : ascii "/" = [47] := by decide +kernel
  have h2 : ascii "\\" = [92] := by decide +kernel
  unfold isSep Sep
  rw [h1, h2]; simp

theorem isSep_false (b : UInt8) : isSep b = false ↔ ¬ Sep b := by
  rw [← isSep_iff]; cases isSep b <;> simp

theorem dotPdb_eq : ascii ".pdb" = dotPdb := by decide +kernel
theorem dotDll_eq : ascii ".dll" = dotDll := by decide +kernel
theorem dotEfi_eq : ascii ".efi" = dotEfi := by decide +kernel

/-- The condition on a PE file under which it goes on to be loaded. -/
def Loadable (h : PeHeader) : Prop :=
  h.optional = true ∧ (h.subsystem = 10 ∨ h.subsystem = 11 ∨ h.subsystem = 12) ∧
    0 < h.sectionAlignment ∧ h.sectionAlignment % 4096 = 0 ∧ h.sizeOfImage % h.sectionAlignment = 0

/-! ## Images with a PE header -/

theorem fromPe_ok (dbg : Bool) (h : PeHeader) (o : h.optional = true) (p : h.pePointer + 48 < W32) :
    ∃ i, fromPe dbg h = .ok i ∧ i.te = none ∧ i.baseField = h.pePointer + 48 ∧ i.entry = h.entry ∧
      i.imageType = h.subsystem ∧ i.sizeOfImage = h.sizeOfImage ∧
      i.sectionAlignment = h.sectionAlignment ∧ i.sizeOfHeaders = h.sizeOfHeaders ∧
      i.sections = h.sections ∧ i.relocDir = h.relocDir ∧
      (i.nxCompat = true ↔ h.dllCharacteristics / 256 % 2 = 1) := by
  unfold fromPe
  rw [if_neg (by rw [o]; decide), if_neg (by omega)]
  refine ⟨_, rfl, rfl, ?_, rfl, rfl, rfl, rfl, rfl, rfl, rfl, ?_⟩
  · show (h.pePointer + 20 + 4 + 24) % W32 = _
    rw [Nat.mod_eq_of_lt (by omega)]
  · show h.dllCharacteristics.testBit 8 = true ↔ _
    rw [Nat.testBit_eq_decide_div_mod_eq, decide_eq_true_iff]

/-- **C141.** A PE file goes on to be loaded exactly if it has an optional header, is an application
or a driver, and has a section alignment of whole pages which divides the image size. What is used then
are the fields of the file and the memory types for its kind. -/
theorem pe_accepted_iff (h : PeHeader) (p : h.pePointer + 48 < W32) (dbg : Bool) :
    ((∃ a, check dbg (.pe (some h)) = .ok a) ↔ Loadable h) ∧
    (∀ a, check dbg (.pe (some h)) = .ok a →
      TypesFor h.subsystem a.codeType a.dataType ∧ a.info.imageType = h.subsystem ∧
      a.info.sizeOfImage = h.sizeOfImage ∧ a.info.sectionAlignment = h.sectionAlignment ∧
      a.info.entry = h.entry ∧ a.info.sections = h.sections ∧ a.info.sizeOfHeaders = h.sizeOfHeaders ∧
      a.info.relocDir = h.relocDir ∧ a.info.te = none ∧
      (a.info.nxCompat = true ↔ h.dllCharacteristics / 256 % 2 = 1)) := by
  cases ho : h.optional with
  | false =>
    have e : check dbg (.pe (some h)) = .err .unsupported := by
      show (match fromPe dbg h with | .panic => _ | .err _ => _ | .ok info => _) = _
      rw [show fromPe dbg h = .err .noOptionalHeader from if_pos ho]
    rw [e]
    refine ⟨⟨?_, ?_⟩, ?_⟩
    · rintro ⟨a, c⟩; cases c
    · rintro ⟨o, _⟩; rw [ho] at o; cases o
    · intro a c; cases c
  | true =>
    obtain ⟨i, e, f1, _, f3, f4, f5, f6, f7, f8, f9, f10⟩ := fromPe_ok dbg h ho p
    have e' : check dbg (.pe (some h)) =
        match memTypes h.subsystem with
        | none => .err .unsupported
        | some (code, data) =>
          if h.sectionAlignment % 4096 ≠ 0 ∨ h.sectionAlignment = 0 then
            if dbg then .panic else .err .loadError
          else if h.sizeOfImage % h.sectionAlignment ≠ 0 then
            if dbg then .panic else .err .loadError
          else .ok ⟨i, code, data⟩ := by
      show (match fromPe dbg h with | .panic => _ | .err _ => _ | .ok info => _) = _
      rw [e, ← f4, ← f6, ← f5]
    rw [e']
    unfold Loadable
    cases ht : memTypes h.subsystem with
    | none =>
      refine ⟨⟨?_, ?_⟩, ?_⟩
      · rintro ⟨a, c⟩; cases c
      · rintro ⟨_, hs, _⟩
        rcases hs with hs | hs | hs <;> (rw [hs] at ht; cases ht)
      · intro a c; cases c
    | some cd =>
      obtain ⟨c, d⟩ := cd
      have tt := (typesFor_iff _ _ _).2 ht
      have hs : h.subsystem = 10 ∨ h.subsystem = 11 ∨ h.subsystem = 12 := by
        generalize h.subsystem = x at tt; cases tt <;> simp
      dsimp only
      by_cases k1 : h.sectionAlignment % 4096 ≠ 0 ∨ h.sectionAlignment = 0
      · rw [if_pos k1]
        refine ⟨⟨?_, ?_⟩, ?_⟩
        · rintro ⟨a, c⟩; cases dbg <;> cases c
        · rintro ⟨_, _, g1, g2, _⟩; omega
        · intro a c; cases dbg <;> cases c
      · rw [if_neg k1]
        by_cases k2 : h.sizeOfImage % h.sectionAlignment ≠ 0
        · rw [if_pos k2]
          refine ⟨⟨?_, ?_⟩, ?_⟩
          · rintro ⟨a, c⟩; cases dbg <;> cases c
          · rintro ⟨_, _, _, _, g⟩; exact absurd g k2
          · intro a c; cases dbg <;> cases c
        · rw [if_neg k2]
          refine ⟨⟨fun _ => ⟨ho, hs, by omega, by omega, by omega⟩, fun _ => ⟨_, rfl⟩⟩, ?_⟩
          intro a c
          cases c
          exact ⟨tt, f4, f5, f6, f3, f8, f7, f9, f1, f10⟩

/-- **C141.** A refusal is "unsupported" if the file is no application and no driver or has no
optional header, and a load error for a bad alignment or size. A release build never panics. -/
theorem pe_refused (h : PeHeader) (p : h.pePointer + 48 < W32) :
    check false (.pe (some h)) ≠ .panic ∧
    (check false (.pe (some h)) = .err .unsupported ↔
      ¬ (h.optional = true ∧ (h.subsystem = 10 ∨ h.subsystem = 11 ∨ h.subsystem = 12))) ∧
    (check false (.pe (some h)) = .err .loadError ↔
      (h.optional = true ∧ (h.subsystem = 10 ∨ h.subsystem = 11 ∨ h.subsystem = 12)) ∧
        ¬ (0 < h.sectionAlignment ∧ h.sectionAlignment % 4096 = 0 ∧
          h.sizeOfImage % h.sectionAlignment = 0)) := by
  cases ho : h.optional with
  | false =>
    have e : check false (.pe (some h)) = .err .unsupported := by
      show (match fromPe false h with | .panic => _ | .err _ => _ | .ok info => _) = _
      rw [show fromPe false h = .err .noOptionalHeader from if_pos ho]
    rw [e]; simp
  | true =>
    obtain ⟨i, e, f1, _, f3, f4, f5, f6, _⟩ := fromPe_ok false h ho p
    have e' : check false (.pe (some h)) =
        match memTypes h.subsystem with
        | none => .err .unsupported
        | some (code, data) =>
          if h.sectionAlignment % 4096 ≠ 0 ∨ h.sectionAlignment = 0 then .err .loadError
          else if h.sizeOfImage % h.sectionAlignment ≠ 0 then .err .loadError
          else .ok ⟨i, code, data⟩ := by
      show (match fromPe false h with | .panic => _ | .err _ => _ | .ok info => _) = _
      rw [e, ← f4, ← f6, ← f5]
      dsimp only
      cases memTypes i.imageType <;> rfl
    rw [e']
    cases ht : memTypes h.subsystem with
    | none =>
      have hs : ¬ (h.subsystem = 10 ∨ h.subsystem = 11 ∨ h.subsystem = 12) := by
        intro hs
        rcases hs with hs | hs | hs <;> (rw [hs] at ht; cases ht)
      simp [hs]
    | some cd =>
      obtain ⟨c, d⟩ := cd
      have tt := (typesFor_iff _ _ _).2 ht
      have hs : h.subsystem = 10 ∨ h.subsystem = 11 ∨ h.subsystem = 12 := by
        generalize h.subsystem = x at tt; cases tt <;> simp
      dsimp only
      split
      · simp [hs]; omega
      · split
        · simp [hs]; omega
        · simp [hs]; omega

/-- **C141 (finding).** A build with debug assertions panics on exactly the files a release build
refuses with a load error: a file, which is input from outside, stops the firmware. -/
theorem pe_debug_panics (h : PeHeader) (p : h.pePointer + 48 < W32) :
    check true (.pe (some h)) = .panic ↔ check false (.pe (some h)) = .err .loadError := by
  cases ho : h.optional with
  | false =>
    have e : ∀ dbg, check dbg (.pe (some h)) = .err .unsupported := by
      intro dbg
      show (match fromPe dbg h with | .panic => _ | .err _ => _ | .ok info => _) = _
      rw [show fromPe dbg h = .err .noOptionalHeader from if_pos ho]
    rw [e, e]; simp
  | true =>
    have e : fromPe true h = fromPe false h := by
      unfold fromPe
      rw [if_neg (by rw [ho]; decide), if_neg (by omega), if_neg (by rw [ho]; decide), if_neg (by simp)]
    unfold check parse
    obtain ⟨i, ei, _⟩ := fromPe_ok false h ho p
    simp only [e, ei]
    cases memTypes i.imageType with
    | none => simp
    | some cd =>
      dsimp only
      split
      · simp
      · split <;> simp

/-- **C141 (finding).** The processor an image is for is never looked at: the answer is the same for
every machine type, so an image for another processor is accepted and would be started. The UEFI
specification asks for `EFI_UNSUPPORTED`. -/
theorem machine_ignored (h : PeHeader) (t : TeHeader) (m : Nat) (dbg : Bool) :
    check dbg (.pe (some { h with machine := m })) = check dbg (.pe (some h)) ∧
    check dbg (.te (some { t with machine := m })) = check dbg (.te (some t)) := ⟨rfl, rfl⟩

/-- **C141 (finding).** The offset of the image base is that of a 64-bit header also for a 32-bit
file, where the field is four bytes further on: relocating such a file reads and overwrites
the wrong eight bytes (`BaseOfData` and the four bytes of the base). -/
theorem pe32_base_misplaced (h : PeHeader) (o : h.optional = true) (p : h.pePointer + 48 < W32) (dbg : Bool)
    (i : Info) (e : fromPe dbg { h with is64 := false } = .ok i) :
    i.baseField = h.pePointer + 4 + 20 + 24 ∧ i.baseField ≠ h.pePointer + 4 + 20 + 28 := by
  obtain ⟨j, e', _, f, _⟩ := fromPe_ok dbg { h with is64 := false } o p
  rw [e'] at e; cases e
  rw [f]; dsimp only; omega

/-! ## Images with a TE header -/

/-- What is learnt from a TE file. -/
theorem te_info (dbg : Bool) (h : TeHeader) (i : Info) (e : fromTe dbg h = .ok i) :
    ∃ s, h.sections.getLast? = some s ∧ i.te = some h.rvaOffset ∧ i.baseField = 16 ∧ i.entry = h.entry ∧
      i.imageType = h.subsystem ∧ i.sections = h.sections ∧ i.sizeOfHeaders = h.baseOfCode ∧
      i.sizeOfImage = (s.virtualAddress + s.virtualSize) % W32 ∧ i.sectionAlignment = 0 ∧
      i.nxCompat = true ∧ (i.relocDir = none ↔ h.relocDir.size = 0) ∧
      (∀ d, i.relocDir = some d → d = h.relocDir) := by
  unfold fromTe at e
  split at e
  · cases e
  · rename_i s hs
    split at e
    · cases e
    · cases e
      refine ⟨s, hs, rfl, rfl, rfl, rfl, rfl, rfl, rfl, rfl, rfl, ?_, ?_⟩
      · dsimp only; split <;> simp_all
      · dsimp only; intro d hd; split at hd
        · cases hd; rfl
        · cases hd

/-- **C141.** The size computed for a TE file holds every section if the sections are in ascending
order and do not reach beyond 4 GiB. -/
theorem te_size_holds (h : TeHeader) (dbg : Bool) (i : Info) (e : fromTe dbg h = .ok i)
    (sorted : h.sections.Pairwise fun a b => a.virtualAddress + a.virtualSize ≤ b.virtualAddress + b.virtualSize)
    (fits : ∀ s ∈ h.sections, s.virtualAddress + s.virtualSize < W32) :
    ∀ s ∈ h.sections, s.virtualAddress + s.virtualSize ≤ i.sizeOfImage := by
  obtain ⟨l, hl, _, _, _, _, _, _, hz, _⟩ := te_info dbg h i e
  intro s hs
  have hm : l ∈ h.sections := List.mem_of_getLast? hl
  rw [hz, Nat.mod_eq_of_lt (fits l hm)]
  obtain ⟨ys, hy⟩ := List.getLast?_eq_some_iff.1 hl
  rw [hy] at hs sorted
  rcases List.mem_append.1 hs with k | k
  · exact (List.pairwise_append.1 sorted).2.2 s k l (by simp)
  · rw [List.mem_singleton] at k; subst k; exact Nat.le_refl _

/-- **C141 (finding).** If the sections are in another order, the size computed for a TE file is
smaller than what its sections need. -/
theorem te_size_short (h : TeHeader) (dbg : Bool) (i : Info) (e : fromTe dbg h = .ok i) (a l : Section)
    (ha : a ∈ h.sections) (hl : h.sections.getLast? = some l)
    (lt : l.virtualAddress + l.virtualSize < a.virtualAddress + a.virtualSize) :
    ¬ ∀ s ∈ h.sections, s.virtualAddress + s.virtualSize ≤ i.sizeOfImage := by
  obtain ⟨s, hs, _, _, _, _, _, _, hz, _⟩ := te_info dbg h i e
  rw [hl] at hs; cases hs
  intro c
  have k := c a ha
  rw [hz] at k
  have := Nat.mod_le (l.virtualAddress + l.virtualSize) W32
  omega

/-- **C141 (finding).** No TE file is ever accepted: parsing sets its section alignment to zero, and
the loader refuses zero. An application or driver gets a load error, or a panic with assertions on. -/
theorem te_never_loads (h : TeHeader) (dbg : Bool) :
    (∀ a, check dbg (.te (some h)) ≠ .ok a) ∧
    ((h.subsystem = 10 ∨ h.subsystem = 11 ∨ h.subsystem = 12) → h.sections ≠ [] →
      (check false (.te (some h)) = .err .loadError) ∧ (check true (.te (some h)) = .panic)) := by
  constructor
  · intro a c
    unfold check parse at c
    cases e : fromTe dbg h with
    | panic => simp [e] at c
    | err _ => simp [e] at c
    | ok i =>
      obtain ⟨_, _, _, _, _, _, _, _, _, hz, _⟩ := te_info dbg h i e
      simp only [e] at c
      split at c
      · cases c
      · rw [if_pos (Or.inr hz)] at c
        split at c <;> cases c
  · intro hs hne
    obtain ⟨c, d, ht⟩ : ∃ c d, memTypes h.subsystem = some (c, d) := by
      rcases hs with hs | hs | hs <;> (rw [hs]; exact ⟨_, _, rfl⟩)
    obtain ⟨s, hl⟩ : ∃ s, h.sections.getLast? = some s := by
      cases k : h.sections.getLast? with
      | none => exact absurd (List.getLast?_eq_none_iff.1 k) hne
      | some s => exact ⟨s, rfl⟩
    constructor
    · show (match fromTe false h with | .panic => _ | .err _ => _ | .ok info => _) = _
      unfold fromTe
      rw [hl]
      dsimp only
      rw [if_neg (by simp)]
      dsimp only
      rw [ht]
      simp
    · show (match fromTe true h with | .panic => _ | .err _ => _ | .ok info => _) = _
      unfold fromTe
      rw [hl]
      dsimp only
      by_cases k : W32 ≤ s.virtualAddress + s.virtualSize
      · rw [if_pos ⟨rfl, k⟩]
      · rw [if_neg (by simp only [k, and_false, not_false_iff])]
        dsimp only
        rw [ht]
        simp

/-- **C141.** Whatever is neither a PE nor a TE file, or is one goblin refuses, or a TE file without
sections, is unsupported. -/
theorem not_an_image (dbg : Bool) (f : File)
    (h : f = .short ∨ f = .pe none ∨ f = .te none ∨ (∃ s, f = .other s) ∨
      ∃ t : TeHeader, f = .te (some t) ∧ t.sections = []) :
    check dbg f = .err .unsupported := by
  rcases h with h | h | h | ⟨s, h⟩ | ⟨t, h, k⟩ <;> subst h <;> try rfl
  show (match fromTe dbg t with | .panic => _ | .err _ => _ | .ok info => _) = _
  unfold fromTe
  rw [k]; rfl

/-! ## File names -/

theorem afterLast_append (dir base : List UInt8) (hd : dir = [] ∨ ∃ d s, dir = d ++ [s] ∧ isSep s = true)
    (hb : ∀ b ∈ base, isSep b = false) : afterLast (dir ++ base) = base := by
  unfold afterLast
  rw [List.reverse_append, List.takeWhile_append_of_pos (by
    intro b hb'; rw [List.mem_reverse] at hb'; rw [hb b hb']; rfl)]
  rcases hd with rfl | ⟨d, s, rfl, hs⟩
  · simp
  · rw [List.reverse_append]; simp [hs]

theorem takeWhile_zero (a rest : List UInt8) (ha : ∀ b ∈ a, b ≠ 0) (hr : rest = [] ∨ ∃ r, rest = 0 :: r) :
    (a ++ rest).takeWhile (· != 0) = a := by
  rw [List.takeWhile_append_of_pos (by intro b hb; simpa using ha b hb)]
  rcases hr with rfl | ⟨r, rfl⟩ <;> simp

/-- **C141.** A path of a `.pdb` or `.dll` file, ended by a zero byte or by the end of the data,
becomes its base name with `.efi`: the directory and the extension go. -/
theorem filename_with_extension (dir base ext rest : List UInt8)
    (hd : dir = [] ∨ ∃ d s, dir = d ++ [s] ∧ Sep s) (hb : ∀ b ∈ base, ¬ Sep b)
    (he : ext = ascii ".pdb" ∨ ext = ascii ".dll") (hz : ∀ b ∈ dir ++ base, b ≠ 0)
    (hr : rest = [] ∨ ∃ r, rest = 0 :: r) :
    readFilename (dir ++ base ++ ext ++ rest) = base ++ ascii ".efi" := by
  simp only [← isSep_iff] at hd
  simp only [← isSep_false] at hb
  rw [dotPdb_eq, dotDll_eq] at he
  rw [dotEfi_eq]
  have l4 : ext.length = 4 := by rcases he with rfl | rfl <;> rfl
  have e0 : ∀ b ∈ ext, b ≠ 0 := by rcases he with rfl | rfl <;> decide
  unfold readFilename
  rw [takeWhile_zero _ _ (by
    intro b hb'
    rcases List.mem_append.1 hb' with k | k
    · exact hz b k
    · exact e0 b k) hr]
  unfold cutExt
  rw [if_pos (by
    rcases he with rfl | rfl
    · exact Or.inl ⟨_, rfl⟩
    · exact Or.inr ⟨_, rfl⟩)]
  rw [List.length_append, l4, Nat.add_sub_cancel, List.take_left', afterLast_append dir base hd hb]
  rfl

/-- **C141.** A path without such an extension keeps its whole base name. -/
theorem filename_other (dir base rest : List UInt8)
    (hd : dir = [] ∨ ∃ d s, dir = d ++ [s] ∧ Sep s) (hb : ∀ b ∈ base, ¬ Sep b)
    (he : ¬ ascii ".pdb" <:+ base) (he' : ¬ ascii ".dll" <:+ base) (hz : ∀ b ∈ dir ++ base, b ≠ 0)
    (hr : rest = [] ∨ ∃ r, rest = 0 :: r) :
    readFilename (dir ++ base ++ rest) = base ++ ascii ".efi" := by
  simp only [← isSep_iff] at hd
  simp only [← isSep_false] at hb
  rw [dotPdb_eq] at he
  rw [dotDll_eq] at he'
  rw [dotEfi_eq]
  have key : ∀ x : List UInt8, (∀ b ∈ x, isSep b = false) → ¬ x <:+ base → ¬ x <:+ dir ++ base := by
    intro x hx hn hs
    rcases List.suffix_or_suffix_of_suffix hs (List.suffix_append dir base) with k | k
    · exact hn k
    · obtain ⟨t, ht⟩ := k
      rcases hd with rfl | ⟨d, s, rfl, hsep⟩
      · rw [List.nil_append] at hs; exact hn hs
      · rw [← ht] at hs
        obtain ⟨u, hu⟩ := hs
        rw [← List.append_assoc] at hu
        have hu' := List.append_cancel_right hu
        rcases List.eq_nil_or_concat t with rfl | ⟨t', c, rfl⟩
        · rw [List.nil_append] at ht; subst ht; exact hn (List.suffix_refl _)
        · rw [List.concat_eq_append, ← List.append_assoc] at hu'
          have := List.append_inj_right' hu' rfl
          have hc : c = s := by simpa using this
          have := hx c (by rw [← ht]; simp)
          rw [hc, hsep] at this; cases this
  unfold readFilename
  rw [takeWhile_zero _ _ hz hr]
  unfold cutExt
  rw [if_neg (by
    rintro (k | k)
    · exact key _ (by decide) he k
    · exact key _ (by decide) he' k), afterLast_append dir base hd hb]

theorem mem_takeWhile (p : UInt8 → Bool) (b : UInt8) : ∀ l : List UInt8, b ∈ l.takeWhile p → p b = true
  | [], h => by simp at h
  | c :: l, h => by
    rw [List.takeWhile_cons] at h
    split at h
    · rcases List.mem_cons.1 h with k | k
      · subst k; assumption
      · exact mem_takeWhile p b l k
    · simp at h

theorem afterLast_mem (n : List UInt8) (b : UInt8) (h : b ∈ afterLast n) : b ∈ n ∧ isSep b = false := by
  unfold afterLast at h
  rw [List.mem_reverse] at h
  refine ⟨List.mem_reverse.1 (List.takeWhile_subset _ h), ?_⟩
  have := mem_takeWhile _ b _ h
  simpa using this

/-- **C141.** Whatever the debug data of a file is, the name made from it ends in `.efi` and contains
no path separator and no zero byte. -/
theorem filename_clean (bytes : List UInt8) :
    ascii ".efi" <:+ readFilename bytes ∧ ∀ b ∈ readFilename bytes, ¬ Sep b ∧ b ≠ 0 := by
  simp only [← isSep_false, dotEfi_eq]
  refine ⟨⟨_, rfl⟩, ?_⟩
  intro b hb
  unfold readFilename at hb
  rcases List.mem_append.1 hb with k | k
  · obtain ⟨k1, k2⟩ := afterLast_mem _ b k
    refine ⟨k2, ?_⟩
    have k3 : b ∈ bytes.takeWhile (· != 0) := by
      unfold cutExt at k1
      split at k1
      · exact List.mem_of_mem_take k1
      · exact k1
    simpa using mem_takeWhile _ b _ k3
  · have : ∀ b ∈ dotEfi, isSep b = false ∧ b ≠ 0 := by decide
    exact this b k

/-- **C141.** The name comes from the newer of the two kinds of debug data if both are there, and there
is none exactly if the file has neither. -/
theorem pe_filename (dbg : Bool) (h : PeHeader) (i : Info) (e : fromPe dbg h = .ok i) :
    (∀ n, h.pdb70 = some n → i.filename = some (readFilename n)) ∧
    (∀ n, h.pdb70 = none → h.pdb20 = some n → i.filename = some (readFilename n)) ∧
    (i.filename = none ↔ h.pdb70 = none ∧ h.pdb20 = none) := by
  unfold fromPe at e
  split at e
  · cases e
  · split at e
    · cases e
    · cases e
      cases h.pdb70 <;> cases h.pdb20 <;> simp

/-! ## Examples -/

/-- An application for an x64 processor. -/
def app : PeHeader where
  machine := 0x8664
  entry := 0x1000
  subsystem := 10
  sectionAlignment := 0x1000
  sizeOfImage := 0x3000
  sizeOfHeaders := 0x400
  dllCharacteristics := 0x160
  pePointer := 0x80
  sections := [{ virtualSize := 0x800, virtualAddress := 0x1000, sizeOfRawData := 0x800, pointerToRawData := 0x400 }]
  relocDir := none
  pdb70 := some [67, 58, 92, 120, 47, 97, 46, 112, 100, 98, 0, 1]

/-- A TE driver whose sections are out of order. -/
def teDriver : TeHeader where
  machine := 0x8664
  rvaOffset := 0x200
  entry := 0x1000
  subsystem := 11
  baseOfCode := 0x28
  sections := [{ virtualSize := 0x800, virtualAddress := 0x2000, sizeOfRawData := 0x800, pointerToRawData := 0x400 },
    { virtualSize := 0x800, virtualAddress := 0x1000, sizeOfRawData := 0x800, pointerToRawData := 0xC00 }]
  relocDir := ⟨0, 0⟩

example : Loadable app ∧ app.pePointer + 48 < W32 := by unfold Loadable; decide
example : ∃ a, check true (.pe (some app)) = .ok a ∧ (a.codeType, a.dataType) = (1, 2) ∧
    a.info.filename = some [97, 46, 101, 102, 105] ∧ a.info.baseField = 0xB0 ∧ a.info.nxCompat = true :=
  ⟨_, rfl, by decide +kernel⟩
example : check false (.pe (some { app with subsystem := 3 })) = .err .unsupported := by decide +kernel
example : check false (.pe (some { app with sizeOfImage := 0x3200 })) = .err .loadError := by decide +kernel
example : check true (.pe (some { app with sectionAlignment := 0x200 })) = .panic := by decide +kernel
example : ∃ i, fromTe true teDriver = .ok i ∧ i.sizeOfImage = 0x1800 := ⟨_, rfl, by decide +kernel⟩
example : check false (.te (some teDriver)) = .err .loadError := by decide +kernel
example : readFilename [97, 47, 98] = [98, 46, 101, 102, 105] := by decide +kernel

end Verif.Pecoff.Info
