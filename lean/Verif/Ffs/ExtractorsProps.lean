import Verif.Ffs.ExtractorsModel
import Verif.Ffs.EditProps
import Verif.MemMap.Crc
/-!
C113: the section extractors.
-/
namespace Verif.Ffs.Extract
open Verif.MemMap (crc32 crc32_detects crc32_lt)

/-! ### Specification -/

/-- A GUID-defined section as it lies in the flash (PI specification, volume 3, 3.2.5.7), small enough for the
3-byte size field: size, type 2, GUID, offset of the data, attributes, GUID specific bytes, data. -/
def flash (guid spec : List UInt8) (attrs : Nat) (data : List UInt8) : List UInt8 :=
  leBytes 3 (24 + spec.length + data.length) ++ [2] ++ guid ++ leBytes 2 (24 + spec.length) ++ leBytes 2 attrs ++
    spec ++ data

/-- fc1bcdb0-7d31-49aa-936a-a4600d9dd083 in memory order. -/
def crcId : List UInt8 :=
  [0xB0, 0xCD, 0x1B, 0xFC, 0x31, 0x7D, 0xAA, 0x49, 0x93, 0x6A, 0xA4, 0x60, 0x0D, 0x9D, 0xD0, 0x83]
/-- 3d532050-5cda-4fd0-879e-0f7f630d5afb in memory order. -/
def brotliId : List UInt8 :=
  [0x50, 0x20, 0x53, 0x3D, 0xDA, 0x5C, 0xD0, 0x4F, 0x87, 0x9E, 0x0F, 0x7F, 0x63, 0x0D, 0x5A, 0xFB]
/-- ee4e5898-3914-4259-9d6e-dc7bd79403cf in memory order. -/
def lzmaId : List UInt8 :=
  [0x98, 0x58, 0x4E, 0xEE, 0x14, 0x39, 0x59, 0x42, 0x9D, 0x6E, 0xDC, 0x7B, 0xD7, 0x94, 0x03, 0xCF]

/-- Parsing what lies in the flash and asking the extractor for the content. -/
def readFlash (dbg : Bool) (f : Features) (e : Env) (b : List UInt8) : Outcome FfsError (List UInt8) :=
  match parse dbg b with
  | .ok s => composite f e s
  | .err x => .err x
  | .panic => .panic

/-! ### Lemmas -/

theorem crcGuid_val : crcGuid = leVal crcId := by decide
theorem brotliGuid_val : brotliGuid = leVal brotliId := by decide
theorem lzmaGuid_val : lzmaGuid = leVal lzmaId := by decide

theorem brotli_ne_crc : brotliGuid ≠ crcGuid := by decide
theorem brotli_ne_lzma : brotliGuid ≠ lzmaGuid := by decide
theorem crc_ne_lzma : crcGuid ≠ lzmaGuid := by decide

theorem flash_hdr {guid spec : List UInt8} {attrs : Nat} {data : List UInt8} (hg : guid.length = 16)
    (hs : 24 + spec.length + data.length < 0x1000000) :
    flash guid spec attrs data =
      (SecHdr.guidDefined (leVal guid) (24 + spec.length) attrs spec data.length).serialize ++ data := by
  unfold SecHdr.serialize
  simp only [SecHdr.contentSize, SecHdr.ty, SecHdr.extra]
  have hb := leBytes_leVal guid
  rw [hg] at hb
  rw [hb]
  have hl : 4 + (guid ++ (leBytes 2 (24 + spec.length) ++ (leBytes 2 attrs ++ spec))).length + data.length =
      24 + spec.length + data.length := by
    simp [hg]; omega
  unfold SecHdr.serializeWith
  simp only [hl, SecHdr.MAX_STD, hs, if_true]
  simp [flash, List.append_assoc]

/-- The section that a parse of a GUID-defined section in the flash gives. -/
theorem parse_flash (dbg : Bool) {guid spec : List UInt8} {attrs : Nat} {data : List UInt8} (tail : List UInt8)
    (hg : guid.length = 16) (ha : attrs < 2 ^ 16) (hsp : spec.length < 0x8000)
    (hs : 24 + spec.length + data.length < 0xFFFFFF) :
    parse dbg (flash guid spec attrs data ++ tail) =
      .ok ⟨.guidDefined (leVal guid) (24 + spec.length) attrs spec data.length, data, true, false, false, []⟩ := by
  rw [flash_hdr hg (by omega), List.append_assoc]
  have hlt : leVal guid < 2 ^ 128 := by
    have := leVal_lt guid
    rw [hg] at this
    exact this
  have hoff : (SecHdr.guidDefined (leVal guid) (24 + spec.length) attrs spec data.length).contentOffset =
      24 + spec.length := by
    unfold SecHdr.contentOffset SecHdr.serialize
    simp only [SecHdr.contentSize, SecHdr.ty, SecHdr.extra]
    unfold SecHdr.serializeWith
    have : 4 + (leBytes 16 (leVal guid) ++ (leBytes 2 (24 + spec.length) ++ (leBytes 2 attrs ++ spec))).length +
        data.length < 0x1000000 := by simp; omega
    simp only [SecHdr.MAX_STD, this, if_true]
    simp; omega
  refine parse_serialize (h := .guidDefined (leVal guid) (24 + spec.length) attrs spec data.length) ?_ rfl ?_ ?_
  · refine ⟨?_, hlt, ?_, ha, hoff.symm⟩
    · show data.length < 2 ^ 32
      omega
    · omega
  · unfold SecHdr.totalSize
    rw [hoff]
    show 24 + spec.length + data.length < 2 ^ 32
    omega
  · unfold SecHdr.plainTotal
    simp only [SecHdr.extra, SecHdr.contentSize]
    simp
    omega

theorem clean_content (h : SecHdr) (data : List UInt8) (enc : Bool) :
    (Section.mk h data enc false false []).content = .ok data := by
  unfold Section.content
  rw [clean_isDirty _ _ _ _ (fun _ => rfl)]
  rfl

theorem content_cases (s : Section) :
    (s.isDirty = true ∧ s.content = .err .notComposed) ∨ (s.isDirty = false ∧ s.content = .ok s.data) := by
  unfold Section.content
  cases s.isDirty <;> simp

theorem brotliBody_supported (e : Env) (d : List UInt8) : brotliBody e d ≠ .err .unsupported := by
  unfold brotliBody
  split
  · simp
  · split
    · simp
    · split <;> simp

theorem lzmaBody_supported (e : Env) (d : List UInt8) : lzmaBody e d ≠ .err .unsupported := by
  unfold lzmaBody
  split
  · simp
  · split
    · simp
    · split <;> simp

theorem orElse_own {x next : Extractor} {s : Section} (h : x s ≠ .err .unsupported) (on : Bool) :
    orElse on x next s = if on then x s else next s := by
  unfold orElse
  cases on with
  | false => rfl
  | true => simp only [if_true]

theorem some_pair {P : Nat → List UInt8 → Prop} (g : Nat) (spec : List UInt8) :
    (∃ g' spec', some (g, spec) = some (g', spec') ∧ P g' spec') ↔ P g spec := by
  constructor
  · rintro ⟨g', spec', h, hp⟩
    cases h
    exact hp
  · exact fun hp => ⟨g, spec, rfl, hp⟩

theorem orElse_other {x next : Extractor} {s : Section} (h : x s = .err .unsupported) (on : Bool) :
    orElse on x next s = next s := by
  unfold orElse
  cases on with
  | false => rfl
  | true => simp only [if_true, h]

theorem brotli_eq {e : Env} {s : Section} {g : Nat} {spec : List UInt8} (h : guidOfHdr s.hdr = some (g, spec)) :
    brotli e s = if g = brotliGuid then
      (match s.content with | .ok data => brotliBody e data | .err x => .err x | .panic => .panic)
      else .err .unsupported := by
  simp only [brotli, h]
  rfl

theorem lzma_eq {e : Env} {s : Section} {g : Nat} {spec : List UInt8} (h : guidOfHdr s.hdr = some (g, spec)) :
    lzma e s = if g = lzmaGuid then
      (match s.content with | .ok data => lzmaBody e data | .err x => .err x | .panic => .panic)
      else .err .unsupported := by
  simp only [lzma, h]
  rfl

theorem crc_eq {s : Section} {g : Nat} {spec : List UInt8} (h : guidOfHdr s.hdr = some (g, spec)) :
    crc s = if g = crcGuid then
      (if spec.length < 4 then .err .dataCorrupt
      else if spec.length ≠ 4 then .panic
      else match s.content with
        | .ok data => if leVal spec ≠ crc32 data then .err .dataCorrupt else .ok data
        | .err x => .err x
        | .panic => .panic)
      else .err .unsupported := by
  simp only [crc, h]
  rfl

theorem brotli_supported {e : Env} {s : Section} {spec : List UInt8}
    (h : guidOfHdr s.hdr = some (brotliGuid, spec)) : brotli e s ≠ .err .unsupported := by
  rw [brotli_eq h, if_pos rfl]
  rcases content_cases s with ⟨_, hc⟩ | ⟨_, hc⟩ <;> rw [hc]
  · simp
  · exact brotliBody_supported e s.data

theorem lzma_supported {e : Env} {s : Section} {spec : List UInt8}
    (h : guidOfHdr s.hdr = some (lzmaGuid, spec)) : lzma e s ≠ .err .unsupported := by
  rw [lzma_eq h, if_pos rfl]
  rcases content_cases s with ⟨_, hc⟩ | ⟨_, hc⟩ <;> rw [hc]
  · simp
  · exact lzmaBody_supported e s.data

theorem crc_supported {s : Section} {spec : List UInt8}
    (h : guidOfHdr s.hdr = some (crcGuid, spec)) : crc s ≠ .err .unsupported := by
  rw [crc_eq h, if_pos rfl]
  split
  · simp
  · split
    · simp
    · rcases content_cases s with ⟨_, hc⟩ | ⟨_, hc⟩ <;> rw [hc]
      · simp
      · dsimp only
        split <;> simp

/-- Which extractor a GUID is given to. -/
theorem composite_cases (f : Features) (e : Env) (s : Section) (g : Nat) (spec : List UInt8)
    (h : guidOfHdr s.hdr = some (g, spec)) :
    composite f e s =
      if g = brotliGuid then (if f.brotli then brotli e s else .err .unsupported)
      else if g = crcGuid then (if f.crc32 then crc s else .err .unsupported)
      else if g = lzmaGuid then (if f.lzma then lzma e s else .err .unsupported)
      else .err .unsupported := by
  unfold composite
  by_cases hb : g = brotliGuid
  · subst hb
    have hc : crc s = .err .unsupported := by rw [crc_eq h, if_neg brotli_ne_crc]
    have hl : lzma e s = .err .unsupported := by rw [lzma_eq h, if_neg brotli_ne_lzma]
    rw [orElse_own (brotli_supported h), orElse_other hc, orElse_other hl, if_pos rfl]
  · have hbu : brotli e s = .err .unsupported := by rw [brotli_eq h, if_neg hb]
    rw [orElse_other hbu, if_neg hb]
    by_cases hc : g = crcGuid
    · subst hc
      have hl : lzma e s = .err .unsupported := by rw [lzma_eq h, if_neg crc_ne_lzma]
      rw [orElse_own (crc_supported h), orElse_other hl, if_pos rfl]
    · have hcu : crc s = .err .unsupported := by rw [crc_eq h, if_neg hc]
      rw [orElse_other hcu, if_neg hc]
      by_cases hl : g = lzmaGuid
      · subst hl
        rw [orElse_own (lzma_supported h), if_pos rfl]
      · have hlu : lzma e s = .err .unsupported := by rw [lzma_eq h, if_neg hl]
        rw [orElse_other hlu, if_neg hl]

theorem readFlash_eq (dbg : Bool) (f : Features) (e : Env) {guid spec : List UInt8} {attrs : Nat}
    {data : List UInt8} (tail : List UInt8) (hg : guid.length = 16) (ha : attrs < 2 ^ 16) (hsp : spec.length < 0x8000)
    (hs : 24 + spec.length + data.length < 0xFFFFFF) :
    readFlash dbg f e (flash guid spec attrs data ++ tail) = composite f e
      ⟨.guidDefined (leVal guid) (24 + spec.length) attrs spec data.length, data, true, false, false, []⟩ := by
  unfold readFlash
  rw [parse_flash dbg tail hg ha hsp hs]

/-! ### CRC32 sections -/

/-- C113. A CRC32 section in the flash gives its data, unchanged, if the checksum stored with it is the one of the
data, and an error otherwise; whatever follows it in the flash and whatever decompressors there are. -/
theorem crc_section_read (dbg : Bool) (f : Features) (e : Env) (attrs c : Nat) (data tail : List UInt8)
    (hf : f.crc32 = true) (ha : attrs < 2 ^ 16) (hc : c < 2 ^ 32) (hs : 28 + data.length < 0xFFFFFF) :
    readFlash dbg f e (flash crcId (leBytes 4 c) attrs data ++ tail) =
      if c = crc32 data then .ok data else .err .dataCorrupt := by
  rw [readFlash_eq dbg f e tail (by decide) ha (by simp) (by simp; omega)]
  rw [composite_cases f e _ _ _ rfl, ← crcGuid_val, if_neg brotli_ne_crc.symm, if_pos rfl, if_pos hf]
  rw [crc_eq rfl, if_pos rfl, if_neg (by simp), if_neg (by simp), clean_content]
  rw [leVal_leBytes_of_lt (by simpa using hc)]
  by_cases h : c = crc32 data <;> simp [h]

/-- C113. Data that differs from what the checksum was made of within four consecutive bytes is never given out. -/
theorem crc_damage_found (dbg : Bool) (f : Features) (e : Env) (attrs : Nat) (pre u v suf tail : List UInt8)
    (hf : f.crc32 = true) (ha : attrs < 2 ^ 16) (hu : u.length = 4) (hv : v.length = 4) (hne : u ≠ v)
    (hs : 28 + (pre ++ v ++ suf).length < 0xFFFFFF) :
    readFlash dbg f e (flash crcId (leBytes 4 (crc32 (pre ++ u ++ suf))) attrs (pre ++ v ++ suf) ++ tail) =
      .err .dataCorrupt := by
  rw [crc_section_read dbg f e attrs _ _ tail hf ha (crc32_lt _) hs, if_neg]
  exact crc32_detects hu hv hne

/-- C113, for a section however it came about: the content is given out exactly if the section is composed and the
four bytes of its header are the checksum of its content. -/
theorem crc_content_iff (f : Features) (e : Env) (s : Section) (spec out : List UInt8) (hf : f.crc32 = true)
    (h : guidOfHdr s.hdr = some (leVal crcId, spec)) :
    composite f e s = .ok out ↔
      s.isDirty = false ∧ spec = leBytes 4 (crc32 s.data) ∧ out = s.data := by
  rw [composite_cases f e s _ _ h, ← crcGuid_val, if_neg brotli_ne_crc.symm, if_pos rfl, if_pos hf]
  rw [crc_eq h, if_pos crcGuid_val.symm]
  by_cases h4 : spec.length = 4
  · rw [if_neg (by omega), if_neg (by omega)]
    have hval : leVal spec = crc32 s.data ↔ spec = leBytes 4 (crc32 s.data) := by
      constructor
      · intro hv
        rw [← hv, ← h4, leBytes_leVal]
      · intro hv
        have hlt : crc32 s.data < 256 ^ 4 := crc32_lt s.data
        rw [hv]
        exact leVal_leBytes_of_lt hlt
    rcases content_cases s with ⟨hd, hc⟩ | ⟨hd, hc⟩
    · rw [hc, hd]; simp
    · rw [hc, hd]
      dsimp only
      by_cases hv : leVal spec = crc32 s.data
      · rw [if_neg (by simpa using hv)]
        constructor
        · intro ho
          exact ⟨rfl, hval.1 hv, (Outcome.ok.inj ho).symm⟩
        · rintro ⟨-, -, rfl⟩; rfl
      · rw [if_pos hv]
        constructor
        · intro ho; cases ho
        · rintro ⟨-, hb, -⟩; exact absurd (hval.2 hb) hv
  · have hno : ¬ (s.isDirty = false ∧ spec = leBytes 4 (crc32 s.data) ∧ out = s.data) := by
      rintro ⟨-, hb, -⟩
      rw [hb] at h4
      simp at h4
    constructor
    · intro ho
      by_cases hlt : spec.length < 4
      · rw [if_pos hlt] at ho; cases ho
      · rw [if_neg hlt, if_pos h4] at ho; cases ho
    · intro ho; exact absurd ho hno

/-! ### Compressed sections -/

/-- C113. An LZMA section gives what the decompressor makes of its whole content. -/
theorem lzma_section_read (dbg : Bool) (f : Features) (e : Env) (attrs : Nat) (spec data tail : List UInt8)
    (hf : f.lzma = true) (ha : attrs < 2 ^ 16) (hsp : spec.length < 0x8000)
    (hs : 24 + spec.length + data.length < 0xFFFFFF) (h13 : 13 ≤ data.length)
    (hm : leVal ((data.drop 5).take 8) = 0xFFFFFFFFFFFFFFFF ∨ leVal ((data.drop 5).take 8) ≤ e.heap) :
    readFlash dbg f e (flash lzmaId spec attrs data ++ tail) =
      match e.lzma data with
      | some out => .ok out
      | none => .err .dataCorrupt := by
  rw [readFlash_eq dbg f e tail (by decide) ha hsp hs]
  rw [composite_cases f e _ _ _ rfl, ← lzmaGuid_val, if_neg brotli_ne_lzma.symm, if_neg crc_ne_lzma.symm, if_pos rfl,
    if_pos hf, lzma_eq rfl, if_pos rfl, clean_content]
  dsimp only
  unfold lzmaBody
  rw [if_neg (by omega), if_neg]
  · rfl
  · rintro ⟨h1, h2⟩
    unfold rd slice unknownSize at h1
    unfold rd slice at h2
    rcases hm with hm | hm
    · exact h1 hm
    · omega

/-- C113. A Brotli section gives as many bytes as its header declares: those the decompressor made of the content
behind the 16-byte header, and zeros for what it did not make. -/
theorem brotli_section_read (dbg : Bool) (f : Features) (e : Env) (attrs size scratch : Nat)
    (spec input tail : List UInt8) (he : e.Sane)
    (hf : f.brotli = true) (ha : attrs < 2 ^ 16) (hsp : spec.length < 0x8000)
    (hs : 40 + spec.length + input.length < 0xFFFFFF) (hn : size < 2 ^ 64) (hm : size ≤ e.heap) :
    readFlash dbg f e (flash brotliId spec attrs (leBytes 8 size ++ leBytes 8 scratch ++ input) ++ tail) =
        (match e.brotli input size with
        | some w => .ok (w ++ List.replicate (size - w.length) 0)
        | none => .err .dataCorrupt) ∧
      ∀ w, e.brotli input size = some w → (w ++ List.replicate (size - w.length) 0).length = size := by
  constructor
  · rw [readFlash_eq dbg f e tail (by decide) ha hsp (by simp; omega)]
    rw [composite_cases f e _ _ _ rfl, ← brotliGuid_val, if_pos rfl, if_pos hf, brotli_eq rfl, if_pos rfl,
      clean_content]
    dsimp only
    have hr : rd (leBytes 8 size ++ leBytes 8 scratch ++ input) 0 8 = size := by
      unfold rd slice
      rw [List.drop_zero, List.append_assoc, List.take_left' (by simp)]
      exact leVal_leBytes_of_lt hn
    have hd : (leBytes 8 size ++ leBytes 8 scratch ++ input).drop 16 = input := List.drop_left' (by simp)
    unfold brotliBody
    rw [hr, hd, if_neg (by simp; omega), if_neg (by omega)]
    rfl
  · intro w hw
    have := he _ _ _ hw
    simp; omega

/-! ### Whose section it is -/

/-- C113. Of a section that is none of the three kinds, or whose kind was left out, the composite says
"unsupported"; every other answer comes for a section of a kind that is built in. -/
theorem unsupported_iff (f : Features) (e : Env) (s : Section) :
    composite f e s = .err .unsupported ↔
      ¬ ∃ g spec, guidOfHdr s.hdr = some (g, spec) ∧
        ((g = leVal brotliId ∧ f.brotli = true) ∨ (g = leVal crcId ∧ f.crc32 = true) ∨
          (g = leVal lzmaId ∧ f.lzma = true)) := by
  rw [← brotliGuid_val, ← crcGuid_val, ← lzmaGuid_val]
  cases h : guidOfHdr s.hdr with
  | none =>
    have : composite f e s = .err .unsupported := by
      unfold composite
      rw [orElse_other (by unfold brotli; rw [h]), orElse_other (by unfold crc; rw [h]),
        orElse_other (by unfold lzma; rw [h])]
    simp [this]
  | some r =>
    obtain ⟨g, spec⟩ := r
    rw [composite_cases f e s g spec h]
    have e1 := brotli_ne_crc
    have e2 := brotli_ne_lzma
    have e3 := crc_ne_lzma
    by_cases hb : g = brotliGuid
    · subst hb
      have := brotli_supported (e := e) h
      cases hfb : f.brotli <;> simp_all
    · by_cases hc : g = crcGuid
      · subst hc
        have := crc_supported h
        cases hfb : f.crc32 <;> simp_all
      · by_cases hl : g = lzmaGuid
        · subst hl
          have := lzma_supported (e := e) h
          cases hfb : f.lzma <;> simp_all
        · simp_all

/-- C113. The answers depend on nothing but the GUID, the GUID specific bytes, the content and whether the section is
composed. -/
theorem same_content_same_answer (f : Features) (e : Env) (s t : Section) (hh : guidOfHdr s.hdr = guidOfHdr t.hdr)
    (hc : s.content = t.content) : composite f e s = composite f e t := by
  cases h : guidOfHdr s.hdr with
  | none =>
    have hx : ∀ u : Section, guidOfHdr u.hdr = none → composite f e u = .err .unsupported := fun u hu => by
      rw [unsupported_iff]
      rintro ⟨g, spec, hg, -⟩
      rw [hu] at hg
      cases hg
    rw [hx s h, hx t (hh ▸ h)]
  | some r =>
    obtain ⟨g, spec⟩ := r
    have ht : guidOfHdr t.hdr = some (g, spec) := hh ▸ h
    rw [composite_cases f e s g spec h, composite_cases f e t g spec ht, brotli_eq h, brotli_eq ht, crc_eq h,
      crc_eq ht, lzma_eq h, lzma_eq ht, hc]

/-- C113. When the extractors panic (with all of them built in): a CRC32 section with more than four GUID specific
bytes, a Brotli section shorter than its 16-byte header or declaring more than the heap has, an LZMA section shorter
than 13 bytes or declaring more than the heap has. For all other sections they return. -/
theorem panics_iff (e : Env) (s : Section) :
    composite ⟨true, true, true⟩ e s = .panic ↔
      ∃ g spec, guidOfHdr s.hdr = some (g, spec) ∧
        ((g = leVal crcId ∧ 4 < spec.length) ∨
          (g = leVal brotliId ∧ s.isDirty = false ∧ (s.data.length < 16 ∨ e.heap < leVal (s.data.take 8))) ∨
          (g = leVal lzmaId ∧ s.isDirty = false ∧ (s.data.length < 13 ∨
            (leVal ((s.data.drop 5).take 8) ≠ 0xFFFFFFFFFFFFFFFF ∧ e.heap < leVal ((s.data.drop 5).take 8))))) := by
  rw [← brotliGuid_val, ← crcGuid_val, ← lzmaGuid_val]
  have e1 := brotli_ne_crc
  have e2 := brotli_ne_lzma
  have e3 := crc_ne_lzma
  cases h : guidOfHdr s.hdr with
  | none =>
    have : composite ⟨true, true, true⟩ e s = .err .unsupported := by
      rw [unsupported_iff]
      rintro ⟨g, spec, hg, -⟩
      rw [h] at hg
      cases hg
    simp [this]
  | some r =>
    obtain ⟨g, spec⟩ := r
    rw [composite_cases _ e s g spec h, some_pair]
    by_cases hb : g = brotliGuid
    · subst hb
      rw [if_pos rfl, if_pos rfl, brotli_eq h, if_pos rfl]
      rcases content_cases s with ⟨hd, hc⟩ | ⟨hd, hc⟩
      · rw [hc]; simp [hd, e1, e2]
      · rw [hc]
        dsimp only
        unfold brotliBody rd slice
        rw [List.drop_zero]
        by_cases h16 : s.data.length < 16
        · simp [h16, hd]
        · by_cases hh : e.heap < leVal (s.data.take 8)
          · simp [h16, hh, hd]
          · rw [if_neg h16, if_neg hh]
            cases e.brotli (s.data.drop 16) (leVal (s.data.take 8)) <;> simp [h16, hh, e1, e2]
    · by_cases hc : g = crcGuid
      · subst hc
        rw [if_neg hb, if_pos rfl, if_pos rfl, crc_eq h, if_pos rfl]
        by_cases h4 : 4 < spec.length
        · rw [if_neg (by omega), if_pos (by omega)]; simp [h4]
        · by_cases hl4 : spec.length < 4
          · rw [if_pos hl4]; simp [h4, hb, e3]
          · rw [if_neg hl4, if_neg (by omega)]
            rcases content_cases s with ⟨hd, hct⟩ | ⟨hd, hct⟩
            · rw [hct]; simp [hb, e3, h4]
            · rw [hct]
              dsimp only
              split <;> simp [h4, hb, e3]
      · by_cases hl : g = lzmaGuid
        · subst hl
          rw [if_neg hb, if_neg hc, if_pos rfl, if_pos rfl, lzma_eq h, if_pos rfl]
          rcases content_cases s with ⟨hd, hct⟩ | ⟨hd, hct⟩
          · rw [hct]; simp [hd, hb, hc]
          · rw [hct]
            dsimp only
            unfold lzmaBody rd slice unknownSize
            by_cases h13 : s.data.length < 13
            · simp [h13, hd]
            · by_cases hm : leVal ((s.data.drop 5).take 8) ≠ 0xFFFFFFFFFFFFFFFF ∧
                e.heap < leVal ((s.data.drop 5).take 8)
              · rw [if_neg h13, if_pos hm]; simp [hd, hm.1, hm.2]
              · rw [if_neg h13, if_neg hm]
                cases e.lzma s.data <;> simp_all
        · rw [if_neg hb, if_neg hc, if_neg hl]
          simp [hb, hc, hl]

/-! ### Findings -/

/-- Finding: a CRC32 section in the flash with GUID specific bytes beyond the checksum panics the firmware, whatever
the checksum says. -/
theorem long_crc_header_panics (dbg : Bool) (e : Env) (attrs : Nat) (spec data tail : List UInt8)
    (ha : attrs < 2 ^ 16) (hsp : 4 < spec.length) (hsp' : spec.length < 0x8000)
    (hs : 24 + spec.length + data.length < 0xFFFFFF) :
    readFlash dbg ⟨true, true, true⟩ e (flash crcId spec attrs data ++ tail) = .panic := by
  rw [readFlash_eq dbg _ e tail (by decide) ha hsp' hs, panics_iff]
  exact ⟨leVal crcId, spec, rfl, Or.inl ⟨rfl, hsp⟩⟩

/-- Finding: so does a Brotli section with less than 16 bytes of content, and an LZMA section with less than 13. -/
theorem short_content_panics (dbg : Bool) (e : Env) (attrs : Nat) (spec data tail : List UInt8)
    (ha : attrs < 2 ^ 16) (hsp' : spec.length < 0x8000) (hs : 24 + spec.length + data.length < 0xFFFFFF) :
    (data.length < 16 → readFlash dbg ⟨true, true, true⟩ e (flash brotliId spec attrs data ++ tail) = .panic) ∧
    (data.length < 13 → readFlash dbg ⟨true, true, true⟩ e (flash lzmaId spec attrs data ++ tail) = .panic) := by
  refine ⟨fun hd => ?_, fun hd => ?_⟩
  · rw [readFlash_eq dbg _ e tail (by decide) ha hsp' hs, panics_iff]
    exact ⟨leVal brotliId, spec, rfl, Or.inr (Or.inl ⟨rfl, clean_isDirty _ _ _ _ (fun _ => rfl), Or.inl hd⟩)⟩
  · rw [readFlash_eq dbg _ e tail (by decide) ha hsp' hs, panics_iff]
    exact ⟨leVal lzmaId, spec, rfl, Or.inr (Or.inr ⟨rfl, clean_isDirty _ _ _ _ (fun _ => rfl), Or.inl hd⟩)⟩

/-- Finding: a Brotli section that declares more than its data decompresses to is not reported as corrupt; the caller
gets zeros behind the data. -/
theorem brotli_filled_up (dbg : Bool) (f : Features) (e : Env) (attrs size scratch : Nat) (spec input w : List UInt8)
    (he : e.Sane) (hf : f.brotli = true) (ha : attrs < 2 ^ 16) (hsp : spec.length < 0x8000)
    (hs : 40 + spec.length + input.length < 0xFFFFFF) (hn : size < 2 ^ 64) (hm : size ≤ e.heap)
    (hw : e.brotli input size = some w) (hlt : w.length < size) :
    ∃ out, readFlash dbg f e (flash brotliId spec attrs (leBytes 8 size ++ leBytes 8 scratch ++ input)) = .ok out ∧
      out ≠ w ∧ out.getLast? = some 0 := by
  have h := (brotli_section_read dbg f e attrs size scratch spec input [] he hf ha hsp hs hn hm).1
  rw [List.append_nil, hw] at h
  refine ⟨_, h, ?_, ?_⟩
  · intro hx
    have := congrArg List.length hx
    simp at this
    omega
  · have : size - w.length = (size - w.length - 1) + 1 := by omega
    rw [this, List.replicate_succ', ← List.append_assoc, List.getLast?_concat]

/-! ### Extraction of a whole tree -/

/-- A damaged CRC32 section found while a section is extracted makes the extraction fail; the section stays. -/
theorem damage_stops_extraction (dbg : Bool) (f : Features) (e : Env) (fuel : Nat) (s : Section)
    (henc : s.encap = true) (hex : s.extracted = false) (h : composite f e s = .err .dataCorrupt) :
    s.extract dbg (composite f e) (fuel + 1) = .err .dataCorrupt := by
  unfold Section.extract
  simp [henc, hex, h, orNothing]

/-! ### Cases that meet the hypotheses -/

/-- Decompressors that copy. -/
def copying : Env := ⟨fun d n => if d.length ≤ n then some d else none, some, 0x1000⟩

theorem copying_sane : copying.Sane := by
  intro d n w h
  unfold copying at h
  dsimp only at h
  split at h
  · cases h; assumption
  · cases h

example : readFlash true ⟨true, true, true⟩ copying
    (flash crcId (leBytes 4 0xCBF43926) 2 [0x31, 0x32, 0x33, 0x34, 0x35, 0x36, 0x37, 0x38, 0x39]) =
    .ok [0x31, 0x32, 0x33, 0x34, 0x35, 0x36, 0x37, 0x38, 0x39] := by decide +kernel

example : readFlash true ⟨true, true, true⟩ copying
    (flash crcId (leBytes 4 0xCBF43926) 2 [0x31, 0x32, 0x33, 0x34, 0x35, 0x36, 0x37, 0x38, 0x38]) =
    .err .dataCorrupt := by decide +kernel

example : readFlash true ⟨true, true, true⟩ copying
    (flash brotliId [] 1 (leBytes 8 4 ++ leBytes 8 0 ++ [7, 8])) = .ok [7, 8, 0, 0] := by decide +kernel

example : readFlash true ⟨true, true, true⟩ copying
    (flash lzmaId [] 1 [93, 0, 0, 0, 1, 1, 0, 0, 0, 0, 0, 0, 0, 5]) =
    .ok [93, 0, 0, 0, 1, 1, 0, 0, 0, 0, 0, 0, 0, 5] := by decide +kernel

example : readFlash false ⟨true, true, true⟩ copying (flash crcId [1, 2, 3, 4, 5] 2 [0x31]) = .panic := by
  decide +kernel

example : readFlash false ⟨true, false, true⟩ copying (flash crcId [1, 2, 3, 4, 5] 2 [0x31]) = .err .unsupported := by
  decide +kernel

end Verif.Ffs.Extract
