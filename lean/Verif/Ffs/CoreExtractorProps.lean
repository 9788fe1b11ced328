import Verif.Ffs.CoreExtractor
import Verif.Ffs.ExtractorsProps
/-!
C128: the section extractor of the core and the decompress protocol.
-/
namespace Verif.Ffs.Core
open Verif.Ffs.Extract (flash parse_flash clean_content content_cases)

/-! ### Specification -/

/-- a31280ad-481e-41b6-95e8-127f4c984779 in memory order. -/
def tianoId : List UInt8 :=
  [0xAD, 0x80, 0x12, 0xA3, 0x1E, 0x48, 0xB6, 0x41, 0x95, 0xE8, 0x12, 0x7F, 0x4C, 0x98, 0x47, 0x79]

/-- A compression section as it lies in the flash (PI specification, volume 3, 3.2.5.2), small enough for the 3-byte size field: size, type 1,
length of the data once uncompressed, kind of compression, data. -/
def squeezed (declared : Nat) (kind : UInt8) (data : List UInt8) : List UInt8 :=
  leBytes 3 (9 + data.length) ++ [1] ++ leBytes 4 declared ++ [kind] ++ data

/-- Compressed data (UEFI specification, 19.2): its size, the size once uncompressed, and the bits. -/
def stream (c d : Nat) (bits : List UInt8) : List UInt8 := leBytes 4 c ++ leBytes 4 d ++ bits

/-- Parsing what lies in the flash and asking the extractor of the core for the content. -/
def readFlash (dbg : Bool) (e : Env) (more : Option Extractor) (b : List UInt8) : Outcome FfsError (List UInt8) :=
  match parse dbg b with
  | .ok s => extract e more s
  | .err x => .err x
  | .panic => .panic

/-- What the decompressor made, or an error. -/
def answer : Option (List UInt8) → Outcome FfsError (List UInt8)
  | some w => .ok w
  | none => .err .dataCorrupt

/-! ### Lemmas -/

theorem tianoGuid_val : tianoGuid = leVal tianoId := by decide

theorem squeezed_hdr {declared : Nat} {kind : UInt8} {data : List UInt8} (hs : 9 + data.length < 0xFFFFFF) :
    squeezed declared kind data = (SecHdr.compression declared kind.toNat data.length).serialize ++ data := by
  unfold SecHdr.serialize
  simp only [SecHdr.contentSize, SecHdr.ty, SecHdr.extra]
  unfold SecHdr.serializeWith
  have hl : 4 + (leBytes 4 declared ++ leBytes 1 kind.toNat).length + data.length = 9 + data.length := by simp
  have hm : 9 + data.length < SecHdr.MAX_STD := by unfold SecHdr.MAX_STD; omega
  simp only [hl, hm, if_true]
  have hk : leBytes 1 kind.toNat = [kind] := by simp [leBytes]
  simp [squeezed, hk]

theorem parse_squeezed (dbg : Bool) {declared : Nat} {kind : UInt8} {data : List UInt8} (tail : List UInt8) (hd : declared < 2 ^ 32)
    (hs : 9 + data.length < 0xFFFFFF) :
    parse dbg (squeezed declared kind data ++ tail) = .ok ⟨.compression declared kind.toNat data.length, data, true, false, false, []⟩ := by
  rw [squeezed_hdr hs, List.append_assoc]
  have hoff : (SecHdr.compression declared kind.toNat data.length).contentOffset = 9 := by
    unfold SecHdr.contentOffset SecHdr.serialize
    simp only [SecHdr.contentSize, SecHdr.ty, SecHdr.extra]
    unfold SecHdr.serializeWith
    have : 4 + (leBytes 4 declared ++ leBytes 1 kind.toNat).length + data.length < 0x1000000 := by simp; omega
    simp only [SecHdr.MAX_STD, this, if_true]
    simp
  refine parse_serialize (h := .compression declared kind.toNat data.length) ?_ rfl ?_ ?_
  · exact ⟨show data.length < 2 ^ 32 by omega, hd, kind.toNat_lt⟩
  · unfold SecHdr.totalSize
    rw [hoff]
    show 9 + data.length < 2 ^ 32
    omega
  · unfold SecHdr.plainTotal
    simp only [SecHdr.extra, SecHdr.contentSize]
    simp
    omega

theorem stream_read {c d : Nat} {bits : List UInt8} (hc : c < 2 ^ 32) (hd : d < 2 ^ 32) :
    rd (stream c d bits) 0 4 = c ∧ rd (stream c d bits) 4 4 = d ∧ (stream c d bits).length = 8 + bits.length := by
  refine ⟨?_, ?_, by simp [stream]; omega⟩
  · unfold rd slice stream
    rw [List.append_assoc, List.drop_zero, List.take_left' (by simp)]
    exact leVal_leBytes_of_lt (by omega)
  · unfold rd slice stream
    rw [List.append_assoc, List.drop_left' (by simp), List.take_left' (by simp)]
    exact leVal_leBytes_of_lt (by omega)

theorem unpack_supported (e : Env) (a : Algo) (d : List UInt8) : unpack e a d ≠ .err .unsupported := by
  unfold unpack
  split
  · simp
  · split
    · simp
    · split
      · simp
      · split <;> simp

theorem content_supported (s : Section) : s.content ≠ .err .unsupported := by
  unfold Section.content
  split <;> simp

theorem own_unsupported (e : Env) (s : Section) : own e s = .err .unsupported ↔ plan s.hdr = .refuse := by
  unfold own
  cases h : plan s.hdr with
  | refuse => simp
  | copy => simpa using content_supported s
  | unpack a =>
    simp only [reduceCtorEq, iff_false]
    cases hc : s.content with
    | ok src => exact unpack_supported e a src
    | err x =>
      have := content_supported s
      rw [hc] at this
      simpa using this
    | panic => simp

theorem extract_own {e : Env} {more : Option Extractor} {s : Section} (h : own e s ≠ .err .unsupported) : extract e more s = own e s := by
  unfold extract
  split
  · rename_i h'; exact absurd h' h
  · rfl

theorem unpack_stream (e : Env) (a : Algo) {c d : Nat} {bits : List UInt8} (hc : c < 2 ^ 32) (hd : d < 2 ^ 32) (hcs : c ≤ 8 + bits.length)
    (hh : d ≤ e.heap) : unpack e a (stream c d bits) = answer (e.dec a (stream c d bits) d) := by
  obtain ⟨h1, h2, h3⟩ := stream_read (bits := bits) hc hd
  unfold unpack
  rw [h1, h2, h3, if_neg (by omega), if_neg (by omega), if_neg (by omega)]
  cases e.dec a (stream c d bits) d <;> rfl

/-! ### The theorems -/

/-- A Tiano compressed section gives what the Tiano decompressor makes of its data in a buffer of the size the data declares, whatever extractor
the platform has. -/
theorem tiano_section (dbg : Bool) (e : Env) (more : Option Extractor) (spec : List UInt8) (attrs c d : Nat) (bits tail : List UInt8)
    (ha : attrs < 2 ^ 16) (hsp : spec.length < 0x8000) (hc : c < 2 ^ 32) (hd : d < 2 ^ 32) (hcs : c ≤ 8 + bits.length) (hh : d ≤ e.heap)
    (hs : 32 + spec.length + bits.length < 0xFFFFFF) :
    readFlash dbg e more (flash tianoId spec attrs (stream c d bits) ++ tail) =
      answer (e.dec .tiano (stream c d bits) d) := by
  unfold readFlash
  rw [parse_flash dbg tail (by decide) ha hsp (by rw [(stream_read hc hd).2.2]; omega)]
  dsimp only
  have ho : own e ⟨.guidDefined (leVal tianoId) (24 + spec.length) attrs spec (stream c d bits).length, stream c d bits, true, false, false, []⟩ =
      unpack e .tiano (stream c d bits) := by
    unfold own
    simp only [plan, ← tianoGuid_val, if_true, clean_content]
  rw [extract_own (by rw [ho]; exact unpack_supported _ _ _), ho, unpack_stream e _ hc hd hcs hh]

/-- A section compressed in the standard way gives what the UEFI decompressor makes of its data in a buffer of the size the data declares. -/
theorem compressed_section (dbg : Bool) (e : Env) (more : Option Extractor) (declared c d : Nat) (bits tail : List UInt8) (hl : declared < 2 ^ 32)
    (hc : c < 2 ^ 32) (hd : d < 2 ^ 32) (hcs : c ≤ 8 + bits.length) (hh : d ≤ e.heap) (hs : 17 + bits.length < 0xFFFFFF) :
    readFlash dbg e more (squeezed declared 1 (stream c d bits) ++ tail) =
      answer (e.dec .uefi (stream c d bits) d) := by
  unfold readFlash
  rw [parse_squeezed dbg tail hl (by rw [(stream_read hc hd).2.2]; omega)]
  dsimp only
  have ho : own e ⟨.compression declared (1 : UInt8).toNat (stream c d bits).length, stream c d bits, true, false, false, []⟩ =
      unpack e .uefi (stream c d bits) := by
    unfold own
    simp only [plan, clean_content]
    rfl
  rw [extract_own (by rw [ho]; exact unpack_supported _ _ _), ho, unpack_stream e _ hc hd hcs hh]

/-- A compression section whose data is not compressed gives its data, unchanged. -/
theorem stored_section (dbg : Bool) (e : Env) (more : Option Extractor) (declared : Nat) (data tail : List UInt8) (hl : declared < 2 ^ 32)
    (hs : 9 + data.length < 0xFFFFFF) : readFlash dbg e more (squeezed declared 0 data ++ tail) = .ok data := by
  unfold readFlash
  rw [parse_squeezed dbg tail hl hs]
  dsimp only
  have ho : own e ⟨.compression declared (0 : UInt8).toNat data.length, data, true, false, false, []⟩ = .ok data := by
    unfold own
    simp only [plan, clean_content]
    rfl
  rw [extract_own (by rw [ho]; simp), ho]

/-- A section the core can read itself: Tiano compressed, or a compression section that is stored or compressed in the standard way. -/
def Mine (s : Section) : Prop :=
  (∃ o a sp n, s.hdr = .guidDefined (leVal tianoId) o a sp n) ∨ ∃ l k n, s.hdr = .compression l k n ∧ k ≤ 1

theorem mine_iff (s : Section) : Mine s ↔ plan s.hdr ≠ .refuse := by
  unfold Mine
  cases s.hdr with
  | guidDefined g o a sp n =>
    simp only [plan, SecHdr.guidDefined.injEq, reduceCtorEq, false_and, exists_false, or_false, tianoGuid_val]
    by_cases h : g = leVal tianoId <;> simp [h]
  | compression l k n =>
    simp only [plan, SecHdr.compression.injEq, reduceCtorEq, exists_false, false_or]
    by_cases h0 : k = 0
    · simp only [h0, if_true, ne_eq, reduceCtorEq, not_false_eq_true, iff_true]
      exact ⟨l, 0, n, ⟨rfl, rfl, rfl⟩, by omega⟩
    · by_cases h1 : k = 1
      · simp only [h1, Nat.one_ne_zero, if_true, if_false, ne_eq, reduceCtorEq, not_false_eq_true, iff_true]
        exact ⟨l, 1, n, ⟨rfl, rfl, rfl⟩, by omega⟩
      · simp only [h0, h1, if_false, ne_eq, not_true_eq_false, iff_false, not_exists, not_and]
        rintro l' k' n' ⟨-, rfl, -⟩
        omega
  | pad n => simp [plan]
  | standard t n => simp [plan]
  | version b n => simp [plan]
  | freeform g n => simp [plan]

/-- The extractor of the platform is asked about every other section, and only about those: what it answers is the answer, and without one the
section is unsupported. -/
theorem others_passed_on (e : Env) (s : Section) (h : ¬ Mine s) (x : Extractor) :
    extract e (some x) s = x s ∧ extract e none s = .err .unsupported := by
  have : own e s = .err .unsupported := by
    rw [own_unsupported]
    cases hp : plan s.hdr with
    | refuse => rfl
    | copy => exact absurd ((mine_iff s).2 (by rw [hp]; simp)) h
    | unpack a => exact absurd ((mine_iff s).2 (by rw [hp]; simp)) h
  unfold extract
  rw [this]
  exact ⟨rfl, rfl⟩

theorem own_not_passed_on (e : Env) (s : Section) (h : Mine s) (more : Option Extractor) :
    extract e more s = extract e none s ∧ extract e more s ≠ .err .unsupported := by
  have : own e s ≠ .err .unsupported := by
    rw [ne_eq, own_unsupported]
    exact (mine_iff s).1 h
  rw [extract_own this, extract_own this]
  exact ⟨rfl, this⟩

/-- Data too short to hold its two sizes, or that declares to be longer than it is, is reported as corrupt and the decompressor does not see it. -/
theorem damaged_refused (e : Env) (a : Algo) (src : List UInt8) (h : src.length < 8 ∨ src.length < rd src 0 4) :
    unpack e a src = .err .dataCorrupt := by
  unfold unpack
  by_cases h8 : src.length < 8
  · rw [if_pos h8]
  · rw [if_neg h8, if_pos (by omega)]

/-- Whatever the section: what is given out has the size the compressed data declares. -/
theorem unpacked_size {e : Env} (hs : e.Sane) {a : Algo} {src w : List UInt8} (h : unpack e a src = .ok w) : w.length = rd src 4 4 := by
  unfold unpack at h
  split at h
  · cases h
  · split at h
    · cases h
    · split at h
      · cases h
      · split at h
        · rename_i w' hw
          cases h
          exact hs _ _ _ _ hw
        · cases h

/-- A section that is being edited is not read. -/
theorem edited_refused (e : Env) (s : Section) (h : Mine s) (hd : s.isDirty = true) (more : Option Extractor) :
    extract e more s = .err .notComposed := by
  have hc : s.content = .err .notComposed := by
    unfold Section.content
    rw [if_pos hd]
  have ho : own e s = .err .notComposed := by
    have := (mine_iff s).1 h
    unfold own
    cases hp : plan s.hdr with
    | refuse => exact absurd hp this
    | copy => simp only [hc]
    | unpack a => simp only [hc]
  rw [extract_own (by rw [ho]; simp), ho]

/-! ### Findings -/

/-- Finding: the uncompressed length a compression section declares is not looked at: neither the data of a stored section nor what a compressed one
decompresses to is compared with it. -/
theorem declared_length_ignored (dbg : Bool) (e : Env) (more : Option Extractor) (l l' : Nat) (kind : UInt8) (data tail : List UInt8)
    (hl : l < 2 ^ 32) (hl' : l' < 2 ^ 32) (hs : 9 + data.length < 0xFFFFFF) (hk : kind = 0 ∨ kind = 1) :
    readFlash dbg e more (squeezed l kind data ++ tail) = readFlash dbg e more (squeezed l' kind data ++ tail) := by
  unfold readFlash
  rw [parse_squeezed dbg tail hl hs, parse_squeezed dbg tail hl' hs]
  dsimp only
  have ho : own e ⟨.compression l kind.toNat data.length, data, true, false, false, []⟩ =
      own e ⟨.compression l' kind.toNat data.length, data, true, false, false, []⟩ := by
    unfold own
    simp only [plan, clean_content]
  have hn : ∀ l, own e ⟨.compression l kind.toNat data.length, data, true, false, false, []⟩ ≠ .err .unsupported := by
    intro l
    rw [ne_eq, own_unsupported]
    refine (mine_iff _).1 (.inr ⟨l, kind.toNat, data.length, rfl, ?_⟩)
    rcases hk with rfl | rfl <;> decide
  rw [extract_own (hn l), extract_own (hn l'), ho]

/-- Finding: the size the compressed data declares is allocated before the data is looked at: a damaged section that declares more than the
allocator gives aborts instead of being reported as corrupt. -/
theorem huge_size_panics (e : Env) (a : Algo) {c d : Nat} {bits : List UInt8} (hc : c < 2 ^ 32) (hd : d < 2 ^ 32) (hcs : c ≤ 8 + bits.length)
    (hh : e.heap < d) : unpack e a (stream c d bits) = .panic := by
  obtain ⟨h1, h2, h3⟩ := stream_read (bits := bits) hc hd
  unfold unpack
  rw [h1, h2, h3, if_neg (by omega), if_neg (by omega), if_pos hh]

/-! ### The protocol -/

/-- The caller's arguments are good: no pointer is null and the source is long enough for its two sizes and for the compressed data it declares,
without wrapping. -/
def GoodInfo (src : Option (Nat → UInt8)) (srcSize : Nat) (dst scratch : Bool) : Prop :=
  ∃ m, src = some m ∧ dst = true ∧ scratch = true ∧ leVal [m 0, m 1, m 2, m 3] + 8 ≤ srcSize

/-- Without overflow checks, `get_info` tells the size of the uncompressed data, and that no scratch memory is needed, exactly if the arguments are
good, and writes nothing otherwise. -/
theorem get_info_spec (src : Option (Nat → UInt8)) (srcSize : Nat) (dst scratch : Bool) (hs : srcSize < 2 ^ 32) :
    (∀ d s, getInfo false src srcSize dst scratch = .ok (d, s) ↔
      GoodInfo src srcSize dst scratch ∧ s = 0 ∧ ∃ m, src = some m ∧ d = leVal [m 4, m 5, m 6, m 7]) ∧
    (¬ GoodInfo src srcSize dst scratch → getInfo false src srcSize dst scratch = .err ()) := by
  have key : getInfo false src srcSize dst scratch =
      match src with
      | none => .err ()
      | some m => if dst = true ∧ scratch = true ∧ leVal [m 0, m 1, m 2, m 3] + 8 ≤ srcSize then .ok (leVal [m 4, m 5, m 6, m 7], 0) else .err () := by
    unfold getInfo
    cases src with
    | none => rfl
    | some m =>
      dsimp only
      have hw : word m 0 = leVal [m 0, m 1, m 2, m 3] := rfl
      have hlt : leVal [m 0, m 1, m 2, m 3] < 4294967296 := by simpa using leVal_lt [m 0, m 1, m 2, m 3]
      rw [hw, show (2 : Nat) ^ 32 = 4294967296 from rfl]
      rw [show (2 : Nat) ^ 32 = 4294967296 from rfl] at hs
      by_cases hp : dst = false ∨ scratch = false
      · rw [if_pos hp, if_neg]
        rintro ⟨h1, h2, -⟩
        rcases hp with h | h <;> simp_all
      · rw [if_neg hp]
        have h1 : dst = true := by cases dst <;> simp_all
        have h2 : scratch = true := by cases scratch <;> simp_all
        by_cases h8 : srcSize < 8
        · rw [if_pos h8, if_neg (by omega)]
        · rw [if_neg h8, if_neg (by simp)]
          generalize leVal [m 0, m 1, m 2, m 3] = c at *
          by_cases hc : c + 8 ≤ srcSize
          · rw [if_neg (by rw [Nat.mod_eq_of_lt (by omega)]; omega), if_pos ⟨h1, h2, hc⟩]
            rfl
          · rw [if_pos, if_neg (by omega)]
            by_cases hb : 4294967296 ≤ c + 8
            · exact .inr hb
            · left; rw [Nat.mod_eq_of_lt (by omega)]; omega
  constructor
  · intro d s
    rw [key]
    cases src with
    | none => simp [GoodInfo]
    | some m =>
      dsimp only
      by_cases hg : dst = true ∧ scratch = true ∧ leVal [m 0, m 1, m 2, m 3] + 8 ≤ srcSize
      · rw [if_pos hg]
        constructor
        · intro h
          cases h
          exact ⟨⟨m, rfl, hg⟩, rfl, m, rfl, rfl⟩
        · rintro ⟨-, rfl, m', hm, rfl⟩
          cases hm
          rfl
      · rw [if_neg hg]
        constructor
        · intro h; cases h
        · rintro ⟨⟨m', hm, h⟩, -⟩
          cases hm
          exact absurd h hg
  · intro hn
    rw [key]
    cases src with
    | none => rfl
    | some m =>
      dsimp only
      rw [if_neg]
      intro h
      exact hn ⟨m, rfl, h⟩

/-- The answer depends on the first eight bytes of the source only, and on none of them if the source is shorter. -/
theorem get_info_reads (dbg : Bool) (m m' : Nat → UInt8) (srcSize : Nat) (dst scratch : Bool) (h : 8 ≤ srcSize → ∀ i, i < 8 → m i = m' i) :
    getInfo dbg (some m) srcSize dst scratch = getInfo dbg (some m') srcSize dst scratch := by
  unfold getInfo
  dsimp only
  by_cases h8 : srcSize < 8
  · simp only [h8, if_true]
  · have e := h (by omega)
    have e0 : word m 0 = word m' 0 := by simp [word, e]
    have e4 : word m 4 = word m' 4 := by simp [word, e]
    rw [e0, e4]

/-- Finding: with overflow checks, a source that declares a size within eight of 2^32 panics, since the sum is formed before it is checked; without
them, the same source is refused. -/
theorem get_info_panics_iff (src : Option (Nat → UInt8)) (srcSize : Nat) (dst scratch : Bool) :
    getInfo true src srcSize dst scratch = .panic ↔
      ∃ m, src = some m ∧ dst = true ∧ scratch = true ∧ 8 ≤ srcSize ∧ 2 ^ 32 ≤ leVal [m 0, m 1, m 2, m 3] + 8 := by
  unfold getInfo
  cases src with
  | none => simp
  | some m =>
    dsimp only
    have hw : word m 0 = leVal [m 0, m 1, m 2, m 3] := rfl
    rw [hw]
    simp only [Option.some.injEq, exists_eq_left']
    generalize leVal [m 0, m 1, m 2, m 3] = c
    rw [show (2 : Nat) ^ 32 = 4294967296 from rfl]
    by_cases hp : dst = false ∨ scratch = false
    · rw [if_pos hp]
      simp only [reduceCtorEq, false_iff]
      rintro ⟨h1, h2, -⟩
      rcases hp with h | h <;> simp_all
    · rw [if_neg hp]
      have h1 : dst = true := by cases dst <;> simp_all
      have h2 : scratch = true := by cases scratch <;> simp_all
      by_cases h8 : srcSize < 8
      · rw [if_pos h8]
        simp only [reduceCtorEq, false_iff]
        omega
      · rw [if_neg h8]
        by_cases hb : 4294967296 ≤ c + 8
        · rw [if_pos ⟨trivial, hb⟩]
          exact ⟨fun _ => ⟨h1, h2, by omega, hb⟩, fun _ => rfl⟩
        · rw [if_neg (fun h => hb h.2)]
          constructor
          · intro h
            split at h <;> cases h
          · rintro ⟨-, -, -, h⟩
            exact absurd h hb

/-- The extractor is laxer than the protocol: data that declares a size which leaves no room for the two sizes themselves is refused by `get_info`
and handed to the decompressor by the extractor. -/
theorem extractor_laxer (e : Env) (a : Algo) {c d : Nat} {bits : List UInt8} (m : Nat → UInt8) (hc : c < 2 ^ 32) (hd : d < 2 ^ 32)
    (hl : bits.length < c) (hcs : c ≤ 8 + bits.length) (hh : d ≤ e.heap) (hb : 8 + bits.length < 2 ^ 32)
    (hm : ∀ i (h : i < (stream c d bits).length), m i = (stream c d bits)[i]) :
    getInfo false (some m) (stream c d bits).length true true = .err () ∧
      unpack e a (stream c d bits) = answer (e.dec a (stream c d bits) d) := by
  refine ⟨?_, unpack_stream e a hc hd hcs hh⟩
  obtain ⟨h1, -, h3⟩ := stream_read (bits := bits) hc hd
  apply (get_info_spec _ _ _ _ (by omega)).2
  rintro ⟨m', hm', -, -, hle⟩
  cases hm'
  have : [m 0, m 1, m 2, m 3] = slice (stream c d bits) 0 4 := by
    rw [hm 0 (by omega), hm 1 (by omega), hm 2 (by omega), hm 3 (by omega)]
    unfold slice
    apply List.ext_getElem
    · simp; omega
    · intro i hi hi'
      simp at hi
      match i, hi with
      | 0, _ => simp
      | 1, _ => simp
      | 2, _ => simp
      | 3, _ => simp
  rw [this] at hle
  have h1' : leVal (slice (stream c d bits) 0 4) = c := h1
  rw [h1', h3] at hle
  omega

/-- `decompress` gives what the UEFI decompressor makes of the source in a buffer of the given size, and an error if that fails. -/
theorem decompress_spec (e : Env) (src : List UInt8) (n : Nat) :
    decompress e (some src) (some n) = match e.dec .uefi src n with | some w => .ok w | none => .err () := rfl

/-- Finding: a null pointer is not reported as an invalid parameter: it panics. -/
theorem null_pointer_panics (e : Env) (src : Option (List UInt8)) (dst : Option Nat) : decompress e src dst = .panic ↔ src = none ∨ dst = none := by
  cases src <;> cases dst <;> simp [decompress]
  split <;> simp

/-! ### The hypotheses are met -/

/-- A decompressor that copies the bits, if they fill the buffer. -/
def copying : Env := ⟨fun _ s n => if (s.drop 8).length = n then some (s.drop 8) else none, 0x10000⟩

example : copying.Sane := by
  intro a s n w h
  simp only [copying] at h
  split at h
  · cases h; assumption
  · cases h

example : readFlash true copying none (squeezed 99 1 (stream 3 3 [7, 8, 9]) ++ [0xFF]) = .ok [7, 8, 9] ∧
    readFlash false copying none (flash tianoId [] 1 (stream 3 3 [7, 8, 9])) = .ok [7, 8, 9] ∧
    readFlash true copying none (squeezed 99 0 [7, 8] ++ [0xFF]) = .ok [7, 8] ∧
    readFlash true copying none (squeezed 99 1 (stream 3 4 [7, 8, 9])) = .err .dataCorrupt ∧
    readFlash true copying none (squeezed 99 1 (stream 3 0x20000 [7, 8, 9])) = .panic ∧
    readFlash true copying (some fun _ => .ok [1]) (squeezed 99 2 (stream 3 3 [7, 8, 9])) = .ok [1] := by decide +kernel

example : getInfo true (some fun i => if i = 0 then 3 else if i = 4 then 77 else 0) 11 true true = .ok (77, 0) ∧
    getInfo true (some fun i => if i = 0 then 3 else if i = 4 then 77 else 0) 10 true true = .err () ∧
    getInfo true (some fun _ => 0xFF) 100 true true = .panic ∧ getInfo false (some fun _ => 0xFF) 100 true true = .err () := by decide +kernel

end Verif.Ffs.Core
