import Verif.Ffs.EditModel
import Verif.MemMap.Model
/-!
Model of the section extractors, `/repo/sdk/patina_ffs_extractors/src/{brotli,crc32,lzma,composite}.rs`.

* The decompressors are crates outside the repository (`brotli_decompressor`, `patina_lzma_rs`) and are arbitrary
  functions here. `crc32fast::hash` is the checksum of `Verif.MemMap.Model`.
* `heap` is the largest block the allocator gives; asking for more aborts (`handle_alloc_error`, "capacity
  overflow"), which is a panic here. What the decompressors allocate themselves is not counted.
-/
namespace Verif.Ffs.Extract
open Verif.MemMap (crc32)

/-- A GUID written as in `efi::Guid::from_fields`, as the number its 16 bytes encode. -/
def guidOf (d1 d2 d3 : Nat) (rest : List UInt8) : Nat :=
  leVal (leBytes 4 d1 ++ (leBytes 2 d2 ++ (leBytes 2 d3 ++ rest)))

/-- `BROTLI_SECTION`, /repo/sdk/patina_pi/src/fw_fs.rs lines 50-51. -/
def brotliGuid : Nat := guidOf 0x3D532050 0x5CDA 0x4FD0 [0x87, 0x9E, 0x0F, 0x7F, 0x63, 0x0D, 0x5A, 0xFB]
/-- `CRC32_SECTION`, fw_fs.rs lines 52-53. -/
def crcGuid : Nat := guidOf 0xFC1BCDB0 0x7D31 0x49aa [0x93, 0x6A, 0xA4, 0x60, 0x0D, 0x9D, 0xD0, 0x83]
/-- `LZMA_SECTION_GUID`, lzma.rs lines 21-22. -/
def lzmaGuid : Nat := guidOf 0xEE4E5898 0x3914 0x4259 [0x9D, 0x6E, 0xDC, 0x7B, 0xD7, 0x94, 0x03, 0xCF]

/-- The GUID of a `GuidDefined` header and the bytes specific to it: what the `if let` of the three extractors
looks at. -/
def guidOfHdr : SecHdr → Option (Nat × List UInt8)
  | .guidDefined g _ _ spec _ => some (g, spec)
  | _ => none

/-- What the environment of the extractors is: the decompressors and the allocator. `brotli input size` is the
outcome of `BrotliDecompressStream` on `input` with an output buffer of `size` bytes: the bytes it wrote if it
returned `ResultSuccess`, or `none`. `lzma input` is what `lzma_decompress` wrote, or `none` for an error. -/
structure Env where
  brotli : List UInt8 → Nat → Option (List UInt8)
  lzma : List UInt8 → Option (List UInt8)
  heap : Nat

/-- The decompressor does not write more than the buffer holds (it gets a slice). -/
def Env.Sane (e : Env) : Prop := ∀ d n w, e.brotli d n = some w → w.length ≤ n

/-- `BrotliSectionExtractor::extract` for a section of its own, brotli.rs lines 64-91. The two slices of the header
panic if the content ends before; the output is a buffer of the declared size, filled with zeros, that the
decompressor writes into from its start. -/
def brotliBody (e : Env) (data : List UInt8) : Outcome FfsError (List UInt8) :=
  if data.length < 16 then .panic
  else if e.heap < rd data 0 8 then .panic
  else match e.brotli (data.drop 16) (rd data 0 8) with
    | some w => .ok (w ++ List.replicate (rd data 0 8 - w.length) 0)
    | none => .err .dataCorrupt

/-- `LZMA_UNKNOWN_UNPACKED_SIZE_MAGIC_VALUE`, lzma.rs line 24. -/
def unknownSize : Nat := 0xFFFFFFFFFFFFFFFF

/-- `LzmaSectionExtractor::extract` for a section of its own, lzma.rs lines 38-51. -/
def lzmaBody (e : Env) (data : List UInt8) : Outcome FfsError (List UInt8) :=
  if data.length < 13 then .panic
  else if rd data 5 8 ≠ unknownSize ∧ e.heap < rd data 5 8 then .panic
  else match e.lzma data with
    | some out => .ok out
    | none => .err .dataCorrupt

/-- `BrotliSectionExtractor::extract`, brotli.rs lines 58-94. -/
def brotli (e : Env) : Extractor := fun s =>
  match guidOfHdr s.hdr with
  | some (g, _) =>
    if g = brotliGuid then
      match s.content with
      | .ok data => brotliBody e data
      | .err x => .err x
      | .panic => .panic
    else .err .unsupported
  | none => .err .unsupported

/-- `LzmaSectionExtractor::extract`, lzma.rs lines 31-54. -/
def lzma (e : Env) : Extractor := fun s =>
  match guidOfHdr s.hdr with
  | some (g, _) =>
    if g = lzmaGuid then
      match s.content with
      | .ok data => lzmaBody e data
      | .err x => .err x
      | .panic => .panic
    else .err .unsupported
  | none => .err .unsupported

/-- `Crc32SectionExtractor::extract`, crc32.rs lines 22-42. `try_into().unwrap()` into an array of four bytes panics
for any other length. -/
def crc : Extractor := fun s =>
  match guidOfHdr s.hdr with
  | some (g, spec) =>
    if g = crcGuid then
      if spec.length < 4 then .err .dataCorrupt
      else if spec.length ≠ 4 then .panic
      else match s.content with
        | .ok data => if leVal spec ≠ crc32 data then .err .dataCorrupt else .ok data
        | .err x => .err x
        | .panic => .panic
    else .err .unsupported
  | none => .err .unsupported

/-- The crate features that leave an extractor in, composite.rs lines 26-33. -/
structure Features where
  brotli : Bool
  crc32 : Bool
  lzma : Bool

/-- One block of `CompositeSectionExtractor::extract`, e.g. composite.rs lines 51-58: only "unsupported" goes on. -/
def orElse (on : Bool) (x : Extractor) (next : Extractor) : Extractor := fun s =>
  if on then
    match x s with
    | .err .unsupported => next s
    | r => r
  else next s

/-- `CompositeSectionExtractor::extract`, composite.rs lines 49-80. -/
def composite (f : Features) (e : Env) : Extractor :=
  orElse f.brotli (brotli e) (orElse f.crc32 crc (orElse f.lzma (lzma e) (fun _ => .err .unsupported)))

end Verif.Ffs.Extract
