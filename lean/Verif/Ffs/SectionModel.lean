import Verif.Base.Model
import Verif.Bytes
/-!
Model of firmware file sections, `/repo/sdk/patina_ffs/src/section.rs`.

* Bytes are `UInt8`; every multi-byte header field is the `Nat` its little-endian bytes encode. A GUID is
  the 128-bit number its 16 bytes encode.
* `usize` is 64 bits wide.
* `dbg` selects the profile: with it arithmetic overflow panics, without it arithmetic wraps.
-/
namespace Verif.Ffs

/-- `FirmwareFileSystemError`, `/repo/sdk/patina_ffs/src/lib.rs` (the variants that are produced here). -/
inductive FfsError where
  | invalidHeader | invalidBlockMap | unsupported | invalidState | dataCorrupt | notComposed | notLeaf
  | invalidParameter
deriving DecidableEq, Repr

/-- `&b[i..i + n]` (shorter when `b` ends earlier; every use is guarded by a length check). -/
def slice (b : List UInt8) (i n : Nat) : List UInt8 := (b.drop i).take n

/-- A little-endian field of `n` bytes at offset `i`. -/
def rd (b : List UInt8) (i n : Nat) : Nat := leVal (slice b i n)

/-- `SectionHeader`, section.rs lines 46-64. The last component is the content size. Struct fields as in
`/repo/sdk/patina_pi/src/fw_fs/ffs/section.rs` lines 93-140: `Compression` is packed (5 bytes),
`GuidDefined` 20 bytes, `Version` 2 bytes, `FreeformSubtypeGuid` 16 bytes. -/
inductive SecHdr where
  | pad (size : Nat)
  | standard (ty : UInt8) (size : Nat)
  | compression (uncompressedLength compressionType size : Nat)
  | guidDefined (guid dataOffset attributes : Nat) (specific : List UInt8) (size : Nat)
  | version (buildNumber size : Nat)
  | freeform (guid size : Nat)
deriving DecidableEq, Repr

namespace SecHdr

/-- `content_size`, section.rs lines 94-104. -/
def contentSize : SecHdr → Nat
  | pad n => n
  | standard _ n => n
  | compression _ _ n => n
  | guidDefined _ _ _ _ n => n
  | version _ n => n
  | freeform _ n => n

/-- `section_type_raw`, section.rs lines 107-116. -/
def ty : SecHdr → UInt8
  | pad _ => 0xF0
  | standard t _ => t
  | compression .. => 0x01
  | guidDefined .. => 0x02
  | version .. => 0x14
  | freeform .. => 0x18

/-- The type specific header bytes (`header_data` of `serialize`, section.rs lines 147-177). -/
def extra : SecHdr → List UInt8
  | pad _ => []
  | standard _ _ => []
  | compression ul ct _ => leBytes 4 ul ++ leBytes 1 ct
  | guidDefined g off attrs spec _ => leBytes 16 g ++ (leBytes 2 off ++ (leBytes 2 attrs ++ spec))
  | version b _ => leBytes 2 b
  | freeform g _ => leBytes 16 g

/-- `MAX_STANDARD_SECTION_SIZE`, section.rs line 20. -/
def MAX_STD : Nat := 0x1000000

/-- The bytes of a non-padding header, section.rs lines 179-199. Simplification: `section_size as u32 + 4`
is computed modulo 2^32 (its overflow check in dev profile is left out). -/
def serializeWith (ty : UInt8) (extra : List UInt8) (contentSize : Nat) : List UInt8 :=
  let total := 4 + extra.length + contentSize
  if total < MAX_STD then leBytes 3 total ++ (ty :: extra)
  else [0xff, 0xff, 0xff, ty] ++ (leBytes 4 (total % 2 ^ 32 + 4) ++ extra)

/-- `SectionHeader::serialize`, section.rs lines 146-199. -/
def serialize (h : SecHdr) : List UInt8 :=
  match h with
  | pad _ => []
  | h => serializeWith h.ty h.extra h.contentSize

/-- `content_offset`, section.rs lines 69-71. -/
def contentOffset (h : SecHdr) : Nat := h.serialize.length

/-- `total_section_size`, section.rs lines 74-76. -/
def totalSize (h : SecHdr) : Nat := h.contentOffset + h.contentSize

/-- The header with another content size (`set_content_size`, section.rs lines 81-92). -/
def withSize (h : SecHdr) (n : Nat) : SecHdr :=
  match h with
  | pad _ => pad n
  | standard t _ => standard t n
  | compression a b _ => compression a b n
  | guidDefined a b c d _ => guidDefined a b c d n
  | version a _ => version a n
  | freeform a _ => freeform a n

/-- `set_content_size`, section.rs lines 81-92. -/
def setContentSize (h : SecHdr) (n : Nat) : Outcome FfsError SecHdr :=
  if n < 2 ^ 32 then .ok (h.withSize n) else .err .invalidParameter

/-- The variants whose content is kept as `SectionData::Encapsulation`, section.rs lines 393-403. -/
def encapsulates : SecHdr → Bool
  | compression .. => true
  | guidDefined .. => true
  | _ => false

end SecHdr

/-- `Section` with its `SectionData`, section.rs lines 202-245. `encap` tells the `Encapsulation` variant
from `Leaf`; `extracted` and `subs` are the fields of the former (false and empty for a leaf). -/
structure Section where
  hdr : SecHdr
  data : List UInt8
  encap : Bool
  extracted : Bool
  dirty : Bool
  subs : List Section

mutual
/-- `Section::dirty`, section.rs lines 420-426. -/
def Section.isDirty : Section → Bool
  | ⟨_, _, encap, extracted, dirty, subs⟩ =>
    if encap then (if extracted then dirty || anyDirty subs else dirty) else dirty
/-- `sub_sections.iter().any(|x| x.dirty())`, section.rs line 422. -/
def anyDirty : List Section → Bool
  | [] => false
  | s :: ss => s.isDirty || anyDirty ss
end

/-- `section_size - offset` followed by `try_into::<u32>()`, e.g. section.rs lines 325-327. With overflow
checks the subtraction panics when it underflows; without them it wraps to a number above `u32::MAX`. -/
def contentSizeOf (dbg : Bool) (size off : Nat) : Outcome FfsError Nat :=
  if size < off then (if dbg then .panic else .err .invalidHeader)
  else if size - off < 2 ^ 32 then .ok (size - off)
  else .err .invalidHeader

/-- The arms of the header match with a fixed-size type specific header, section.rs lines 314-331, 354-390:
check that the buffer holds it, compute the content size. -/
def parseFixed (dbg : Bool) (b : List UInt8) (size off n : Nat) (mk : Nat → SecHdr) :
    Outcome FfsError (SecHdr × Nat) :=
  if b.length < off + n then .err .invalidHeader
  else do
    let cs ← contentSizeOf dbg size (off + n)
    .ok (mk cs, off + n)

/-- The `GUID_DEFINED` arm, section.rs lines 332-353. The slice of the GUID specific fields panics when
`data_offset` is smaller than its start. -/
def parseGuid (dbg : Bool) (b : List UInt8) (size off : Nat) : Outcome FfsError (SecHdr × Nat) :=
  let dataOffset := rd b (off + 16) 2
  if b.length < off + 20 then .err .invalidHeader
  else if b.length < dataOffset then .err .invalidHeader
  else if dataOffset < off + 20 then .panic
  else do
    let cs ← contentSizeOf dbg size dataOffset
    .ok (.guidDefined (rd b off 16) dataOffset (rd b (off + 18) 2)
      (slice b (off + 20) (dataOffset - (off + 20))) cs, dataOffset)

/-- The match on the section type, section.rs lines 312-391: the logical header and the content offset. -/
def parseHdr (dbg : Bool) (b : List UInt8) (size off : Nat) (ty : UInt8) : Outcome FfsError (SecHdr × Nat) :=
  if ty = 0x01 then parseFixed dbg b size off 5 (.compression (rd b off 4) (rd b (off + 4) 1))
  else if ty = 0x02 then parseGuid dbg b size off
  else if ty = 0x14 then parseFixed dbg b size off 2 (.version (rd b off 2))
  else if ty = 0x18 then parseFixed dbg b size off 16 (.freeform (rd b off 16))
  else parseFixed dbg b size off 0 (.standard ty)

/-- The size field says "extended header", section.rs line 284. -/
def isExt (b : List UInt8) : Bool := slice b 0 3 == [0xff, 0xff, 0xff]

/-- `section_size`, section.rs lines 283-305. -/
def sizeField (b : List UInt8) : Nat := if isExt b then rd b 4 4 else rd b 0 3

/-- `section_data_offset`, section.rs lines 283-305. -/
def dataOff (b : List UInt8) : Nat := if isExt b then 8 else 4

/-- The section made of a parsed header and the content of the buffer, section.rs lines 393-405. -/
def mkSection (b : List UInt8) (size : Nat) (r : SecHdr × Nat) : Section :=
  ⟨r.1, slice b r.2 (size - r.2), r.1.encapsulates, false, false, []⟩

/-- `Section::new_from_buffer`, section.rs lines 272-406. -/
def parse (dbg : Bool) (b : List UInt8) : Outcome FfsError Section :=
  if b.length < 4 then .err .invalidHeader
  else if isExt b && decide (b.length < 8) then .err .invalidHeader
  else if b.length < sizeField b then .err .invalidHeader
  else do
    let r ← parseHdr dbg b (sizeField b) (dataOff b) ((b.drop 3).headD 0)
    .ok (mkSection b (sizeField b) r)

/-- `Section::new_from_header_with_data`, section.rs lines 255-264. -/
def newFromHeader (dbg : Bool) (h : SecHdr) (data : List UInt8) : Outcome FfsError Section :=
  match h with
  | .pad n => .ok ⟨.pad n, data, false, false, false, []⟩
  | h => parse dbg (h.serialize ++ data)

namespace Section

/-- `Section::size`, section.rs lines 431-436. -/
def size (s : Section) : Outcome FfsError Nat :=
  if s.isDirty then .err .notComposed else .ok s.hdr.totalSize

/-- `Section::serialize`, section.rs lines 530-540. -/
def serialize (s : Section) : Outcome FfsError (List UInt8) :=
  if s.isDirty then .err .notComposed else .ok (s.hdr.serialize ++ s.data)

/-- `try_content_as_slice`, section.rs lines 545-553. -/
def content (s : Section) : Outcome FfsError (List UInt8) :=
  if s.isDirty then .err .notComposed else .ok s.data

/-- `set_section_data`, section.rs lines 451-460, with the section afterwards: the content is replaced before
its size is checked. -/
def setData (s : Section) (d : List UInt8) : Outcome FfsError Unit × Section :=
  if s.encap then (.err .notLeaf, s)
  else match s.hdr.setContentSize d.length with
    | .ok h => (.ok (), { s with hdr := h, data := d, dirty := true })
    | .err e => (.err e, { s with data := d })
    | .panic => (.panic, s)

end Section

/-- `SectionIterator`, section.rs lines 608-622. -/
structure SIter where
  data : List UInt8
  next : Nat
  error : Bool
deriving DecidableEq

/-- What one call of `SectionIterator::next` does. -/
inductive SStep where
  | done
  | item (r : Except FfsError Section) (it : SIter)
  | panic

/-- The `Ok` arm, section.rs lines 635-645. -/
def SIter.advance (it : SIter) (s : Section) : SStep :=
  match s.size with
  | .ok n =>
    match Base.alignUp 64 n 4 with
    | .ok a => .item (.ok s) { it with next := it.next + a }
    | _ => .item (.error .dataCorrupt) { it with error := true }
  | _ => .panic

/-- `SectionIterator::next`, section.rs lines 624-649. -/
def SIter.step (dbg : Bool) (it : SIter) : SStep :=
  if it.error then .done
  else if it.data.length ≤ it.next then .done
  else
    match parse dbg (it.data.drop it.next) with
    | .ok s => it.advance s
    | .err e => .item (.error e) { it with error := true }
    | .panic => .panic

/-- Calling `next` until it returns `None`; the outer `none` means `fuel` calls were not enough. -/
def SIter.drain (dbg : Bool) : Nat → SIter → Option (Outcome Unit (List (Except FfsError Section)))
  | 0, _ => none
  | fuel + 1, it =>
    match it.step dbg with
    | .done => some (.ok [])
    | .panic => some .panic
    | .item r it' =>
      match SIter.drain dbg fuel it' with
      | some (.ok rs) => some (.ok (r :: rs))
      | x => x

/-- `collect::<Result<Vec<_>, _>>()` on the items: the first error wins. -/
def collect {α : Type} : List (Except FfsError α) → Outcome FfsError (List α)
  | [] => .ok []
  | .error e :: _ => .err e
  | .ok a :: rs => do
    let r ← collect rs
    .ok (a :: r)

/-- `SectionIterator::new(data).collect::<Result<Vec<_>, _>>()` (e.g. file.rs lines 222-223). The iterator
stops after its first error, so draining it first makes no difference. `Props` shows that
`data.length + 2` calls always reach the end. -/
def sectionList (dbg : Bool) (data : List UInt8) : Outcome FfsError (List Section) :=
  match SIter.drain dbg (data.length + 2) ⟨data, 0, false⟩ with
  | some (.ok rs) => collect rs
  | _ => .panic

end Verif.Ffs
