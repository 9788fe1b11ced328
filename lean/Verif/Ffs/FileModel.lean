import Verif.Ffs.SectionModel
/-!
Model of firmware files, `/repo/sdk/patina_ffs/src/file.rs`. Header layout from
`/repo/sdk/patina_pi/src/fw_fs/ffs/file.rs` lines 96-116: name (16 bytes), header checksum, file checksum,
type, attributes, size (3 bytes), state; a large file adds a 64-bit size. Attribute bits from
`/repo/sdk/patina_pi/src/fw_fs/ffs/attributes.rs` lines 13-17.
-/
namespace Verif.Ffs

/-- The byte at offset `i` (every use is guarded by a length check). -/
def byteAt (b : List UInt8) (i : Nat) : UInt8 := (b.drop i).headD 0

/-- The wrapping 8-bit sum, `iter().fold(0u8, |sum, val| sum.wrapping_add(*val))`. -/
def sum8 : List UInt8 → UInt8
  | [] => 0
  | x :: xs => x + sum8 xs

/-- `attributes & LARGE_FILE != 0`. -/
def isLarge (attrs : UInt8) : Bool := attrs &&& 0x01 != 0

/-- `attributes & CHECKSUM != 0`. -/
def hasChecksum (attrs : UInt8) : Bool := attrs &&& 0x40 != 0

/-- `FileRef`, file.rs lines 33-41. -/
structure FileRef where
  data : List UInt8
  name : Nat
  fileType : UInt8
  attrs : UInt8
  polarity : Bool
  size : Nat
  contentOffset : Nat
deriving DecidableEq

/-- The state check, file.rs lines 107-130: the erase polarity is inferred from the top bit and only
`DATA_VALID` (plus any of the two lower bits) may be active. -/
def stateOk (state : UInt8) : Bool :=
  if state &&& 0x80 == 0 then state &&& 0xFC == 0x04 else (~~~ state) &&& 0xFC == 0x04

/-- The data checksum check, file.rs lines 138-148. The slice panics when the size does not even cover the
header. -/
def dataCheck (b : List UInt8) (attrs : UInt8) (size co : Nat) : Outcome FfsError Unit :=
  if hasChecksum attrs then
    if size < co then .panic
    else if sum8 (slice b co (size - co)) ≠ 0 then .err .dataCorrupt
    else .ok ()
  else if byteAt b 17 ≠ 0xAA then .err .invalidHeader
  else .ok ()

/-- The offset of the content for an attribute byte, file.rs lines 84-101. -/
def headerSize (attrs : UInt8) : Nat := if isLarge attrs then 32 else 24

/-- The size field, file.rs lines 84-101. -/
def fileSize (b : List UInt8) : Nat := if isLarge (byteAt b 19) then rd b 24 8 else rd b 20 3

/-- `FileRef::new`, file.rs lines 75-150. -/
def FileRef.new (b : List UInt8) : Outcome FfsError FileRef :=
  if b.length < 24 then .err .invalidHeader
  else if isLarge (byteAt b 19) && decide (b.length < 32) then .err .invalidHeader
  else if fileSize b > b.length then .err .invalidHeader
  else if !stateOk (byteAt b 23) then .err .invalidState
  else if sum8 (b.take (headerSize (byteAt b 19))) - byteAt b 23 - byteAt b 17 ≠ 0 then .err .invalidHeader
  else do
    dataCheck b (byteAt b 19) (fileSize b) (headerSize (byteAt b 19))
    .ok ⟨b.take (fileSize b), rd b 0 16, byteAt b 18, byteAt b 19, byteAt b 23 &&& 0x80 != 0,
      fileSize b, headerSize (byteAt b 19)⟩

/-- `FileRef::content`, file.rs lines 168-170 (`&self.data[self.content_offset..]` panics when the offset is
beyond the end). -/
def FileRef.content (f : FileRef) : Outcome FfsError (List UInt8) :=
  if f.data.length < f.contentOffset then .panic else .ok (f.data.drop f.contentOffset)

/-- `FileRef::sections`, file.rs lines 221-225. Freshly parsed sections have no sub-sections, so flattening
them (`x.sections()`) returns each section once. -/
def FileRef.sections (dbg : Bool) (f : FileRef) : Outcome FfsError (List Section) := do
  let c ← f.content
  sectionList dbg c

/-- The alignment exponent of the attribute byte, `fv_attributes`, file.rs lines 188-207, already masked with
`fv::file::raw::attribute::ALIGNMENT` as volume.rs line 583 does. -/
def alignExp (attrs : UInt8) : Nat :=
  let d := ((attrs &&& 0x38) >>> 3).toNat
  if attrs &&& 0x02 == 0x02 then 17 + d
  else [0, 4, 7, 9, 10, 12, 15, 16].getD d 0

/-- `File`, file.rs lines 295-301. -/
structure File where
  name : Nat
  fileType : UInt8
  attrs : UInt8
  polarity : Bool
  sections : List Section

/-- `File::new`, file.rs lines 305-307. -/
def File.new (name : Nat) (fileType : UInt8) : File := ⟨name, fileType, 0, true, []⟩

/-- Zero padding up to the next 4-byte boundary, file.rs lines 348-353. -/
def pad4 (n : Nat) : List UInt8 := if n % 4 ≠ 0 then List.replicate (4 - n % 4) 0 else []

/-- The loop of `File::serialize` over the sections, file.rs lines 339-355. -/
def contentLoop (acc : List UInt8) : List Section → Outcome FfsError (List UInt8)
  | [] => .ok acc
  | [s] => do
    let b ← s.serialize
    .ok (acc ++ b)
  | s :: t :: rest => do
    let b ← s.serialize
    contentLoop ((acc ++ b) ++ pad4 (acc ++ b).length) (t :: rest)

/-- The header bytes with the given checksums and state, file.rs lines 371-411 (`ext` is the 64-bit size) and
414-452 (`ext` empty). -/
def headerBytes (name : Nat) (ft attrs : UInt8) (size3 ext : List UInt8) (ich icf state : UInt8) : List UInt8 :=
  leBytes 16 name ++ ([ich, icf, ft, attrs] ++ (size3 ++ (state :: ext)))

/-- `state`, file.rs lines 401-406 and 442-447. -/
def stateByte (polarity : Bool) : UInt8 := if polarity then ~~~ 0x07 else 0x07

/-- `integrity_check_file`, file.rs lines 393-399 and 434-440. -/
def fileChecksum (attrs : UInt8) (content : List UInt8) : UInt8 :=
  if hasChecksum attrs then 0 - sum8 content else 0xAA

/-- A complete header: the header checksum is computed with file checksum and state still zero. -/
def headerOf (name : Nat) (ft attrs : UInt8) (polarity : Bool) (size3 ext content : List UInt8) : List UInt8 :=
  headerBytes name ft attrs size3 ext (0 - sum8 (headerBytes name ft attrs size3 ext 0 0 0))
    (fileChecksum attrs content) (stateByte polarity)

/-- Whether the 64-bit header is used, file.rs lines 358-360. -/
def File.usesLarge (f : File) (content : List UInt8) : Bool :=
  isLarge f.attrs || decide (content.length > 0xffffff - 24)

/-- `serialize_header2` / `serialize_header`, file.rs lines 371-452. The checksum decision uses the attributes
of the file (`is_data_checksum`); setting the large-file bit does not change it. -/
def File.header (f : File) (content : List UInt8) : List UInt8 :=
  if f.usesLarge content then
    headerOf f.name f.fileType (f.attrs ||| 0x01) f.polarity [0, 0, 0] (leBytes 8 (32 + content.length)) content
  else
    headerOf f.name f.fileType f.attrs f.polarity (leBytes 3 (24 + content.length)) [] content

/-- `File::serialize`, file.rs lines 338-368. -/
def File.serialize (f : File) : Outcome FfsError (List UInt8) := do
  let content ← contentLoop [] f.sections
  .ok (f.header content ++ content)

/-- The length computation of `content_offset`, file.rs lines 482-496. -/
def contentLenLoop (acc : Nat) : List Section → Outcome FfsError Nat
  | [] => .ok acc
  | [s] => do
    let b ← s.serialize
    .ok (acc + b.length)
  | s :: t :: rest => do
    let b ← s.serialize
    contentLenLoop (acc + b.length + (pad4 b.length).length) (t :: rest)

/-- `File::content_offset`, file.rs lines 478-503. -/
def File.contentOffset (f : File) : Outcome FfsError Nat :=
  if isLarge f.attrs then .ok 32
  else do
    let n ← contentLenLoop 0 f.sections
    .ok (if n + 24 > 0xffffff then 32 else 24)

/-- `set_data_checksum`, file.rs lines 462-468. -/
def File.setDataChecksum (f : File) (on : Bool) : File :=
  { f with attrs := if on then f.attrs ||| 0x40 else f.attrs &&& ~~~ 0x40 }

/-- `TryFrom<FileRef> for File`, file.rs lines 629-641. -/
def File.ofRef (dbg : Bool) (r : FileRef) : Outcome FfsError File := do
  let ss ← r.sections dbg
  .ok ⟨r.name, r.fileType, r.attrs, r.polarity, ss⟩

end Verif.Ffs
