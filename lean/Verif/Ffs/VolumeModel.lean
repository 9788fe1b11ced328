import Verif.Ffs.FileModel
/-!
Model of firmware volumes, `/repo/sdk/patina_ffs/src/volume.rs`. Header layout from
`/repo/sdk/patina_pi/src/fw_fs/fv.rs`: zero vector (16 bytes), file system GUID (16), length (8), signature (4),
attributes (4), header length (2), checksum (2), extended header offset (2), reserved (1), revision (1), then the
block map of 8-byte entries. The extended header is a GUID and a 32-bit size (20 bytes).
`new_from_address` (lines 228-238) is `new` on the bytes it finds at an address and is not modelled separately.
-/
namespace Verif.Ffs

/-- `BlockMapEntry`: number of blocks and length of each. -/
structure Blocks where
  num : Nat
  len : Nat
deriving DecidableEq, Repr

/-- `fv::ExtHeader`. -/
structure ExtHdr where
  name : Nat
  size : Nat
deriving DecidableEq, Repr

/-- `VolumeRef`, volume.rs lines 41-47, with the header fields it uses. -/
structure VolumeRef where
  data : List UInt8
  guid : Nat
  length : Nat
  attributes : Nat
  revision : Nat
  extOffset : Nat
  ext : Option ExtHdr
  blockMap : List Blocks
  contentOffset : Nat
deriving DecidableEq

/-- The wrapping 16-bit little-endian sum over `chunks_exact(2)`. -/
def sum16 : List UInt8 → UInt16
  | a :: b :: rest => UInt16.ofNat (a.toNat + 256 * b.toNat) + sum16 rest
  | _ => 0

/-- `u32::from_le_bytes(*b"_FVH")`. -/
def SIGNATURE : Nat := 0x4856465F

/-- The 128-bit values of the two file system GUIDs, `/repo/sdk/patina_pi/src/fw_fs/ffs/guid.rs` lines 14-19
(fields little-endian, then 8 single bytes). -/
def FFS2 : Nat := leVal [0x78, 0xe5, 0x8c, 0x8c, 0x3d, 0x8a, 0x1c, 0x4f, 0x99, 0x35, 0x89, 0x61, 0x85, 0xc3, 0x2d, 0xd3]
def FFS3 : Nat := leVal [0x7a, 0xc0, 0x73, 0x54, 0xcb, 0x3d, 0xca, 0x4d, 0xbd, 0x6f, 0x1e, 0x96, 0x89, 0xe7, 0x34, 0x9a]

/-- The block map entries, volume.rs lines 164-170. -/
def blockEntries : List UInt8 → List Blocks
  | a :: b :: c :: d :: e :: f :: g :: h :: rest => ⟨leVal [a, b, c, d], leVal [e, f, g, h]⟩ :: blockEntries rest
  | _ => []

/-- The zero entry that ends a block map. -/
def noBlocks : Blocks := ⟨0, 0⟩

/-- The extended header checks, volume.rs lines 138-156. -/
def parseExt (b : List UInt8) (off : Nat) : Outcome FfsError (Option ExtHdr) :=
  if off = 0 then .ok none
  else if off + 20 > b.length then .err .invalidHeader
  else if off + rd b (off + 16) 4 > b.length then .err .invalidHeader
  else .ok (some ⟨rd b off 16, rd b (off + 16) 4⟩)

/-- The block map checks, volume.rs lines 158-188. -/
def parseBlockMap (bm : List UInt8) : Outcome FfsError (List Blocks) :=
  if bm.length % 8 ≠ 0 then .err .invalidHeader
  else if (blockEntries bm).getLast? ≠ some noBlocks then .err .invalidBlockMap
  else if (blockEntries bm).dropLast = [] then .err .invalidBlockMap
  else if noBlocks ∈ (blockEntries bm).dropLast then .err .invalidBlockMap
  else .ok (blockEntries bm).dropLast

/-- Where the files start before alignment, volume.rs lines 190-198. -/
def filesStart (headerLength extOffset : Nat) : Option ExtHdr → Nat
  | some e => extOffset + e.size
  | none => headerLength

/-- `align_up(..).map_err(|_| InvalidHeader)`, volume.rs lines 202-203. -/
def alignedStart (n : Nat) : Outcome FfsError Nat :=
  match Base.alignUp 64 n 8 with
  | .ok a => .ok a
  | _ => .err .invalidHeader

/-- The checks of the fixed header, volume.rs lines 70-134 (before the extended header), `none` when they pass. -/
def headerError (b : List UInt8) : Option FfsError :=
  if b.length < 56 then some .invalidHeader
  else if rd b 40 4 ≠ SIGNATURE then some .invalidHeader
  else if rd b 48 2 < 56 then some .invalidHeader
  else if rd b 48 2 > b.length then some .invalidHeader
  else if rd b 48 2 % 2 ≠ 0 then some .invalidHeader
  else if sum16 (b.take (rd b 48 2)) ≠ 0 then some .invalidHeader
  else if rd b 55 1 < 2 then some .unsupported
  else if rd b 16 16 ≠ FFS2 ∧ rd b 16 16 ≠ FFS3 then some .unsupported
  else if rd b 32 8 < rd b 48 2 then some .invalidHeader
  else if rd b 32 8 > b.length then some .invalidHeader
  else if rd b 52 2 > rd b 32 8 then some .invalidHeader
  else none

/-- `VolumeRef::new`, volume.rs lines 68-206. -/
def VolumeRef.new (b : List UInt8) : Outcome FfsError VolumeRef :=
  match headerError b with
  | some e => .err e
  | none => do
    let ext ← parseExt b (rd b 52 2)
    let bm ← parseBlockMap (slice b 56 (rd b 48 2 - 56))
    let co ← alignedStart (filesStart (rd b 48 2) (rd b 52 2) ext)
    .ok ⟨b, rd b 16 16, rd b 32 8, rd b 44 4, rd b 55 1, rd b 52 2, ext, bm, co⟩

/-- `ERASE_POLARITY` of the attributes decides the erase byte, volume.rs lines 243-245 and 504-505. -/
def eraseByte (attributes : Nat) : UInt8 := if attributes &&& 0x800 ≠ 0 then 0xff else 0

/-- `VolumeRef::ext_header`, volume.rs lines 250-258 (the slice panics when the stated size is below 20). -/
def VolumeRef.extHeader (v : VolumeRef) : Outcome FfsError (Option (ExtHdr × List UInt8)) :=
  match v.ext with
  | none => .ok none
  | some e =>
    if e.size < 20 then .panic
    else .ok (some (e, slice v.data (v.extOffset + 20) (e.size - 20)))

/-- The loop of `lba_info`, volume.rs lines 284-298, on `u32` that wrap (release) or panic (`dbg`).
Returns the final `total_blocks`, `offset` and `block_size`. -/
def lbaLoop (dbg : Bool) (lba : Nat) : List Blocks → Nat → Nat → Nat → Outcome FfsError (Nat × Nat × Nat)
  | [], total, offset, size => .ok (total, offset, size)
  | e :: es, total, offset, _ =>
    if dbg && decide (2 ^ 32 ≤ total + e.num) then .panic
    else if lba < (total + e.num) % 2 ^ 32 then .ok ((total + e.num) % 2 ^ 32, offset, e.len)
    else if dbg && decide (2 ^ 32 ≤ offset + e.num * e.len) then .panic
    else lbaLoop dbg lba es ((total + e.num) % 2 ^ 32) ((offset + e.num * e.len) % 2 ^ 32) e.len

/-- The end of `lba_info`, volume.rs lines 300-305. -/
def lbaResult (dbg : Bool) (lba : Nat) (r : Nat × Nat × Nat) : Outcome FfsError (Nat × Nat × Nat) :=
  if lba ≥ r.1 then .err .invalidParameter
  else if dbg && decide (2 ^ 32 ≤ r.2.1 + lba * r.2.2) then .panic
  else .ok ((r.2.1 + lba * r.2.2) % 2 ^ 32, r.2.2, r.1 - lba)

/-- `VolumeRef::lba_info`, volume.rs lines 284-306. -/
def lbaInfo (dbg : Bool) (bm : List Blocks) (lba : Nat) : Outcome FfsError (Nat × Nat × Nat) := do
  let r ← lbaLoop dbg lba bm 0 0 0
  lbaResult dbg lba r

/-- `FileRefIter`, volume.rs lines 360-371. -/
structure FIter where
  data : List UInt8
  next : Nat
  erase : UInt8
  error : Bool
deriving DecidableEq

/-- What one call of `FileRefIter::next` does. -/
inductive FStep where
  | done
  | item (r : Except FfsError FileRef) (it : FIter)
  | panic

/-- The `Ok` arm, volume.rs lines 394-405. -/
def FIter.advance (it : FIter) (f : FileRef) : FStep :=
  match Base.alignUp 64 (it.next + f.size) 8 with
  | .ok n => .item (.ok f) { it with next := n }
  | _ => .item (.error .dataCorrupt) { it with error := true }

/-- `FileRefIter::next`, volume.rs lines 376-410. -/
def FIter.step (it : FIter) : FStep :=
  if it.error then .done
  else if it.next > it.data.length then .done
  else if (it.data.drop it.next).length < 24 then .done
  else if (slice it.data it.next 24).all (· == it.erase) then .done
  else
    match FileRef.new (it.data.drop it.next) with
    | .ok f => it.advance f
    | .err e => .item (.error e) { it with error := true }
    | .panic => .panic

/-- Calling `next` until it returns `None`; the outer `none` means `fuel` calls were not enough. -/
def FIter.drain : Nat → FIter → Option (Outcome Unit (List (Except FfsError FileRef)))
  | 0, _ => none
  | fuel + 1, it =>
    match it.step with
    | .done => some (.ok [])
    | .panic => some .panic
    | .item r it' =>
      match FIter.drain fuel it' with
      | some (.ok rs) => some (.ok (r :: rs))
      | x => x

/-- The filter of `files`, volume.rs lines 322-328: padding files are left out. -/
def keepItem : Except FfsError FileRef → Bool
  | .ok f => f.fileType != 0xF0
  | .error _ => true

/-- The iterator behind `VolumeRef::files`, volume.rs lines 321-329 (before the filter). Slicing at
`content_offset` panics when it is beyond the end. -/
def VolumeRef.iter (v : VolumeRef) : Outcome FfsError FIter :=
  if v.data.length < v.contentOffset then .panic
  else .ok ⟨v.data.drop v.contentOffset, 0, eraseByte v.attributes, false⟩

/-- Everything `files()` yields when drained with `fuel` calls. -/
def VolumeRef.files (v : VolumeRef) (fuel : Nat) : Option (Outcome FfsError (List (Except FfsError FileRef))) :=
  match v.iter with
  | .ok it =>
    match it.drain fuel with
    | some (.ok rs) => some (.ok (rs.filter keepItem))
    | some _ => some .panic
    | none => none
  | _ => some .panic

/-- `Volume`, volume.rs lines 421-428 (`capacity`: `none` is `Unbounded`). -/
structure Volume where
  guid : Nat
  attributes : Nat
  ext : Option (ExtHdr × List UInt8)
  blockMap : List Blocks
  files : List File
  capacity : Option Nat

/-- `Volume::new`, volume.rs lines 434-443. -/
def Volume.new (blockMap : List Blocks) : Volume := ⟨FFS3, 0, none, blockMap, [], none⟩

/-- The bytes of one block map entry. -/
def Blocks.bytes (e : Blocks) : List UInt8 := leBytes 4 e.num ++ leBytes 4 e.len

/-- The block map with its terminator, volume.rs lines 529-533. -/
def blockBytes (bm : List Blocks) : List UInt8 := bm.flatMap Blocks.bytes ++ noBlocks.bytes

/-- The fixed header with the given late fields, volume.rs lines 509-527 and 624-648. -/
def volumeHeader (guid attributes length headerLength checksum extOffset : Nat) : List UInt8 :=
  List.replicate 16 0 ++ (leBytes 16 guid ++ (leBytes 8 length ++ (leBytes 4 SIGNATURE ++ (leBytes 4 attributes ++
    (leBytes 2 headerLength ++ (leBytes 2 checksum ++ (leBytes 2 extOffset ++ [0, 2])))))))

/-- A padding file holding `content`, volume.rs lines 546-560 and 604-614: name all ones, type `FFS_PAD`,
attributes 0, erase polarity 1. -/
def padFile (content : List UInt8) : File :=
  ⟨leVal (List.replicate 16 0xff), 0xF0, 0, true, [⟨.pad content.length, content, false, false, false, []⟩]⟩

/-- `fv_buffer.extend(iter::repeat_n(pad_byte, 8 - rem))`, volume.rs lines 567-571 and 620-626. -/
def pad8 (padByte : UInt8) (n : Nat) : List UInt8 := if n % 8 ≠ 0 then List.replicate (8 - n % 8) padByte else []

/-- The extended header part, volume.rs lines 537-565: the buffer after it and the offset to store. -/
def extPart (buf : List UInt8) : Option (ExtHdr × List UInt8) → Outcome FfsError (List UInt8 × Nat)
  | none => .ok (buf, 0)
  | some (e, data) =>
    let content := leBytes 16 e.name ++ (leBytes 4 e.size ++ data)
    if content.length < 2 ^ 32 then do
      let pf ← (padFile content).serialize
      let co ← (padFile content).contentOffset
      .ok (buf ++ pf, buf.length + co)
    else .err .invalidHeader

/-- The padding file inserted before a file, volume.rs lines 586-616, for the current buffer length, the content
offset of the file and its alignment exponent. The `assert!` on the alignment panics. The length of the padding
is below the alignment, so its conversion to `u32` cannot fail. -/
def alignPad (len co e : Nat) : Outcome FfsError (List UInt8) :=
  if (len + co) % 2 ^ e ≠ 0 then
    if 2 ^ e < 0x1000000 then
      let rem := (len + 24 + co) % 2 ^ e
      (padFile (List.replicate (if rem = 0 then 0 else 2 ^ e - rem) 0xff)).serialize
    else .panic
  else .ok []

/-- One iteration of the file loop, volume.rs lines 574-627. -/
def placeFile (largeSupport : Bool) (padByte : UInt8) (buf : List UInt8) (f : File) : Outcome FfsError (List UInt8) := do
  let fb ← f.serialize
  if fb.length ≥ 0x1000000 && !largeSupport then .err .unsupported
  else do
    let r ← FileRef.new fb
    let pad ← alignPad buf.length r.contentOffset (alignExp r.attrs)
    .ok (((buf ++ pad) ++ fb) ++ pad8 padByte ((buf ++ pad) ++ fb).length)

/-- The file loop, volume.rs lines 573-627. -/
def filesLoop (largeSupport : Bool) (padByte : UInt8) (buf : List UInt8) : List File → Outcome FfsError (List UInt8)
  | [] => .ok buf
  | f :: fs => do
    let buf' ← placeFile largeSupport padByte buf f
    filesLoop largeSupport padByte buf' fs

/-- Padding to the capacity, volume.rs lines 629-633. -/
def fillTo (padByte : UInt8) (buf : List UInt8) : Option Nat → List UInt8
  | none => buf
  | some n => buf ++ List.replicate (n - buf.length) padByte

/-- The header fields and the checksum, volume.rs lines 635-662. The checksum is computed over the header
that still has zeros in the late fields, plus these fields. -/
def finish (v : Volume) (buf : List UInt8) (headerLen extOffset : Nat) : Outcome FfsError (List UInt8) :=
  if headerLen < 2 ^ 16 ∧ extOffset < 2 ^ 16 ∧ buf.length < 2 ^ 64 then
    let sum := sum16 (buf.take headerLen) + sum16 (leBytes 8 buf.length) + sum16 (leBytes 2 headerLen)
      + sum16 (leBytes 2 extOffset)
    .ok (volumeHeader v.guid v.attributes buf.length headerLen (0 - sum).toNat extOffset ++ buf.drop 56)
  else .err .invalidHeader

/-- `Volume::serialize`, volume.rs lines 503-665. -/
def Volume.serialize (v : Volume) : Outcome FfsError (List UInt8) := do
  let padByte := eraseByte v.attributes
  let head := volumeHeader v.guid v.attributes 0 0 0 0 ++ blockBytes v.blockMap
  let e ← extPart head v.ext
  let start := e.1 ++ pad8 padByte e.1.length
  let body ← filesLoop (v.guid == FFS3) padByte start v.files
  finish v (fillTo padByte body v.capacity) head.length e.2

/-- `src.files().map(try_into).collect()`, volume.rs lines 704-710: items are converted in order, the first error
of either kind wins. -/
def filesOfItems (dbg : Bool) : List (Except FfsError FileRef) → Outcome FfsError (List File)
  | [] => .ok []
  | .error e :: _ => .err e
  | .ok r :: rs => do
    let f ← File.ofRef dbg r
    let fs ← filesOfItems dbg rs
    .ok (f :: fs)

/-- `TryFrom<&VolumeRef> for Volume`, volume.rs lines 697-720, on the items of `files()`. -/
def Volume.ofRef (dbg : Bool) (v : VolumeRef) (items : List (Except FfsError FileRef)) : Outcome FfsError Volume :=
  if v.revision > 2 then .err .unsupported
  else do
    let files ← filesOfItems dbg items
    let ext ← v.extHeader
    .ok ⟨v.guid, v.attributes, ext, v.blockMap, files, some v.length⟩

end Verif.Ffs
