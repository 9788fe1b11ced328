import Verif.Ffs.VolumeModel
/-!
Specification of a well-placed volume, for C39.
-/
namespace Verif.Ffs

/-- The content alignment an FFS attribute byte asks for (PI specification, volume 3, `FFS_ATTRIB_DATA_ALIGNMENT`
and `FFS_ATTRIB_DATA_ALIGNMENT2`): bits 3 to 5 select from the first table, or from the second if bit 1 is set. -/
def requiredAlignment (attrs : UInt8) : Nat :=
  let sel := (attrs.toNat / 8) % 8
  if attrs.toNat / 2 % 2 = 0 then [1, 16, 128, 512, 1024, 4096, 32768, 65536].getD sel 0
  else [131072, 262144, 524288, 1048576, 2097152, 4194304, 8388608, 16777216].getD sel 0

/-- Each file of the list sits in `bytes` as the matching parsed file says: one behind the other from `lo` on, at a
multiple of 8, in full, and with its content at a multiple of the alignment it asks for. -/
def PlacedFrom (bytes : List UInt8) (lo : Nat) : List File → List FileRef → Prop
  | [], [] => True
  | f :: fs, r :: rs =>
    ∃ o, lo ≤ o ∧ o % 8 = 0 ∧ f.serialize = .ok r.data ∧ o + r.data.length ≤ bytes.length ∧
      slice bytes o r.data.length = r.data ∧ FileRef.new r.data = .ok r ∧
      r.name = f.name ∧ r.fileType = f.fileType ∧ r.polarity = f.polarity ∧ r.size = r.data.length ∧
      (o + r.contentOffset) % requiredAlignment r.attrs = 0 ∧
      PlacedFrom bytes (o + r.data.length) fs rs
  | _, _ => False

/-- The volumes that the format can express: a known file system GUID, 32-bit attributes and block sizes, a block
map that is not empty and has no entry that looks like its terminator, 128-bit names, and an extended header whose
size field counts itself (20 bytes) and its data. -/
structure Volume.Expressible (v : Volume) : Prop where
  guid : v.guid = FFS2 ∨ v.guid = FFS3
  attributes : v.attributes < 2 ^ 32
  blocks : ∀ e ∈ v.blockMap, e.num < 2 ^ 32 ∧ e.len < 2 ^ 32
  someBlocks : v.blockMap ≠ []
  noTerminator : noBlocks ∉ v.blockMap
  names : ∀ f ∈ v.files, f.name < 2 ^ 128
  ext : ∀ e data, v.ext = some (e, data) → e.name < 2 ^ 128 ∧ e.size = 20 + data.length

end Verif.Ffs
