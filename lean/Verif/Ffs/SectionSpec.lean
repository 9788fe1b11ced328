import Verif.Ffs.SectionModel
/-!
Specification vocabulary for sections.
-/
namespace Verif.Ffs

/-- Every field of the header fits its width, a `Standard` header does not carry one of the four types that
have a header variant of their own, and the data offset of a GUID-defined section is `start`. Padding has no
header at all and is excluded. -/
def SecHdr.FitsAt (h : SecHdr) (start : Nat) : Prop :=
  h.contentSize < 2 ^ 32 ∧
  match h with
  | .pad _ => False
  | .standard ty _ => ty ≠ 0x01 ∧ ty ≠ 0x02 ∧ ty ≠ 0x14 ∧ ty ≠ 0x18
  | .compression ul ct _ => ul < 2 ^ 32 ∧ ct < 2 ^ 8
  | .guidDefined g off attrs _ _ => g < 2 ^ 128 ∧ off < 2 ^ 16 ∧ attrs < 2 ^ 16 ∧ off = start
  | .version b _ => b < 2 ^ 16
  | .freeform g _ => g < 2 ^ 128

/-- A header that the format can express: it fits, and a GUID-defined header says where its content starts. -/
def SecHdr.WF (h : SecHdr) : Prop := h.FitsAt h.contentOffset

/-- `part` is a contiguous piece of `whole`. -/
def Within (part whole : List UInt8) : Prop := ∃ pre post, whole = pre ++ part ++ post

/-- The number of bytes of a section with type specific header bytes `extra` and the given content length,
when its size still fits the 3-byte size field. -/
def SecHdr.plainTotal (h : SecHdr) : Nat := 4 + h.extra.length + h.contentSize

/-- A section that can be written out and read back: nothing waits to be composed, the header can be expressed
and says how long the content is, and the total size fits the format (see `size_ffffff_broken` for the one
excluded size). -/
def Section.Good (s : Section) : Prop :=
  s.isDirty = false ∧ s.hdr.WF ∧ s.data.length = s.hdr.contentSize ∧ s.hdr.totalSize < 2 ^ 32 ∧
  s.hdr.plainTotal ≠ 0xFFFFFF

/-- The section as a fresh parse returns it: same header and content, nothing extracted yet. -/
def Section.plain (s : Section) : Section := ⟨s.hdr, s.data, s.hdr.encapsulates, false, false, []⟩

end Verif.Ffs
