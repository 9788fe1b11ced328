import Verif.Bytes
/-!
Specification for C122: the resource directory of the PE/COFF specification (section 6.9 there), as far as the UEFI specification uses it for HII package lists: a root directory with named entries,
the one named `HII` with a directory of types below it, and that with a directory of languages, whose first entry is the data.
-/
namespace Verif.Pecoff

open Verif

/-- These bytes are at this place. -/
def At (s : List UInt8) (o : Nat) (b : List UInt8) : Prop := (s.drop o).take b.length = b

instance (s : List UInt8) (o : Nat) (b : List UInt8) : Decidable (At s o b) := inferInstanceAs (Decidable (_ = _))

/-- A directory at `o`: 12 bytes, the number of named entries, the number of others, and then the entries, 8 bytes each. -/
structure IsDir (s : List UInt8) (o named ids : Nat) : Prop where
  counts : At s (o + 12) (leBytes 2 named ++ leBytes 2 ids)
  small : named + ids < 65536
  inside : o + 16 + 8 * (named + ids) ≤ s.length

/-- Entry `i` of the directory at `o`: what identifies it, and where it leads. -/
def IsEntry (s : List UInt8) (o i id data : Nat) : Prop := At s (o + 16 + 8 * i) (leBytes 4 id ++ leBytes 4 data)

instance (s : List UInt8) (o i id data : Nat) : Decidable (IsEntry s o i id data) := inferInstanceAs (Decidable (At _ _ _))

/-- The name of an entry is a string (the highest bit is set) at this place: its length, then UTF-16. -/
def NAME_BIT : Nat := 2 ^ 31

/-- An entry leads to a directory (the highest bit is set). -/
def DIR_BIT : Nat := 2 ^ 31

/-- `HII` in UTF-16 with its length. -/
def HII : List UInt8 := [3, 0, 0x48, 0, 0x49, 0, 0x49, 0]

/-- Entry `i` of the root is `HII` and leads to the data that are `len` bytes at `off` of the loaded image. -/
structure HiiAt (s : List UInt8) (i off len : Nat) : Prop where
  root : ∃ named ids, IsDir s 0 named ids ∧ i < named
  path : ∃ name d1 d2 leaf id1 id2, name < 2 ^ 31 ∧ d1 < 2 ^ 31 ∧ d2 < 2 ^ 31 ∧ leaf < 2 ^ 31 ∧ id1 < 2 ^ 32 ∧ id2 < 2 ^ 32 ∧
    IsEntry s 0 i (NAME_BIT + name) (DIR_BIT + d1) ∧ At s name HII ∧
    (∃ a b, IsDir s d1 a b ∧ 0 < a + b) ∧ IsEntry s d1 0 id1 (DIR_BIT + d2) ∧
    (∃ a b, IsDir s d2 a b ∧ 0 < a + b) ∧ IsEntry s d2 0 id2 leaf ∧
    At s leaf (leBytes 4 off ++ leBytes 4 len) ∧ leaf + 16 ≤ s.length
  offset : off < 2 ^ 32
  length : len < 2 ^ 32

end Verif.Pecoff
