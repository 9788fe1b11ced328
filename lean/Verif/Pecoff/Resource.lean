import Verif.Pecoff.Model
/-!
Model of how the HII package list of an image is found: `load_resource_section` of `/repo/patina_dxe_core/src/pecoff.rs`, lines 369-492, the types of
`/repo/patina_dxe_core/src/pecoff/resource_directory.rs`, and what `core_load_pe_image` of `/repo/patina_dxe_core/src/image.rs` does with it, lines 641-670.

All errors are one: the caller makes `LoadError` of each. With `dbg` additions and multiplications that overflow panic, without it they wrap.
-/
namespace Verif.Pecoff

open Verif

/-- The fields of `Directory` that are used, resource_directory.rs lines 13-29. -/
structure Dir where
  named : Nat
  ids : Nat
deriving DecidableEq, Repr

/-- `DirectoryEntry`, resource_directory.rs lines 64-71. -/
structure DirEntry where
  id : Nat
  data : Nat
deriving DecidableEq, Repr

/-- Lines 73-86. -/
def DirEntry.isString (e : DirEntry) : Bool := e.id &&& 0x80000000 != 0
def DirEntry.nameOffset (e : DirEntry) : Nat := e.id &&& 0x7fffffff
def DirEntry.isDir (e : DirEntry) : Bool := e.data &&& 0x80000000 != 0
def DirEntry.dirOffset (e : DirEntry) : Nat := e.data &&& 0x7fffffff

/-- `pread::<Directory>`: 16 bytes, the counts are the last two fields. -/
def readDir (s : List UInt8) (o : Nat) : Option Dir :=
  (getRange s o 16).map fun b => ⟨leVal ((b.drop 12).take 2), leVal ((b.drop 14).take 2)⟩

/-- `pread::<DirectoryEntry>`. -/
def readDirEntry (s : List UInt8) (o : Nat) : Option DirEntry :=
  (getRange s o 8).map fun b => ⟨leVal (b.take 4), leVal ((b.drop 4).take 4)⟩

/-- `pread::<DataEntry>`, the offset and the size of 16 bytes. -/
def readData (s : List UInt8) (o : Nat) : Option (Nat × Nat) :=
  (getRange s o 16).map fun b => (leVal (b.take 4), leVal ((b.drop 4).take 4))

/-- Arithmetic of `u16`: `none` is a panic. -/
def u16 (dbg : Bool) (n : Nat) : Option Nat := if n < 65536 then some n else if dbg then none else some (n % 65536)

/-- `size_in_bytes`, resource_directory.rs lines 32-38. -/
def Dir.bytes (dbg : Bool) (d : Dir) : Option Nat := (u16 dbg (d.named + d.ids)).map fun n => 16 + n * 8

/-- Reads the directory at `o` and its first entry, pecoff.rs lines 392-400, 426-442 and 444-461. -/
def firstEntry (dbg : Bool) (s : List UInt8) (size o : Nat) : Outcome Unit (Dir × DirEntry) :=
  if size < o then .err ()
  else
    match readDir s o with
    | none => .err ()
    | some d =>
      match d.bytes dbg with
      | none => .panic
      | some n =>
        if size < o + n then .err ()
        else
          match readDirEntry s (o + 16) with
          | none => .err ()
          | some e => .ok (d, e)

/-- What the name of the HII entry is compared with, line 419. -/
def HII_NAME : List UInt8 := [0x0, 0x48, 0x0, 0x49, 0x0, 0x49]

/-- The directory below an entry, if there is one: its first entry. -/
def below (dbg : Bool) (s : List UInt8) (size : Nat) (e : DirEntry) : Outcome Unit DirEntry :=
  if e.isDir then
    match firstEntry dbg s size e.dirOffset with
    | .ok (_, e) => .ok e
    | .err x => .err x
    | .panic => .panic
  else .ok e

/-- What an iteration gives: the resource, or the entry for the next iteration. -/
inductive Step where
  | found (offset size : Nat)
  | next (e : DirEntry)
deriving DecidableEq, Repr

/-- The resource an entry leads to, lines 420-482: at most two directories, and then the data. -/
def follow (dbg : Bool) (s : List UInt8) (size : Nat) (e : DirEntry) : Outcome Unit Step :=
  match below dbg s size e with
  | .err x => .err x
  | .panic => .panic
  | .ok e1 =>
    match below dbg s size e1 with
    | .err x => .err x
    | .panic => .panic
    | .ok e2 =>
      if e2.isDir then .ok (.next e2)
      else if size ≤ e2.data then .err ()
      else
        match readData s e2.data with
        | none => .err ()
        | some (o, n) => .ok (.found o n)

/-- An iteration of the loop, lines 403-484. -/
def iterate (dbg : Bool) (s : List UInt8) (size : Nat) (e : DirEntry) : Outcome Unit Step :=
  if ¬ e.isString then .ok (.next e)
  else if size ≤ e.nameOffset then .err ()
  else
    match readLe s e.nameOffset 2 with
    | none => .err ()
    | some len =>
      match u16 dbg (len * 2) with
      | none => .panic
      | some n =>
        match getRange s (e.nameOffset + 1) n with
        | none => .err ()
        | some name => if len = 3 ∧ name = HII_NAME then follow dbg s size e else .ok (.next e)

/-- The loop, lines 402-485: as often as there are named entries. -/
def search (dbg : Bool) (s : List UInt8) (size : Nat) : Nat → DirEntry → Outcome Unit (Option (Nat × Nat))
  | 0, _ => .ok none
  | n + 1, e =>
    match iterate dbg s size e with
    | .err x => .err x
    | .panic => .panic
    | .ok (.found o z) => .ok (some (o, z))
    | .ok (.next e) => search dbg s size n e

/-- The name without the zeros at its end is `.rsrc`, line 371. -/
def Section.isResource (s : Section) : Bool := (s.name.reverse.dropWhile (· == 0)).reverse == [0x2e, 0x72, 0x73, 0x72, 0x63]

/-- One resource section, lines 372-485. -/
def resourceOf (dbg : Bool) (image : List UInt8) (x : Section) : Outcome Unit (Option (Nat × Nat)) :=
  if 2 ^ 32 ≤ x.pointerToRawData + x.copied then .err ()
  else
    match getRange image x.pointerToRawData x.copied with
    | none => .err ()
    | some s =>
      match firstEntry dbg s x.copied 0 with
      | .err e => .err e
      | .panic => .panic
      | .ok (d, e) => search dbg s x.copied d.named e

/-- `load_resource_section`, lines 369-491. -/
def loadResource (dbg : Bool) (image : List UInt8) : List Section → Outcome Unit (Option (Nat × Nat))
  | [] => .ok none
  | x :: xs =>
    if x.isResource then
      match resourceOf dbg image x with
      | .ok none => loadResource dbg image xs
      | r => r
    else loadResource dbg image xs

/-- `core_load_pe_image`, image.rs lines 641-670: the HII package list that is installed for the image. `alloc n` is what `allocate_resource_section` gives for `n` bytes: memory with what was in
it before, or an error. The offset is one in the loaded image. -/
def packageList (dbg : Bool) (image loaded : List UInt8) (alloc : Nat → Option (List UInt8)) (xs : List Section) : Outcome Unit (Option (List UInt8)) :=
  match loadResource dbg image xs with
  | .err e => .err e
  | .panic => .panic
  | .ok none => .ok none
  | .ok (some (o, n)) =>
    match alloc n with
    | none => .err ()
    | some m =>
      match getRange loaded o n with
      | some b => .ok (some b)
      | none => if dbg then .panic else .ok (some m)

end Verif.Pecoff
