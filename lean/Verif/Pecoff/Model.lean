import Verif.Bytes
import Verif.Prelude
/-!
Model of loading and relocating PE/COFF and TE images:
`patina_dxe_core/src/pecoff.rs` and `patina_dxe_core/src/pecoff/relocation.rs`.

`UefiPeInfo::parse` (L85-200) reads the headers with the `goblin` crate, which is not part of the
repository: the parsed header is an arbitrary value of `PeInfo` here. Buffers are lists of bytes;
`u32` fields are natural numbers (their range is stated where it matters).
-/
namespace Verif.Pecoff
open Verif

/-- 2⁶⁴, the modulus of `u64` and `usize` arithmetic. -/
def W : Nat := 18446744073709551616

/-- `pecoff/error.rs`: the errors the modelled functions return. `scroll` stands for every error the
`scroll` reader gives for an offset outside the buffer. -/
inductive PeError where
  | scroll
  | bufferTooShort (needed : Nat) (image : Bool)
  | malformed
deriving DecidableEq, Repr

/-- The fields of goblin's `SectionTable` that pecoff.rs uses (L223-237, L371-377). -/
structure Section where
  name : List UInt8 := []
  virtualSize : Nat
  virtualAddress : Nat
  sizeOfRawData : Nat
  pointerToRawData : Nat
deriving DecidableEq, Repr

/-- goblin's `DataDirectory`. -/
structure DataDir where
  virtualAddress : Nat
  size : Nat
deriving DecidableEq, Repr

/-- pecoff.rs L60-83 `UefiPeInfo`, the fields used by loading and relocating. `rvaOffset` is the
offset inside `HeaderType::Te` and 0 for `HeaderType::Pe` (L260-263). -/
structure PeInfo where
  rvaOffset : Nat := 0
  imageBaseFieldOffset : Nat
  sizeOfHeaders : Nat
  sections : List Section
  relocDir : Option DataDir
deriving DecidableEq, Repr

/-- `slice.get(i..i + n)`. -/
def getRange (b : List UInt8) (i n : Nat) : Option (List UInt8) :=
  if i + n ≤ b.length then some ((b.drop i).take n) else none

/-- `dst.copy_from_slice(bs)` with `dst` the bytes of `b` from `i` on (in range where it is used). -/
def put (b : List UInt8) (i : Nat) (bs : List UInt8) : List UInt8 :=
  b.take i ++ bs ++ b.drop (i + bs.length)

/-- pecoff.rs L224-227: how many bytes of the section are copied. -/
def Section.copied (s : Section) : Nat :=
  if s.virtualSize = 0 ∨ s.virtualSize > s.sizeOfRawData then s.sizeOfRawData else s.virtualSize

/-- pecoff.rs L223-237: copies the sections one after the other. -/
def loadSections (image : List UInt8) : List Section → List UInt8 → Outcome PeError Unit × List UInt8
  | [], buf => (.ok (), buf)
  | s :: ss, buf =>
    match getRange buf s.virtualAddress s.copied with
    | none => (.err (.bufferTooShort s.copied false), buf)
    | some _ =>
      match getRange image s.pointerToRawData s.copied with
      | none => (.err (.bufferTooShort s.copied true), buf)
      | some src => loadSections image ss (put buf s.virtualAddress src)

/-- pecoff.rs L213-239 `load_image`: the result and the contents of the buffer afterwards. -/
def loadImage (info : PeInfo) (image buf : List UInt8) : Outcome PeError Unit × List UInt8 :=
  let buf := List.replicate buf.length 0
  match getRange buf 0 info.sizeOfHeaders with
  | none => (.err (.bufferTooShort info.sizeOfHeaders false), buf)
  | some _ =>
    match getRange image 0 info.sizeOfHeaders with
    | none => (.err (.bufferTooShort info.sizeOfHeaders true), buf)
    | some src => loadSections image info.sections (put buf 0 src)

/-- relocation.rs L19-24 `Relocation`. -/
structure Reloc where
  typeAndOffset : Nat
  value : Nat
deriving DecidableEq, Repr

/-- relocation.rs L14-17, L26-30 `BaseRelocationBlockHeader` and `RelocationBlock`. -/
structure Block where
  pageRva : Nat
  blockSize : Nat
  relocs : List Reloc
deriving DecidableEq, Repr

/-- `buffer.pread_with(offset, LE)` for an unsigned integer of `n` bytes. -/
def readLe (b : List UInt8) (i n : Nat) : Option Nat :=
  (getRange b i n).map leVal

theorem readLe_some {b : List UInt8} {i n v : Nat} (h : readLe b i n = some v) : i + n ≤ b.length := by
  unfold readLe getRange at h
  split at h
  · assumption
  · cases h

/-- relocation.rs L40-42: the entries of a block that ends at `stop`; the offset behind them. -/
def parseEntries (data : List UInt8) (off stop : Nat) : Option (List Reloc × Nat) :=
  if off < stop then
    match h : readLe data off 2 with
    | none => none
    | some v =>
      match parseEntries data (off + 2) stop with
      | none => none
      | some (rs, o) => some (⟨v, 0⟩ :: rs, o)
  else some ([], off)
termination_by data.length - off
decreasing_by have := readLe_some h; omega

theorem parseEntries_le (data : List UInt8) (off stop : Nat) : ∀ rs o,
    parseEntries data off stop = some (rs, o) → off ≤ o := by
  induction off using parseEntries.induct data stop with
  | case1 off h1 h2 => intro rs o h; unfold parseEntries at h; rw [if_pos h1] at h; split at h
                       · cases h
                       · rename_i v hv; rw [h2] at hv; cases hv
  | case2 off h1 v h2 h3 ih =>
    intro rs o h; unfold parseEntries at h; rw [if_pos h1] at h; split at h
    · cases h
    · rw [h3] at h; cases h
  | case3 off h1 v h2 rs' o' h3 ih =>
    intro rs o h; unfold parseEntries at h; rw [if_pos h1] at h; split at h
    · cases h
    · rw [h3] at h
      simp only [Option.some.injEq, Prod.mk.injEq] at h
      have := ih rs' o' h3
      omega
  | case4 off h1 => intro rs o h; unfold parseEntries at h; rw [if_neg h1] at h; cases h; exact Nat.le_refl _

/-- relocation.rs L31-50 `parse_relocation_blocks`, from `off` on. L47 `(offset + 3) & !3` is the
next multiple of four. -/
def parseBlocks (data : List UInt8) (off : Nat) : Outcome PeError (List Block) :=
  if off < data.length then
    match h : readLe data off 4 with
    | none => .err .scroll
    | some page =>
      match readLe data (off + 4) 4 with
      | none => .err .scroll
      | some size =>
        match h2 : parseEntries data (off + 8) (off + size) with
        | none => .err .scroll
        | some (rs, o) =>
          match parseBlocks data ((o + 3) / 4 * 4) with
          | .ok bs => .ok (⟨page, size, rs⟩ :: bs)
          | .err e => .err e
          | .panic => .panic
  else .ok []
termination_by data.length - off
decreasing_by
  have := readLe_some h
  have := parseEntries_le data (off + 8) (off + size) rs o h2
  omega

/-- relocation.rs L31 `parse_relocation_blocks`. -/
def parseRelocationBlocks (data : List UInt8) : Outcome PeError (List Block) := parseBlocks data 0

/-- pecoff.rs L282-284: the offset a fixup applies to; `none` if the subtraction panics (debug), a
wrapped value in release builds. -/
def fixupOffset (dbg : Bool) (rva page entry : Nat) : Option Nat :=
  if rva ≤ page + entry % 4096 then some (page + entry % 4096 - rva)
  else if dbg then none
  else some (page + entry % 4096 + W - rva)

/-- pecoff.rs L279-310: one fixup. `prev` is `none` if no previous blocks were given, otherwise the
value recorded for this fixup, `some none` if indexing it panics. -/
def relocOne (dbg : Bool) (rva adj page : Nat) (prev : Option (Option Nat)) (r : Reloc) (img : List UInt8) :
    Outcome PeError Reloc × List UInt8 :=
  match fixupOffset dbg rva page r.typeAndOffset with
  | none => (.panic, img)
  | some p =>
    if r.typeAndOffset / 4096 = 0 then (.ok r, img)
    else if r.typeAndOffset / 4096 = 3 then
      match readLe img p 4 with
      | none => (.err .scroll, img)
      | some v => (.ok r, put img p (leBytes 4 (v + adj)))
    else if r.typeAndOffset / 4096 = 10 then
      match readLe img p 8 with
      | none => (.err .scroll, img)
      | some v =>
        match prev with
        | none => (.ok { r with value := (v + adj) % W }, put (put img p (leBytes 8 (v + adj))) p (leBytes 8 (v + adj)))
        | some none => (.panic, put img p (leBytes 8 (v + adj)))
        | some (some pv) =>
          if pv ≠ v then (.ok r, put img p (leBytes 8 (v + adj)))
          else (.ok { r with value := (v + adj) % W }, put (put img p (leBytes 8 (v + adj))) p (leBytes 8 (v + adj)))
    else (.panic, img)

/-- pecoff.rs L295-297: the value recorded for a fixup by an earlier relocation. -/
def prevValue (prev : List Block) (bi ri : Nat) : Option (Option Nat) :=
  if prev = [] then none else some ((prev[bi]?.bind (·.relocs[ri]?)).map (·.value))

/-- pecoff.rs L279-312: the fixups of block number `bi` from number `ri` on. -/
def relocEntries (dbg : Bool) (rva adj page : Nat) (prev : List Block) (bi : Nat) :
    Nat → List Reloc → List UInt8 → Outcome PeError (List Reloc) × List UInt8
  | _, [], img => (.ok [], img)
  | ri, r :: rs, img =>
    match relocOne dbg rva adj page (prevValue prev bi ri) r img with
    | (.ok r', img) =>
      match relocEntries dbg rva adj page prev bi (ri + 1) rs img with
      | (.ok rs', img) => (.ok (r' :: rs'), img)
      | (.err e, img) => (.err e, img)
      | (.panic, img) => (.panic, img)
    | (.err e, img) => (.err e, img)
    | (.panic, img) => (.panic, img)

/-- pecoff.rs L278-313: the blocks from number `bi` on. -/
def relocBlocks (dbg : Bool) (rva adj : Nat) (prev : List Block) :
    Nat → List Block → List UInt8 → Outcome PeError (List Block) × List UInt8
  | _, [], img => (.ok [], img)
  | bi, b :: bs, img =>
    match relocEntries dbg rva adj b.pageRva prev bi 0 b.relocs img with
    | (.ok rs, img) =>
      match relocBlocks dbg rva adj prev (bi + 1) bs img with
      | (.ok bs', img) => (.ok ({ b with relocs := rs } :: bs'), img)
      | (.err e, img) => (.err e, img)
      | (.panic, img) => (.panic, img)
    | (.err e, img) => (.err e, img)
    | (.panic, img) => (.panic, img)

/-- pecoff.rs L269: `(destination as u64).wrapping_sub(base + rva_offset as u64)`, with the sum taken
modulo 2⁶⁴ as release builds do. -/
def adjustment (dest base rva : Nat) : Nat := (dest + (W - (base + rva) % W)) % W

/-- pecoff.rs L271-314: the fixups, on the image whose base field has been updated. -/
def applyFixups (dbg : Bool) (info : PeInfo) (adj : Nat) (prev : List Block) (img : List UInt8) :
    Outcome PeError (List Block) × List UInt8 :=
  match info.relocDir with
  | none => (.ok [], img)
  | some d =>
    if adj = 0 then (.ok [], img)
    else
      match getRange img d.virtualAddress d.size with
      | none => (.err (.bufferTooShort d.size true), img)
      | some data =>
        match parseRelocationBlocks data with
        | .err e => (.err e, img)
        | .panic => (.panic, img)
        | .ok bs =>
          if prev ≠ [] ∧ bs.length ≠ prev.length then (.panic, img)
          else relocBlocks dbg info.rvaOffset adj prev 0 bs img

/-- pecoff.rs L254-315 `relocate_image`: the result and the image afterwards. `dbg`: whether
arithmetic overflow panics (L267, L269). -/
def relocateImage (dbg : Bool) (info : PeInfo) (dest : Nat) (img : List UInt8) (prev : List Block) :
    Outcome PeError (List Block) × List UInt8 :=
  match readLe img info.imageBaseFieldOffset 8 with
  | none => (.err .scroll, img)
  | some base =>
    if dbg = true ∧ dest < info.rvaOffset then (.panic, img)
    else if dbg = true ∧ W ≤ base + info.rvaOffset then
      (.panic, put img info.imageBaseFieldOffset (leBytes 8 (dest + W - info.rvaOffset)))
    else
      applyFixups dbg info (adjustment dest base info.rvaOffset) prev
        (put img info.imageBaseFieldOffset (leBytes 8 (dest + W - info.rvaOffset)))

/-- pecoff.rs L322-332, L336-347: the bytes one recorded fixup contributes; `none` is the `todo!()`. -/
def flatReloc (r : Reloc) : Option (List UInt8) :=
  if r.typeAndOffset / 4096 = 0 then some []
  else if r.typeAndOffset / 4096 = 3 then some (leBytes 4 r.value)
  else if r.typeAndOffset / 4096 = 10 then some (leBytes 8 r.value)
  else none

/-- pecoff.rs L318-355 `flatten_runtime_relocation_data`: the flat buffer, `none` if it panics. -/
def flatten (bs : List Block) : Option (List UInt8) :=
  ((bs.flatMap (·.relocs)).mapM flatReloc).map List.flatten

end Verif.Pecoff
