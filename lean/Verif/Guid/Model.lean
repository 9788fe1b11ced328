import Verif.Bytes
/-!
Model of the GUID type: `/repo/sdk/patina/src/base/guid.rs`. Strings are lists of characters. `efi::Guid` of the r_efi crate is modelled by its six fields and the layout of
its 16 bytes, in which the first three fields are little endian.
-/
namespace Verif.Guid

abbrev Bytes := List UInt8

/-- `efi::Guid`, by its fields (`as_fields`, lines 164-171). -/
structure G where
  low : Nat
  mid : Nat
  hi : Nat
  seqHi : Nat
  seqLow : Nat
  node : List Nat
deriving DecidableEq, Repr

/-- `as_bytes`, lines 154-160. -/
def G.bytes (g : G) : Bytes :=
  leBytes 4 g.low ++ leBytes 2 g.mid ++ leBytes 2 g.hi ++ leBytes 1 g.seqHi ++ leBytes 1 g.seqLow ++ g.node.map UInt8.ofNat

/-- `from_bytes`, lines 147-150. -/
def fromBytes (b : Bytes) : G :=
  ⟨leVal (b.take 4), leVal ((b.drop 4).take 2), leVal ((b.drop 6).take 2), leVal ((b.drop 8).take 1), leVal ((b.drop 9).take 1), (b.drop 10).map UInt8.toNat⟩

/-- `eq`, lines 353-357. -/
def G.eq (a b : G) : Bool := a.bytes = b.bytes

/-- `cmp`, lines 385-387: arrays are compared like words in a dictionary. -/
def cmpBytes : Bytes → Bytes → Ordering
  | [], [] => .eq
  | [], _ :: _ => .lt
  | _ :: _, [] => .gt
  | x :: a, y :: b => if x.toNat < y.toNat then .lt else if y.toNat < x.toNat then .gt else cmpBytes a b

def G.cmp (a b : G) : Ordering := cmpBytes a.bytes b.bytes

/-- `to_upper_hex`, lines 184-190. -/
def toUpperHex (c : Char) : Option Char :=
  if '0'.toNat ≤ c.toNat ∧ c.toNat ≤ '9'.toNat ∨ 'A'.toNat ≤ c.toNat ∧ c.toNat ≤ 'F'.toNat then some c
  else if 'a'.toNat ≤ c.toNat ∧ c.toNat ≤ 'f'.toNat then some (Char.ofNat (c.toNat - 'a'.toNat + 'A'.toNat))
  else none

/-- The digit of `add_hex`, lines 208-212. -/
def digit (n : Nat) : Char := if n ≤ 9 then Char.ofNat ('0'.toNat + n) else Char.ofNat ('A'.toNat + n - 10)

/-- `add_hex`, lines 205-215. -/
def addHex (value digits : Nat) : List Char := ((List.range digits).reverse).map fun i => digit ((value >>> (i * 4)) &&& 0xF)

/-- `to_canonical_string`, lines 194-229. -/
def G.canonical (g : G) : List Char :=
  addHex g.low 8 ++ addHex g.mid 4 ++ addHex g.hi 4 ++ addHex g.seqHi 2 ++ addHex g.seqLow 2 ++ g.node.flatMap fun b => addHex b 2

/-- `DASH_POSITIONS`, line 70. -/
def DASHES : List Nat := [8, 12, 16, 20]

/-- `fmt`, lines 331-344, from position `i` on. -/
def dashed (i : Nat) : List Char → List Char
  | [] => []
  | c :: l => (if i ∈ DASHES then ['-', c] else [c]) ++ dashed (i + 1) l

/-- What is displayed. -/
def G.display (g : G) : List Char := dashed 0 g.canonical

inductive Err where
  | length (actual : Nat)
  | char (position : Nat) (c : Char)
deriving DecidableEq, Repr

/-- `char::is_ascii_whitespace`. -/
def isBlank (c : Char) : Bool := c = ' ' ∨ c = '\t' ∨ c = '\n' ∨ c.toNat = 12 ∨ c = '\r'

/-- The loop of `try_from_string`, lines 258-274: `i` characters and the digits `got` were read. -/
def collect (i : Nat) (got : List Char) : List Char → Except Err (List Char)
  | [] => .ok got
  | c :: l =>
    match toUpperHex c with
    | some u => if got.length < 32 then collect (i + 1) (got ++ [u]) l else .error (.length (got.length + 1))
    | none => if ¬ isBlank c ∧ c ≠ '-' then .error (.char (i + 1) c) else collect (i + 1) got l

/-- `hex_char_to_value`, lines 320-327. -/
def hexValue (c : Char) : Nat :=
  if '0'.toNat ≤ c.toNat ∧ c.toNat ≤ '9'.toNat then c.toNat - '0'.toNat
  else if 'A'.toNat ≤ c.toNat ∧ c.toNat ≤ 'F'.toNat then c.toNat - 'A'.toNat + 10
  else if 'a'.toNat ≤ c.toNat ∧ c.toNat ≤ 'f'.toNat then c.toNat - 'a'.toNat + 10
  else 0

/-- `parse_hex`, lines 307-316, for a type of `bits` bits. -/
def parseHex (bits : Nat) (l : List Char) : Nat := l.foldl (fun r c => (r <<< 4) % 2 ^ bits ||| hexValue c) 0

def slice (l : List Char) (a b : Nat) : List Char := (l.take b).drop a

/-- `try_from_string`, lines 252-304. -/
def tryFromString (s : List Char) : Except Err G :=
  match collect 0 [] s with
  | .error e => .error e
  | .ok h =>
    if h.length ≠ 32 then .error (.length h.length)
    else .ok ⟨parseHex 32 (slice h 0 8), parseHex 16 (slice h 8 12), parseHex 16 (slice h 12 16), parseHex 8 (slice h 16 18), parseHex 8 (slice h 18 20),
      [parseHex 8 (slice h 20 22), parseHex 8 (slice h 22 24), parseHex 8 (slice h 24 26), parseHex 8 (slice h 26 28), parseHex 8 (slice h 28 30),
       parseHex 8 (slice h 30 32)]⟩

end Verif.Guid
