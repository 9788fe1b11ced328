import Verif.Guid.Model
import Verif.Hob.Model
/-!
Model of how HOBs are shown as JSON and how their intervals are merged: `/repo/sdk/patina_pi/src/serializable.rs`,
`serializable/hex_format.rs` and `serializable/serializable_hob.rs`.

Strings are lists of characters. A JSON document is a tree: the text of `serde_json` is not modelled, and neither are strings that a deserializer cannot borrow (`hex_format`
asks for a `&str`, so a string with escapes or one that comes from a reader is refused). What `serde` derives for the types is modelled by its documented format: an object whose
`type` names the variant, whose fields come in any order, once each; other fields are ignored. With `dbg` additions and subtractions that overflow panic (`none`), without it
they wrap.
-/
namespace Verif.Serial

open Verif.Guid (G)

/-! ### Numbers as strings -/

/-- A digit of `LowerHex` (core library). -/
def lowerDigit (d : Nat) : Char := if d < 10 then Char.ofNat ('0'.toNat + d) else Char.ofNat ('a'.toNat + (d - 10))

/-- `{:x}` (core library): no leading zeros, and one digit for zero. -/
def lowerHex (n : Nat) : List Char := if n < 16 then [lowerDigit n] else lowerHex (n / 16) ++ [lowerDigit (n % 16)]
termination_by n
decreasing_by omega

/-- `{:0wx}` (core library): zeros in front, up to a width of `w`. -/
def padHex (w n : Nat) : List Char := List.replicate (w - (lowerHex n).length) '0' ++ lowerHex n

/-- `hex_format::serialize`, hex_format.rs lines 18-24. -/
def hexString (n : Nat) : List Char := '0' :: 'x' :: lowerHex n

/-- `char::to_digit(16)` (core library). -/
def toDigit (c : Char) : Option Nat :=
  if '0'.toNat ≤ c.toNat ∧ c.toNat ≤ '9'.toNat then some (c.toNat - '0'.toNat)
  else if 'a'.toNat ≤ c.toNat ∧ c.toNat ≤ 'f'.toNat then some (c.toNat - 'a'.toNat + 10)
  else if 'A'.toNat ≤ c.toNat ∧ c.toNat ≤ 'F'.toNat then some (c.toNat - 'A'.toNat + 10)
  else none

/-- The digits of `from_str_radix` (core library), which checks every multiplication and addition. -/
def accumulate (bits : Nat) : Nat → List Char → Option Nat
  | v, [] => some v
  | v, c :: cs =>
    match toDigit c with
    | none => none
    | some d => if 2 ^ bits ≤ v * 16 then none else if 2 ^ bits ≤ v * 16 + d then none else accumulate bits (v * 16 + d) cs

/-- `from_str_radix(src, 16)` of an unsigned type (core library), lines 34-62 of hex_format.rs: one leading `+` is skipped. -/
def fromStrRadix (bits : Nat) : List Char → Option Nat
  | [] => none
  | c :: cs => if c = '+' then (if cs = [] then none else accumulate bits 0 cs) else accumulate bits 0 (c :: cs)

/-- `hex_format::deserialize`, hex_format.rs lines 65-73. -/
def parseHexString (bits : Nat) : List Char → Option Nat
  | '0' :: 'x' :: s => fromStrRadix bits s
  | _ => none

/-- `format_guid`, serializable.rs lines 31-47. -/
def formatGuid (g : G) : List Char :=
  padHex 8 g.low ++ '-' :: padHex 4 g.mid ++ '-' :: padHex 4 g.hi ++ '-' :: (padHex 2 g.seqHi ++ padHex 2 g.seqLow) ++ '-' :: g.node.flatMap (padHex 2)

/-! ### Intervals -/

/-- `MemAllocDescriptorSerDe`, serializable_hob.rs lines 66-76. -/
structure AllocSer where
  name : List Char
  base : Nat
  length : Nat
  type : Nat
deriving DecidableEq, Repr

/-- `ResourceDescriptorSerDe`, serializable_hob.rs lines 101-115. -/
structure ResSer where
  owner : List Char
  type : Nat
  attr : Nat
  start : Nat
  length : Nat
deriving DecidableEq, Repr

/-- `a + b` of `u64`. -/
def add64 (dbg : Bool) (a b : Nat) : Option Nat := if a + b < 2 ^ 64 then some (a + b) else if dbg then none else some ((a + b) % 2 ^ 64)

/-- `a - b` of `u64`. -/
def sub64 (dbg : Bool) (a b : Nat) : Option Nat := if b ≤ a then some (a - b) else if dbg then none else some (2 ^ 64 + a - b)

/-- What `Interval` asks of a type, serializable.rs lines 52-60, and its order. `remake d start length` is `d` with another start and another length. -/
structure Kind (α : Type) where
  start : α → Nat
  length : α → Nat
  remake : α → Nat → Nat → α
  le : α → α → Bool

/-- The order of strings: by their characters, like words in a dictionary (derived `Ord`; the strings are ASCII). -/
def leChars : List Char → List Char → Bool
  | [], _ => true
  | _ :: _, [] => false
  | a :: x, b :: y => if a.toNat < b.toNat then true else if b.toNat < a.toNat then false else leChars x y

/-- serializable_hob.rs lines 65-97: the derived order compares the fields in the order of their declaration, the name first. -/
def ALLOC : Kind AllocSer where
  start d := d.base
  length d := d.length
  remake d s n := { d with base := s, length := n }
  le a b :=
    if a.name ≠ b.name then leChars a.name b.name
    else if a.base ≠ b.base then decide (a.base ≤ b.base)
    else if a.length ≠ b.length then decide (a.length ≤ b.length) else decide (a.type ≤ b.type)

/-- serializable_hob.rs lines 117-152: ordered by start, then by length. -/
def RES : Kind ResSer where
  start d := d.start
  length d := d.length
  remake d s n := { d with start := s, length := n }
  le a b := if a.start ≠ b.start then decide (a.start ≤ b.start) else decide (a.length ≤ b.length)

/-- `end`, serializable_hob.rs lines 83-85 and 122-124. -/
def Kind.stop {α : Type} (K : Kind α) (dbg : Bool) (d : α) : Option Nat := add64 dbg (K.start d) (K.length d)

/-- `overlaps`, serializable.rs lines 81-83, of `[s, e)` and `[s', e')`. -/
def overlaps (s e s' e' : Nat) : Bool := decide (s < e') && decide (s' < e)

/-- `adjacent`, serializable.rs lines 90-92. -/
def adjacent (s e s' e' : Nat) : Bool := decide (e = s') || decide (e' = s)

/-- `merge`, serializable_hob.rs lines 89-96 and 128-136. -/
def Kind.merge {α : Type} (K : Kind α) (dbg : Bool) (a b : α) : Option α := do
  let e ← K.stop dbg a
  let e' ← K.stop dbg b
  let n ← sub64 dbg (max e e') (min (K.start a) (K.start b))
  return K.remake a (min (K.start a) (K.start b)) n

/-- `try_merge`, serializable.rs lines 95-97; the outer `none` is a panic. Both ends are computed first: the code computes both of them too, in `overlaps` or in `adjacent`. -/
def Kind.tryMerge {α : Type} (K : Kind α) (dbg : Bool) (a b : α) : Option (Option α) := do
  let e ← K.stop dbg a
  let e' ← K.stop dbg b
  if overlaps (K.start a) e (K.start b) e' || adjacent (K.start a) e (K.start b) e' then
    let m ← K.merge dbg a b
    return some m
  else return none

/-- The loop of `merge_intervals`, serializable.rs lines 109-116: `last` is the last interval of the result, what comes before it is final. -/
def Kind.mergeLoop {α : Type} (K : Kind α) (dbg : Bool) (last : α) : List α → Option (List α)
  | [] => some [last]
  | d :: ds => do
    match ← K.tryMerge dbg last d with
    | some m => K.mergeLoop dbg m ds
    | none => return last :: (← K.mergeLoop dbg d ds)

/-- Put `x` before the first element that is not below it. -/
def insertBy {α : Type} (le : α → α → Bool) (x : α) : List α → List α
  | [] => [x]
  | y :: ys => if le x y then x :: y :: ys else y :: insertBy le x ys

/-- `sort` (core library), serializable.rs line 106: a stable sort; every stable sort gives this list. -/
def sortBy {α : Type} (le : α → α → Bool) : List α → List α
  | [] => []
  | x :: xs => insertBy le x (sortBy le xs)

/-- `merge_intervals`, serializable.rs lines 100-119. -/
def Kind.mergeAll {α : Type} (K : Kind α) (dbg : Bool) (l : List α) : Option (List α) :=
  match sortBy K.le l with
  | [] => some []
  | d :: ds => K.mergeLoop dbg d ds

/-- `contains`, serializable.rs lines 68-70. -/
def Kind.contains {α : Type} (K : Kind α) (dbg : Bool) (a b : α) : Option Bool := do
  let e ← K.stop dbg a
  let e' ← K.stop dbg b
  return decide (K.start a ≤ K.start b) && decide (e' ≤ e)

/-- `length`, serializable.rs lines 63-65. -/
def Kind.size {α : Type} (K : Kind α) (dbg : Bool) (a : α) : Option Nat := do
  let e ← K.stop dbg a
  sub64 dbg e (K.start a)

/-! ### HOBs -/

/-- `HobSerDe`, serializable_hob.rs lines 27-62. -/
inductive HobSer where
  | handoff (version top bottom freeTop freeBottom listEnd : Nat)
  | alloc (d : AllocSer)
  | resource (d : ResSer)
  | resource2 (v1 : ResSer) (attributes : Nat)
  | guid (name : List Char)
  | fv (base length : Nat)
  | cpu (memory io : Nat)
  | unknown
deriving DecidableEq, Repr

/-- `format_guid` of a GUID in memory. -/
def guidString (b : List UInt8) : List Char := formatGuid (Guid.fromBytes b)

/-- serializable_hob.rs lines 173-179. -/
def resSer (r : Hob.ResourceDescriptor) : ResSer := ⟨guidString r.owner, r.resourceType.toNat, r.attr.toNat, r.start.toNat, r.length.toNat⟩

/-- `from`, serializable_hob.rs lines 154-198. -/
def ofHob : Hob.View → HobSer
  | .handoff h => .handoff h.version.toNat h.memoryTop.toNat h.memoryBottom.toNat h.freeMemoryTop.toNat h.freeMemoryBottom.toNat h.endOfHobList.toNat
  | .alloc h => .alloc ⟨guidString h.desc.name, h.desc.base.toNat, h.desc.length.toNat, h.desc.type.toNat⟩
  | .resource h => .resource (resSer h)
  | .resource2 h => .resource2 (resSer h.v1) h.attributes.toNat
  | .guid h _ => .guid (guidString h.name)
  | .fv h => .fv h.base.toNat h.length.toNat
  | .cpu h => .cpu h.memorySpace.toNat h.ioSpace.toNat
  | _ => .unknown

/-! ### JSON -/

inductive Json where
  | str (s : List Char)
  | num (n : Nat)
  | obj (fields : List (String × Json))

/-- What `Serialize` writes for the fields of `MemAllocDescriptorSerDe`, serializable_hob.rs lines 65-76. -/
def AllocSer.fields (d : AllocSer) : List (String × Json) :=
  [("name", .str d.name), ("memory_base_address", .str (hexString d.base)), ("memory_length", .num d.length), ("memory_type", .num d.type)]

/-- And for those of `ResourceDescriptorSerDe`, lines 100-115. -/
def ResSer.fields (d : ResSer) : List (String × Json) :=
  [("owner", .str d.owner), ("resource_type", .num d.type), ("resource_attribute", .str (hexString d.attr)), ("physical_start", .str (hexString d.start)),
    ("resource_length", .str (hexString d.length))]

/-- What `Serialize` writes for a `HobSerDe`, lines 25-62: the variant is named by the field `type`, in snake case. -/
def HobSer.json : HobSer → Json
  | .handoff v t b ft fb e => .obj [("type", .str "handoff".toList), ("version", .num v), ("memory_top", .str (hexString t)), ("memory_bottom", .str (hexString b)),
      ("free_memory_top", .str (hexString ft)), ("free_memory_bottom", .str (hexString fb)), ("end_of_hob_list", .str (hexString e))]
  | .alloc d => .obj [("type", .str "memory_allocation".toList), ("alloc_descriptor", .obj d.fields)]
  | .resource d => .obj (("type", .str "resource_descriptor".toList) :: d.fields)
  | .resource2 d a => .obj [("type", .str "resource_descriptor_v2".toList), ("v1", .obj d.fields), ("attributes", .num a)]
  | .guid n => .obj [("type", .str "guid_extension".toList), ("name", .str n)]
  | .fv b n => .obj [("type", .str "firmware_volume".toList), ("base_address", .str (hexString b)), ("length", .num n)]
  | .cpu m i => .obj [("type", .str "cpu".toList), ("size_of_memory_space", .num m), ("size_of_io_space", .num i)]
  | .unknown => .obj [("type", .str "unknown_hob".toList)]

/-- The one field of that name (derived `Deserialize`). -/
def field (fs : List (String × Json)) (k : String) : Option Json :=
  match fs.filter fun f => decide (f.1 = k) with
  | [f] => some f.2
  | _ => none

/-- A string. -/
def asStr : Json → Option (List Char)
  | .str s => some s
  | _ => none

/-- A number that fits. -/
def asNum (bits : Nat) : Json → Option Nat
  | .num n => if n < 2 ^ bits then some n else none
  | _ => none

/-- A number as a string. -/
def asHex (bits : Nat) : Json → Option Nat
  | .str s => parseHexString bits s
  | _ => none

/-- An object. -/
def asObj : Json → Option (List (String × Json))
  | .obj fs => some fs
  | _ => none

/-- `Deserialize` of `MemAllocDescriptorSerDe`, serializable_hob.rs lines 65-76. -/
def allocOf (fs : List (String × Json)) : Option AllocSer := do
  let name ← (field fs "name").bind asStr
  let base ← (field fs "memory_base_address").bind (asHex 64)
  let length ← (field fs "memory_length").bind (asNum 64)
  let type ← (field fs "memory_type").bind (asNum 32)
  return ⟨name, base, length, type⟩

/-- `Deserialize` of `ResourceDescriptorSerDe`, lines 100-115. -/
def resOf (fs : List (String × Json)) : Option ResSer := do
  let owner ← (field fs "owner").bind asStr
  let type ← (field fs "resource_type").bind (asNum 32)
  let attr ← (field fs "resource_attribute").bind (asHex 32)
  let start ← (field fs "physical_start").bind (asHex 64)
  let length ← (field fs "resource_length").bind (asHex 64)
  return ⟨owner, type, attr, start, length⟩

/-- The variants of `HobSerDe`, serializable_hob.rs lines 27-62. -/
inductive Variant where
  | handoff | alloc | resource | resource2 | guid | fv | cpu | unknown
deriving DecidableEq, Repr

/-- Their names in JSON (`rename_all = "snake_case"`, line 26). -/
def Variant.name : Variant → String
  | .handoff => "handoff"
  | .alloc => "memory_allocation"
  | .resource => "resource_descriptor"
  | .resource2 => "resource_descriptor_v2"
  | .guid => "guid_extension"
  | .fv => "firmware_volume"
  | .cpu => "cpu"
  | .unknown => "unknown_hob"

/-- The variant of that name. -/
def variantOf (t : List Char) : Option Variant :=
  [Variant.handoff, .alloc, .resource, .resource2, .guid, .fv, .cpu, .unknown].find? fun v => decide (v.name.toList = t)

/-- The fields of `Handoff`, lines 28-40. -/
def handoffOf (fs : List (String × Json)) : Option HobSer := do
  let v ← (field fs "version").bind (asNum 32)
  let top ← (field fs "memory_top").bind (asHex 64)
  let bottom ← (field fs "memory_bottom").bind (asHex 64)
  let ft ← (field fs "free_memory_top").bind (asHex 64)
  let fb ← (field fs "free_memory_bottom").bind (asHex 64)
  let e ← (field fs "end_of_hob_list").bind (asHex 64)
  return .handoff v top bottom ft fb e

/-- The fields of `ResourceDescriptorV2`, lines 45-48. -/
def resource2Of (fs : List (String × Json)) : Option HobSer := do
  let v1 ← ((field fs "v1").bind asObj).bind resOf
  let a ← (field fs "attributes").bind (asNum 64)
  return .resource2 v1 a

/-- The fields of `FirmwareVolume`, lines 52-56. -/
def fvOf (fs : List (String × Json)) : Option HobSer := do
  let b ← (field fs "base_address").bind (asHex 64)
  let n ← (field fs "length").bind (asNum 64)
  return .fv b n

/-- The fields of `Cpu`, lines 57-60. -/
def cpuOf (fs : List (String × Json)) : Option HobSer := do
  let m ← (field fs "size_of_memory_space").bind (asNum 8)
  let i ← (field fs "size_of_io_space").bind (asNum 8)
  return .cpu m i

/-- The fields of a variant. -/
def contentOf (fs : List (String × Json)) : Variant → Option HobSer
  | .handoff => handoffOf fs
  | .alloc => (((field fs "alloc_descriptor").bind asObj).bind allocOf).map .alloc
  | .resource => (resOf fs).map .resource
  | .resource2 => resource2Of fs
  | .guid => ((field fs "name").bind asStr).map .guid
  | .fv => fvOf fs
  | .cpu => cpuOf fs
  | .unknown => some .unknown

/-- `Deserialize` of `HobSerDe`, lines 25-62. -/
def hobOf : Json → Option HobSer
  | .obj fs => (((field fs "type").bind asStr).bind variantOf).bind (contentOf fs)
  | _ => none

end Verif.Serial
