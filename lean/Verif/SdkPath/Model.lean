import Verif.Prelude
import Verif.Bytes
/-!
Model of the device paths of the SDK: `sdk/patina/src/uefi_protocol/device_path.rs` and its modules `device_path_node.rs`, `nodes.rs`.

* A node that is written is its header and the pieces that its `try_into_ctx` writes one after the other with `gwrite_with`; the first piece that does not fit is an error, and those
  before it have been written.
* `dbg` says whether debug assertions are on.
* Allocations succeed.
-/
namespace Verif.SdkPath

/-- What `header` says and `try_into_ctx` writes. -/
structure Item where
  type : UInt8
  sub : UInt8
  len : Nat
  pieces : List (List UInt8)
deriving DecidableEq, Repr

/-- `EndEntire`, nodes.rs lines 319-345: a structure without fields. -/
def endEntire : Item := ⟨0x7F, 0xFF, 4, []⟩

/-- `EndInstance`, nodes.rs lines 347-369. -/
def endInstance : Item := ⟨0x7F, 0x01, 4, []⟩

/-- `EndEntire::is_type`. -/
def isEndEntire (type sub : UInt8) : Bool := type == 0x7F && sub == 0xFF

/-- `gwrite_with` of the crate `scroll`, piece after piece, into a buffer with `room` bytes left: the bytes written and whether all were. -/
def writePieces : Nat → List (List UInt8) → List UInt8 × Bool
  | _, [] => ([], true)
  | room, p :: ps => if p.length ≤ room then (p ++ (writePieces (room - p.length) ps).1, (writePieces (room - p.length) ps).2) else ([], false)

/-- `write_into`, device_path_node.rs lines 108-112, 118-124 and 197-205, with the header of lines 41-52, into a buffer of `n` zero bytes: the buffer and what was written. -/
def Item.writeInto (x : Item) (n : Nat) : List UInt8 × Option Nat :=
  let w := writePieces n ([x.type] :: [x.sub] :: leBytes 2 x.len :: x.pieces)
  (w.1 ++ List.replicate (n - w.1.length) 0, if w.2 then some w.1.length else none)

/-- `DevicePathBuf::append`, device_path.rs lines 46-68. -/
def append (dbg : Bool) (buf : List UInt8) (x : Item) : Outcome Unit (List UInt8) :=
  match x.writeInto x.len with
  | (b, some k) => if dbg ∧ x.len ≠ k then .panic else .ok (buf ++ b)
  | (b, none) => if dbg then .panic else .ok (buf ++ b)

/-- Nodes appended one after the other. -/
def appendAll (dbg : Bool) : List UInt8 → List Item → Outcome Unit (List UInt8)
  | buf, [] => .ok buf
  | buf, x :: xs => match append dbg buf x with
    | .ok b => appendAll dbg b xs
    | .err e => .err e
    | .panic => .panic

/-- `from_device_path_node_iter`, lines 85-102. -/
def fromNodes (dbg : Bool) (xs : List Item) : Outcome Unit (List UInt8) :=
  match appendAll dbg [] xs with
  | .ok b => match xs.getLast? with
    | some x => if isEndEntire x.type x.sub then .ok b else append dbg b endEntire
    | none => append dbg b endEntire
  | .err e => .err e
  | .panic => .panic

/-- `append_device_path`, lines 71-74. The subtraction panics if there is no end node, or the buffer stays as it is. -/
def appendPath (dbg : Bool) (a b : List UInt8) : Outcome Unit (List UInt8) :=
  if a.length < 4 then (if dbg then .panic else .ok (a ++ b)) else .ok (a.take (a.length - 4) ++ b)

/-- `append_device_path_instances`, lines 77-81. -/
def appendInstances (dbg : Bool) (a b : List UInt8) : Outcome Unit (List UInt8) :=
  if a.length < 4 ∧ dbg then .panic
  else match append dbg (if a.length < 4 then a else a.take (a.length - 4)) endInstance with
    | .ok a => .ok (a ++ b)
    | .err e => .err e
    | .panic => .panic

/-- `UnknownDevicePathNode`, device_path_node.rs lines 86-91. -/
structure Raw where
  type : UInt8
  sub : UInt8
  len : Nat
  data : List UInt8
deriving DecidableEq, Repr

/-- An unknown node is written by its header and its data, lines 117-126. -/
def Raw.item (r : Raw) : Item := ⟨r.type, r.sub, r.len, [r.data]⟩

/-- How the nodes end: at the end of the buffer, at something that is no node, or with a panic. -/
inductive Stop where
  | done
  | damaged
  | panic
deriving DecidableEq, Repr

/-- The nodes that `Iter::next` yields, device_path.rs lines 313-330 with device_path_node.rs lines 128-140, and how it stops. A length that is less than that of the header makes the
range of the data panic. -/
def nodes (l : List UInt8) : List Raw × Stop :=
  match _h : l with
  | [] => ([], .done)
  | t :: s :: a :: b :: rest =>
    let len := leVal [a, b]
    if l.length < len then ([], .damaged)
    else if _h4 : len < 4 then ([], .panic)
    else
      let r := nodes (rest.drop (len - 4))
      (⟨t, s, len, rest.take (len - 4)⟩ :: r.1, r.2)
  | _ => ([], .damaged)
termination_by l.length
decreasing_by
  subst _h
  simp only [List.length_drop, List.length_cons]
  omega

/-- What a loop over all nodes makes of the end: `debug_assert!(false)`, line 324. -/
def finish {α : Type} (dbg : Bool) (s : Stop) (a : α) : Outcome Unit α :=
  match s with
  | .done => .ok a
  | .damaged => if dbg then .panic else .ok a
  | .panic => .panic

/-- `node_count`, lines 193-195. -/
def nodeCount (dbg : Bool) (l : List UInt8) : Outcome Unit Nat := finish dbg (nodes l).2 (nodes l).1.length

/-- `is_multi_instance`, lines 198-200. -/
def isMultiInstance (dbg : Bool) (l : List UInt8) : Outcome Unit Bool :=
  if (nodes l).1.any fun n => n.type == 0x7F && n.sub == 0x01 then .ok true else finish dbg (nodes l).2 false

/-- The loop of `slice_end`, lines 212-215; `none` is the `unwrap` of a header that is not there. -/
def skip : Nat → List UInt8 → Option (List UInt8)
  | 0, l => some l
  | n + 1, l => match l with
    | _ :: _ :: a :: b :: _ => if l.length < leVal [a, b] then none else skip n (l.drop (leVal [a, b]))
    | _ => none

/-- `slice_end`, lines 204-218. If `n` is too large, `count - n` wraps without checks, and the loop runs into the end of the buffer. -/
def sliceEnd (dbg : Bool) (l : List UInt8) (n : Nat) : Outcome Unit (List UInt8) :=
  match nodeCount dbg l with
  | .ok count =>
    if (dbg ∧ n = 0) ∨ count < n then .panic
    else match skip (count - n) l with
      | some l => .ok l
      | none => .panic
  | .err e => .err e
  | .panic => .panic

/-- The loop of `starts_with`, lines 224-231, over the nodes of both; each is asked for its next node first `self`, then `other`. -/
def startsWithLoop (dbg : Bool) : List Raw → Stop → List Raw → Stop → Outcome Unit Bool
  | [], s, _, _ => finish dbg s false
  | _ :: _, _, [], t => finish dbg t false
  | a :: as, s, b :: bs, t => if b.type == 0x7F then .ok true else if a != b then .ok false else startsWithLoop dbg as s bs t

/-- `starts_with`, lines 221-233. -/
def startsWith (dbg : Bool) (l m : List UInt8) : Outcome Unit Bool := startsWithLoop dbg (nodes l).1 (nodes l).2 (nodes m).1 (nodes m).2

/-- The values of `IterInstance::next`, lines 284-296, until it yields none; `item` is the instance begun. -/
def instancesLoop (dbg : Bool) : Option (List UInt8) → List Raw → Stop → Outcome Unit (List (List UInt8))
  | item, [], s => finish dbg s item.toList
  | item, n :: ns, s =>
    if n.type == 0x7F then
      match append dbg (item.getD []) endEntire with
      | .ok b => match instancesLoop dbg none ns s with
        | .ok l => .ok (b :: l)
        | .err e => .err e
        | .panic => .panic
      | .err e => .err e
      | .panic => .panic
    else match append dbg (item.getD []) n.item with
      | .ok b => instancesLoop dbg (some b) ns s
      | .err e => .err e
      | .panic => .panic

/-- `iter_instances`, lines 241-243. -/
def instances (dbg : Bool) (l : List UInt8) : Outcome Unit (List (List UInt8)) := instancesLoop dbg none (nodes l).1 (nodes l).2

/-- The loop of `try_from_ptr`, lines 167-181, on memory `m` from address `p` on: the size of the path, if it ends in `fuel` rounds. -/
def sizeAt (m : Nat → UInt8) (p : Nat) : Nat → Nat → Option Nat
  | 0, _ => none
  | fuel + 1, off =>
    if isEndEntire (m (p + off)) (m (p + off + 1)) then some (off + 4)
    else sizeAt m p fuel (off + leVal [m (p + off + 2), m (p + off + 3)])

/-- `try_from_ptr`, lines 159-185. `err` for a null pointer, `none` if the loop does not end in `fuel` rounds. -/
def tryFromPtr (m : Nat → UInt8) (p fuel : Nat) : Outcome Unit (Option (List UInt8)) :=
  if p = 0 then .err ()
  else .ok ((sizeAt m p fuel 0).map fun n => (List.range n).map fun i => m (p + i))

/-! ### The nodes with fields -/

/-- The structures in nodes.rs. Fields are numbers that fit their widths. -/
inductive Typed where
  | pci (function device : Nat)
  | pcCard (function : Nat)
  | memoryMapped (memoryType start stop : Nat)
  | controller (number : Nat)
  | bmc (interface base : Nat)
  | acpi (hid uid : Nat)
  | bios (deviceType statusFlag : Nat) (description : List UInt8)
deriving DecidableEq, Repr

/-- `header` and `try_into_ctx`, the macro in device_path_node.rs lines 181-205 and the derived `Pwrite`. The length is that of the structure in memory, with its padding: 24 bytes for
`MemoryMapped`, 16 for `Bmc`, 32 for `Bios` (nodes.rs lines 277-299), whose string ends with the four bytes of an `i32`. -/
def Typed.item : Typed → Item
  | .pci f d => ⟨1, 1, 4 + 2, [leBytes 1 f, leBytes 1 d]⟩
  | .pcCard f => ⟨1, 2, 4 + 1, [leBytes 1 f]⟩
  | .memoryMapped t a b => ⟨1, 3, 4 + 24, [leBytes 4 t, leBytes 8 a, leBytes 8 b]⟩
  | .controller n => ⟨1, 5, 4 + 4, [leBytes 4 n]⟩
  | .bmc i b => ⟨1, 6, 4 + 16, [leBytes 1 i, leBytes 8 b]⟩
  | .acpi h u => ⟨2, 1, 4 + 8, [leBytes 4 h, leBytes 4 u]⟩
  | .bios d s str => ⟨5, 1, 4 + 32, [leBytes 2 d, leBytes 2 s, str, leBytes 4 0]⟩

/-- `cast_to_dyn_device_path_node`, nodes.rs lines 113-156, for the data of a node: the derived `Pread` reads the fields in order. `none`: it stays unknown. -/
def cast (r : Raw) : Option Typed :=
  let d := r.data
  if r.type == 1 && r.sub == 1 then if 2 ≤ d.length then some (.pci (leVal (d.take 1)) (leVal ((d.drop 1).take 1))) else none
  else if r.type == 1 && r.sub == 2 then if 1 ≤ d.length then some (.pcCard (leVal (d.take 1))) else none
  else if r.type == 1 && r.sub == 3 then
    if 20 ≤ d.length then some (.memoryMapped (leVal (d.take 4)) (leVal ((d.drop 4).take 8)) (leVal ((d.drop 12).take 8))) else none
  else if r.type == 1 && r.sub == 5 then if 4 ≤ d.length then some (.controller (leVal (d.take 4))) else none
  else if r.type == 1 && r.sub == 6 then if 9 ≤ d.length then some (.bmc (leVal (d.take 1)) (leVal ((d.drop 1).take 8))) else none
  else if r.type == 2 && r.sub == 1 then if 8 ≤ d.length then some (.acpi (leVal (d.take 4)) (leVal ((d.drop 4).take 4))) else none
  else if r.type == 5 && r.sub == 1 then
    if 4 ≤ d.length ∧ (0 : UInt8) ∈ d.drop 4 then some (.bios (leVal (d.take 2)) (leVal ((d.drop 2).take 2)) ((d.drop 4).takeWhile (· ≠ 0))) else none
  else none

/-- A digit of `to_digit(16)`. -/
def digit (c : Nat) : Option Nat :=
  if 0x30 ≤ c ∧ c ≤ 0x39 then some (c - 0x30) else if 0x41 ≤ c ∧ c ≤ 0x46 then some (c - 0x37) else if 0x61 ≤ c ∧ c ≤ 0x66 then some (c - 0x57) else none

/-- `eisa_id`, nodes.rs lines 243-262, of seven characters: three that are at least `@`, four digits. `none` is a panic (at compile time, as a constant). -/
def eisaId : List Nat → Option Nat
  | [a, b, c, d, e, f, g] =>
    if a < 0x40 ∨ b < 0x40 ∨ c < 0x40 then none
    else match digit d, digit e, digit f, digit g with
      | some h1, some h2, some h3, some h4 =>
        let c1 := (a - 0x40) % 32
        let c2 := (b - 0x40) % 32
        let c3 := (c - 0x40) % 32
        let byte0 := c1 * 4 + c2 / 8
        let byte1 := c2 * 32 % 256 + c3
        let byte2 := h1 * 16 + h2
        let byte3 := h3 * 16 + h4
        some (byte3 + byte2 * 2 ^ 8 + byte1 * 2 ^ 16 + byte0 * 2 ^ 24)
      | _, _, _, _ => none
  | _ => none

end Verif.SdkPath
