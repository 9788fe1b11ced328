import Verif.Prelude
/-!
Model of `/repo/core/patina_internal_depex/src/lib.rs`.

Simplifications:
* A GUID is its 16 raw bytes. The Rust code goes through `Uuid::from_slice_le` and
  `guid_from_uuid` (lines 67-77), which reorder the fields and put them back; the composition is the
  identity on the raw bytes and never fails on 16 bytes.
* Log output is not modelled.
-/
namespace Verif.Depex

/-- A GUID: 16 raw bytes (`efi::Guid`, `GUID_SIZE`, line 22). -/
structure Guid where
  bytes : List UInt8
  len : bytes.length = 16
deriving DecidableEq

/-- `Opcode`, lines 28-66. -/
inductive Opcode where
  | before (g : Guid)
  | after (g : Guid)
  | push (g : Guid) (present : Bool)
  | and | or | not | tru | fls | fin | sor
  | unknown
  | malformed (opcode : UInt8) (len : Nat)
deriving DecidableEq

/-- `uuid_from_slice(bytes.get(1..GUID_SIZE + 1))`, lines 75-77 and 84: the 16 bytes after the
opcode, if there are that many. `rest` is the slice after the opcode byte. -/
def guidOperand (rest : List UInt8) : Option Guid :=
  if h : 16 ≤ rest.length then some ⟨rest.take 16, by simp [h]⟩ else none

/-- `Opcode::from`, lines 79-105, on a non-empty slice `b :: rest` (the only caller, the parser,
checks the index first, so `bytes[0]` never panics). -/
def Opcode.ofBytes (b : UInt8) (rest : List UInt8) : Opcode :=
  if b = 0x00 then
    match guidOperand rest with | some g => .before g | none => .malformed 0x00 rest.length
  else if b = 0x01 then
    match guidOperand rest with | some g => .after g | none => .malformed 0x01 rest.length
  else if b = 0x02 then
    match guidOperand rest with | some g => .push g false | none => .malformed 0x02 rest.length
  else if b = 0x03 then .and
  else if b = 0x04 then .or
  else if b = 0x05 then .not
  else if b = 0x06 then .tru
  else if b = 0x07 then .fls
  else if b = 0x08 then .fin
  else if b = 0x09 then .sor
  else .unknown

/-- `Opcode::byte_size`, lines 107-114. -/
def Opcode.byteSize : Opcode → Nat
  | .before _ => 17
  | .after _ => 17
  | .push _ _ => 17
  | _ => 1

theorem Opcode.byteSize_pos (o : Opcode) : 0 < o.byteSize := by cases o <;> simp [byteSize]

/-- `DepexParser::next` iterated to exhaustion, lines 315-327, and `Depex::from`, lines 131-136.
The parser index is represented by the remaining bytes. -/
def parse : List UInt8 → List Opcode
  | [] => []
  | b :: rest =>
    let op := Opcode.ofBytes b rest
    op :: parse ((b :: rest).drop op.byteSize)
termination_by l => l.length
decreasing_by
  have := (Opcode.ofBytes b rest).byteSize_pos
  simp only [List.length_drop, List.length_cons]
  omega

/-- `stack.pop().unwrap_or(false)`; the stack is a list with its top first. -/
def pop : List Bool → Bool × List Bool
  | [] => (false, [])
  | x :: s => (x, s)

/-- `Depex::eval`, lines 150-281. `dbg` is true in profiles with debug assertions. `all` is the whole
expression (used only by the checks on BEFORE/AFTER), `index` the position of the first remaining
opcode. Returns the verdict and the opcodes with their updated `present` flags. -/
def evalLoop (dbg : Bool) (protocols : List Guid) (all : List Opcode) :
    Nat → List Bool → List Opcode → Outcome Unit Bool × List Opcode
  | _, _, [] => (.ok false, [])
  | index, stack, op :: ops =>
    match op with
    | .before _ | .after _ =>
      if dbg && (index ≠ 0 || decide (all.length > 2) ||
          (all.length == 2 && !(all[1]? == some .fin))) then (.panic, op :: ops)
      else (.ok false, op :: ops)
    | .sor =>
      if dbg && index ≠ 0 then (.panic, op :: ops) else (.ok false, op :: ops)
    | .push g present =>
      if present then
        let r := evalLoop dbg protocols all (index + 1) (true :: stack) ops
        (r.1, .push g true :: r.2)
      else if protocols.contains g then
        let r := evalLoop dbg protocols all (index + 1) (true :: stack) ops
        (r.1, .push g true :: r.2)
      else
        let r := evalLoop dbg protocols all (index + 1) (false :: stack) ops
        (r.1, .push g false :: r.2)
    | .and =>
      let o1 := pop stack
      let o2 := pop o1.2
      let r := evalLoop dbg protocols all (index + 1) ((o1.1 && o2.1) :: o2.2) ops
      (r.1, .and :: r.2)
    | .or =>
      let o1 := pop stack
      let o2 := pop o1.2
      let r := evalLoop dbg protocols all (index + 1) ((o1.1 || o2.1) :: o2.2) ops
      (r.1, .or :: r.2)
    | .not =>
      let o := pop stack
      let r := evalLoop dbg protocols all (index + 1) ((!o.1) :: o.2) ops
      (r.1, .not :: r.2)
    | .tru =>
      let r := evalLoop dbg protocols all (index + 1) (true :: stack) ops
      (r.1, .tru :: r.2)
    | .fls =>
      let r := evalLoop dbg protocols all (index + 1) (false :: stack) ops
      (r.1, .fls :: r.2)
    | .fin => (.ok (pop stack).1, .fin :: ops)
    | .unknown => if dbg then (.panic, op :: ops) else (.ok false, op :: ops)
    | .malformed _ _ => if dbg then (.panic, op :: ops) else (.ok false, op :: ops)

/-- `Depex::eval`, line 150: the public entry point; returns the verdict and the updated object. -/
def eval (dbg : Bool) (protocols : List Guid) (d : List Opcode) : Outcome Unit Bool × List Opcode :=
  evalLoop dbg protocols d 0 [] d

/-- `AssociatedDependency`, lines 116-123. -/
inductive Assoc where
  | before (g : Guid)
  | after (g : Guid)
deriving DecidableEq

/-- `Depex::is_associated`, lines 283-290. -/
def isAssociated : List Opcode → Option Assoc
  | .before g :: _ => some (.before g)
  | .after g :: _ => some (.after g)
  | _ => none

/-- `Depex::is_sor`, lines 292-295. -/
def isSor : List Opcode → Bool
  | .sor :: _ => true
  | _ => false

/-- `Depex::schedule`, lines 297-302. -/
def schedule (d : List Opcode) : List Opcode :=
  if isSor d then d.tail else d

end Verif.Depex
