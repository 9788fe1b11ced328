import Verif.Prelude
import Verif.Bytes
/-!
Model of `/repo/core/patina_internal_device_path/src/lib.rs`.

A pointer to a device path is modelled by the memory it points at: the list of bytes from the pointed
address to the end of the accessible region (`ptr.byte_offset(n)` is `drop n`). Reading past the end of
that list is a fault (undefined behaviour in Rust). The loops of the code have no bound, so they
are modelled with a step budget (`fuel`): `running` means the loop has not ended within that many
iterations.
-/
namespace Verif.DevicePath

inductive Res (α : Type) where
  | ok (a : α)
  | err (e : EfiError)
  | panic
  /-- read outside the accessible memory -/
  | fault
  /-- still looping when the step budget ran out -/
  | running
deriving DecidableEq, Repr

namespace Res
def bind {α β : Type} (x : Res α) (f : α → Res β) : Res β :=
  match x with
  | ok a => f a
  | err e => err e
  | panic => panic
  | fault => fault
  | running => running
instance : Monad Res where
  pure := ok
  bind := bind
@[simp] theorem ok_bind {α β : Type} (a : α) (f : α → Res β) : (ok a >>= f) = f a := rfl
@[simp] theorem pure_eq {α : Type} (a : α) : (pure a : Res α) = ok a := rfl
end Res

/-- `efi::protocols::device_path::Protocol` (r-efi): type, sub type, little-endian length. -/
structure Header where
  type : UInt8
  sub : UInt8
  length : Nat
deriving DecidableEq, Repr

/-- `TYPE_END`, `End::SUBTYPE_ENTIRE` of r-efi. -/
def TYPE_END : UInt8 := 0x7f
def SUBTYPE_ENTIRE : UInt8 := 0xff

/-- `ptr.read_unaligned()` / `*ptr` of a `Protocol`. -/
def readHeader : List UInt8 → Option Header
  | t :: s :: l0 :: l1 :: _ => some ⟨t, s, leVal [l0, l1]⟩
  | _ => none

/-- `from_raw_parts(ptr, n)`. -/
def readSlice (p : List UInt8) (n : Nat) : Option (List UInt8) :=
  if n ≤ p.length then some (p.take n) else none

/-- The loop of `device_path_node_count`, lines 79-92. -/
def nodeCountLoop : Nat → List UInt8 → Nat → Nat → Res (Nat × Nat)
  | 0, _, _, _ => .running
  | fuel + 1, p, count, size =>
    match readHeader p with
    | none => .fault
    | some h =>
      if h.type = TYPE_END then .ok (count + 1, size + h.length)
      else nodeCountLoop fuel (p.drop h.length) (count + 1) (size + h.length)

/-- `device_path_node_count`, lines 68-94. `none` is the null pointer (release profile: the
`debug_assert` of line 75 is off). The `try_into` of line 90 cannot fail for 16-bit lengths on a 64-bit
target. -/
def nodeCount (fuel : Nat) (p : Option (List UInt8)) : Res (Nat × Nat) :=
  match p with
  | none => .err .invalidParameter
  | some p => nodeCountLoop fuel p 0 0

/-- `device_path_as_slice`, lines 105-110. -/
def asSlice (fuel : Nat) (p : Option (List UInt8)) : Res (List UInt8) := do
  let (_, n) ← nodeCount fuel p
  match p with
  | none => .err .invalidParameter
  | some p => match readSlice p n with
    | none => .fault
    | some s => .ok s

/-- `copy_device_path_to_boxed_slice`, lines 97-102. -/
def copy (fuel : Nat) (p : Option (List UInt8)) : Res (List UInt8) := asSlice fuel p

/-- `is_device_path_end`, lines 254-262, for a readable header. -/
def isEnd (h : Header) : Bool := h.type = TYPE_END && h.sub = SUBTYPE_ENTIRE

/-- The loop of `remaining_device_path`, lines 227-250; `off` is `b_ptr - b`. -/
def remainingLoop : Nat → List UInt8 → List UInt8 → Nat → Nat → Res (Option (Nat × Nat))
  | 0, _, _, _, _ => .running
  | fuel + 1, a, b, off, count =>
    match readHeader a, readHeader b with
    | some ha, some hb =>
      if isEnd ha then .ok (some (off, count))
      else
        match readSlice a ha.length, readSlice b hb.length with
        | some sa, some sb =>
          if sa ≠ sb then .ok none
          else remainingLoop fuel (a.drop ha.length) (b.drop hb.length) (off + hb.length) (count + 1)
        | _, _ => .fault
    | _, _ => .fault

/-- `remaining_device_path`, lines 220-251: offset into `b` of what remains, and nodes in common. -/
def remaining (fuel : Nat) (a b : List UInt8) : Res (Option (Nat × Nat)) := remainingLoop fuel a b 0 0

/-- `concat_device_path_to_boxed_slice`, lines 265-276. With a slice shorter than the 4-byte end node the
subtractions wrap and the following slice accesses are out of range. -/
def concat (fuel : Nat) (a b : Option (List UInt8)) : Res (List UInt8) := do
  let sa ← asSlice fuel a
  let sb ← asSlice fuel b
  if sa.length < 4 ∨ sb.length < 4 then .panic
  else
    -- zero vector, `a` copied to the front, `b` copied over from `a.len - 4`
    let out := List.replicate (sa.length + sb.length - 4) (0 : UInt8)
    let out := sa ++ out.drop sa.length
    .ok (out.take (sa.length - 4) ++ sb)

/-- `DevicePathNode` (lines 280-283). -/
structure NodeBuf where
  header : Header
  data : List UInt8
deriving DecidableEq, Repr

/-- `DevicePathNode::new`, lines 300-307: `none` inside `some` is the `None` result. -/
def nodeNew (p : List UInt8) : Res (Option NodeBuf) :=
  match readHeader p with
  | none => .fault
  | some h =>
    if h.length < 4 then .ok none
    else match readSlice (p.drop 4) (h.length - 4) with
      | none => .fault
      | some d => .ok (some ⟨h, d⟩)

/-- All items of a `DevicePathWalker` (lines 369-385), collected. -/
def walk : Nat → Option (List UInt8) → Res (List NodeBuf)
  | 0, _ => .running
  | _ + 1, none => .ok []
  | fuel + 1, some p => do
    match ← nodeNew p with
    | none => .ok []
    | some n =>
      let rest ← walk fuel (if isEnd n.header then none else some (p.drop n.header.length))
      .ok (n :: rest)

end Verif.DevicePath
