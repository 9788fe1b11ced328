import Verif.DevicePath.Model
/-!
What a device path means: a list of nodes, each a type, a sub type and data; on the wire every node is
type, sub type, 16-bit little-endian total length and data, and the path ends with `7F FF 04 00`.
-/
namespace Verif.DevicePath.Spec
open Verif

structure Node where
  type : UInt8
  sub : UInt8
  data : List UInt8
deriving DecidableEq, Repr

/-- Wire form of a node. -/
def Node.bytes (n : Node) : List UInt8 := n.type :: n.sub :: (leBytes 2 (n.data.length + 4) ++ n.data)

/-- Wire form of a path. -/
def bytes (ns : List Node) : List UInt8 := ns.flatMap Node.bytes ++ [0x7f, 0xff, 0x04, 0x00]

/-- A node that may appear inside a path: its length fits the 16-bit field and it is not the
end-of-path marker. End-of-instance nodes (`7F 01`) are allowed. -/
def Node.Wf (n : Node) : Prop := n.data.length + 4 < 65536 ∧ ¬ (n.type = 0x7f ∧ n.sub = 0xff)

/-- A single-instance path has no end-of-instance node. -/
def Single (ns : List Node) : Prop := ∀ n ∈ ns, n.type ≠ 0x7f

end Verif.DevicePath.Spec
