import Verif.Bytes
/-!
Device paths as the UEFI specification has them (section 10): a path is one or more instances, an instance is a list of nodes. Written independently of the code.
-/
namespace Verif.SdkPath

/-- A node: type, sub-type and data. -/
structure Node where
  type : UInt8
  sub : UInt8
  data : List UInt8
deriving DecidableEq, Repr

/-- The length field has 16 bits, and type `0x7F` is for ends. -/
def Node.Wf (n : Node) : Prop := n.data.length + 4 < 65536 ∧ n.type ≠ 0x7F

/-- Type, sub-type, length, data. -/
def Node.bytes (n : Node) : List UInt8 := n.type :: n.sub :: (leBytes 2 (n.data.length + 4) ++ n.data)

/-- The bytes of a path: an end of instance between instances, the end of the path after the last. -/
def pathBytes : List (List Node) → List UInt8
  | [] => []
  | [i] => i.flatMap Node.bytes ++ [0x7F, 0xFF, 4, 0]
  | i :: is => i.flatMap Node.bytes ++ [0x7F, 0x01, 4, 0] ++ pathBytes is

def PathWf (p : List (List Node)) : Prop := p ≠ [] ∧ ∀ i ∈ p, ∀ n ∈ i, n.Wf

/-- The nodes of a path with its ends. -/
def pathNodes : List (List Node) → List Node
  | [] => []
  | [i] => i ++ [⟨0x7F, 0xFF, []⟩]
  | i :: is => i ++ ⟨0x7F, 0x01, []⟩ :: pathNodes is

end Verif.SdkPath
