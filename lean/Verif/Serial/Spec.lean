import Verif.Serial.Model
import Verif.Guid.Spec
/-!
What the JSON of HOBs and merged intervals should be.
-/
namespace Verif.Serial

/-- The number that hexadecimal digits, of either case, stand for. -/
def number (s : List Char) : Nat := (Guid.digitsOf s).foldl (fun v d => v * 16 + d) 0

/-- Nothing but digits, and at least one. -/
def Digits (s : List Char) : Prop := s ≠ [] ∧ ∀ c ∈ s, (Guid.value c).isSome = true

/-- A digit in lower case. -/
def lower (d : Nat) : Char := Guid.LOWER.getD d '?'

/-- An address inside one of the intervals. -/
def Covered {α : Type} (K : Kind α) (l : List α) (a : Nat) : Prop := ∃ d ∈ l, K.start d ≤ a ∧ a < K.start d + K.length d

/-- The interval ends below the end of the address space. -/
def Ends {α : Type} (K : Kind α) (d : α) : Prop := K.start d + K.length d < 2 ^ 64

/-- Each interval ends before the next one starts, with a gap between them. -/
def Apart {α : Type} (K : Kind α) (l : List α) : Prop := l.Pairwise fun a b => K.start a + K.length a < K.start b

/-- The fields of a HOB that its JSON shows. GUIDs are 16 bytes. -/
inductive Shown where
  | handoff (version : UInt32) (top bottom freeTop freeBottom listEnd : UInt64)
  | alloc (name : List UInt8) (base length : UInt64) (type : UInt32)
  | resource (owner : List UInt8) (type attr : UInt32) (start length : UInt64)
  | resource2 (owner : List UInt8) (type attr : UInt32) (start length attributes : UInt64)
  | guid (name : List UInt8)
  | fv (base length : UInt64)
  | cpu (memory io : UInt8)
  | other

def shown : Hob.View → Shown
  | .handoff h => .handoff h.version h.memoryTop h.memoryBottom h.freeMemoryTop h.freeMemoryBottom h.endOfHobList
  | .alloc h => .alloc h.desc.name h.desc.base h.desc.length h.desc.type
  | .resource h => .resource h.owner h.resourceType h.attr h.start h.length
  | .resource2 h => .resource2 h.v1.owner h.v1.resourceType h.v1.attr h.v1.start h.v1.length h.attributes
  | .guid h _ => .guid h.name
  | .fv h => .fv h.base h.length
  | .cpu h => .cpu h.memorySpace h.ioSpace
  | _ => .other

end Verif.Serial
