import Verif.Guid.Model
/-!
What GUIDs and their strings are.
-/
namespace Verif.Guid

/-- The fields are as wide as they should be. -/
structure Valid (g : G) : Prop where
  low : g.low < 2 ^ 32
  mid : g.mid < 2 ^ 16
  hi : g.hi < 2 ^ 16
  seqHi : g.seqHi < 2 ^ 8
  seqLow : g.seqLow < 2 ^ 8
  node : g.node.length = 6 ∧ ∀ b ∈ g.node, b < 2 ^ 8

/-- `n` hexadecimal digits, the most significant first. -/
def hex : Nat → Nat → List Nat
  | 0, _ => []
  | n + 1, v => hex n (v / 16) ++ [v % 16]

/-- The 32 digits of a GUID. -/
def G.digits (g : G) : List Nat := hex 8 g.low ++ (hex 4 g.mid ++ (hex 4 g.hi ++ (hex 2 g.seqHi ++ (hex 2 g.seqLow ++ g.node.flatMap (hex 2)))))

/-- Upper case digits. -/
def UPPER : List Char := ['0', '1', '2', '3', '4', '5', '6', '7', '8', '9', 'A', 'B', 'C', 'D', 'E', 'F']

/-- A digit in upper case. -/
def upper (d : Nat) : Char := UPPER.getD d '?'

def LOWER : List Char := ['0', '1', '2', '3', '4', '5', '6', '7', '8', '9', 'a', 'b', 'c', 'd', 'e', 'f']

/-- The value of a character that is a hexadecimal digit. -/
def value (c : Char) : Option Nat :=
  if c ∈ UPPER then some (UPPER.idxOf c) else if c ∈ LOWER then some (LOWER.idxOf c) else none

/-- Characters that may come between digits. -/
def Between (c : Char) : Prop := c = '-' ∨ c = ' ' ∨ c = '\t' ∨ c = '\n' ∨ c = '\r' ∨ c.toNat = 12

/-- Nothing but digits and what may come between them. -/
def Clean (s : List Char) : Prop := ∀ c ∈ s, (value c).isSome = true ∨ Between c

/-- The digits of a string. -/
def digitsOf (s : List Char) : List Nat := s.filterMap value

end Verif.Guid
