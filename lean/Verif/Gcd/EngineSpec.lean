import Verif.Gcd.Engine
/-!
Vocabulary for stating what a block map means, independent of how it is changed.
-/
namespace Verif.Gcd
variable {σ : Type}

/-- The blocks are non-empty, in order, and cover `[s, e)` without gap or overlap. -/
def Tiles : Nat → List (Block σ) → Nat → Prop
  | s, [], e => s = e
  | s, b :: l, e => b.base = s ∧ 0 < b.len ∧ Tiles (s + b.len) l e

/-- No two neighbouring blocks have the same state. -/
def Coalesced : List (Block σ) → Prop
  | a :: b :: l => a.st ≠ b.st ∧ Coalesced (b :: l)
  | _ => True

/-- The state of the address `a`. -/
def cellAt : List (Block σ) → Nat → Option σ
  | [], _ => none
  | b :: l, a => if b.base ≤ a ∧ a < b.base + b.len then some b.st else cellAt l a

/-- The non-empty range `[addr, addr + len)` lies inside the block. -/
def Block.Holds (b : Block σ) (addr len : Nat) : Prop := 0 < len ∧ b.base ≤ addr ∧ addr + len ≤ b.base + b.len

/-- Every address of the non-empty range `[base, base + len)` is in state `c`. -/
def Uniform (l : List (Block σ)) (base len : Nat) (c : σ) : Prop :=
  0 < len ∧ ∀ a, base ≤ a → a < base + len → cellAt l a = some c

/-- `new` is `old` with the addresses of `[base, base + len)` put in state `c`, and no other address changed. -/
def Updated (old new : List (Block σ)) (base len : Nat) (c : σ) : Prop :=
  ∀ a, cellAt new a = if base ≤ a ∧ a < base + len then some c else cellAt old a

end Verif.Gcd
