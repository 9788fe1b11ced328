import Verif.Gcd.Model
import Verif.Gcd.EngineSpec
/-!
What a caller of the memory space services knows: which calls have been made, and which ranges could satisfy a request.
-/
namespace Verif.Gcd

/-- The arguments of the call are `usize`/`u64` values. -/
def Op.InRange : Op → Prop
  | .add _ base len caps => base < W ∧ len < W ∧ caps < W
  | .remove base len => base < W ∧ len < W
  | .allocate at_ _ shift len _ _ => len < W ∧ shift < 64 ∧
      (match at_ with | .bottomUp (some m) => m < W | .topDown (some m) => m < W | .address a => a < W | _ => True)
  | .free base len _ => base < W ∧ len < W
  | .setAttributes base len attrs => base < W ∧ len < W ∧ attrs < W
  | .setCapabilities base len caps => base < W ∧ len < W ∧ caps < W
  | _ => True

/-- `g` can be reached from a GCD initialised for some address width by some history of calls. -/
def Reachable (nodeSize : Nat) (g : Gcd) : Prop :=
  ∃ bits prio ops, (∀ op ∈ ops, Op.InRange op) ∧ g = (Gcd.start bits prio).run nodeSize ops

/-- `[addr, addr + len)` is existing, accepted memory of type `ty` that nobody has allocated and nobody but `image` owns. -/
def FreeRange (g : Gcd) (ty : MemType) (len image addr : Nat) : Prop :=
  ty ≠ .nonExistent ∧ ty ≠ .unaccepted ∧ ∃ c, Uniform g.blocks addr len c ∧ c.allocated = false ∧ c.type = ty ∧ (c.image = 0 ∨ c.image = image)

/-- `[addr, addr + len)` would do for a request by `image` that leaves the choice of the address to the GCD. -/
structure Candidate (g : Gcd) (ty : MemType) (shift len image addr : Nat) : Prop where
  free : FreeRange g ty len image addr
  aligned : addr % 2 ^ shift = 0
  nonzero : addr ≠ 0

/-- Does the request leave the choice of the address to the GCD? -/
def AllocType.chooses : AllocType → Bool
  | .address _ => false
  | _ => true

/-- The limit a request puts on the range it gets. -/
def AllocType.Admits (at_ : AllocType) (addr len : Nat) : Prop :=
  match at_ with
  | .bottomUp none => True
  | .bottomUp (some m) => addr + len ≤ m
  | .topDown none => True
  | .topDown (some m) => addr + len ≤ m + 1
  | .address a => addr = a

/-- Every address of the range is allocated, to `image`. -/
def Live (g : Gcd) (addr len image : Nat) : Prop :=
  ∀ a, addr ≤ a → a < addr + len → ∃ c, cellAt g.blocks a = some c ∧ c.allocated = true ∧ c.image = image

/-- The two ranges have an address in common. -/
def Overlap (a1 l1 a2 l2 : Nat) : Prop := ∃ a, a1 ≤ a ∧ a < a1 + l1 ∧ a2 ≤ a ∧ a < a2 + l2

end Verif.Gcd
