import Verif.ImageMem.Model
/-!
What the protections of an image are to be.
-/
namespace Verif.ImageMem
open Verif.Gcd Verif.Paging

/-- The section holds code. (Bit 5 of the characteristics.) -/
def Section.IsCode (s : Section) : Prop := s.flags.testBit 5 = true

/-- The section is read-only data unless it may be written to or is not even readable. (Bits 31, 30 of the characteristics.) -/
def Section.IsConstant (s : Section) : Prop := s.flags.testBit 31 = false ∧ s.flags.testBit 30 = true

/-- The size of the section in memory: rounded up to the section alignment. -/
def Section.Spans (s : Section) (align n : Nat) : Prop := Base.IsRoundUp s.size align n

/-- The address is in the memory of the section, for an image at `base`. -/
def Section.Has (s : Section) (base align a : Nat) : Prop := ∃ n, s.Spans align n ∧ base + s.address ≤ a ∧ a < base + s.address + n

/-- The section begins on a page, at or above `lo`, and with its rounded size it ends at or below `hi`. (The numbers of a section
header have 32 bits.) -/
def Section.Within (s : Section) (base align lo hi : Nat) : Prop :=
  s.address % 4096 = 0 ∧ lo ≤ base + s.address ∧ base + s.address < hi ∧ s.size < 2 ^ 32 ∧
    ∃ n, s.Spans align n ∧ n < 2 ^ 32 ∧ base + s.address + n ≤ hi

/-- The access attributes a section is to have: code is never writable, anything else never executable. (0x4000 execute-protected,
0x20000 read-only.) -/
structure Access (s : Section) (x : Nat) : Prop where
  code : s.IsCode → x = 0x20000
  constant : ¬ s.IsCode → s.IsConstant → x = 0x24000
  data : ¬ s.IsCode → ¬ s.IsConstant → x = 0x4000

/-- The page table neither fails nor needs memory. -/
def Calm (f : Faults) : Prop := ∀ a, f.fail a = none ∧ f.refill a = false

/-- Whole pages `[lo, hi)` of the memory space: existing memory that supports all protections, with attributes `k` besides the access
attributes (0x26000) everywhere. -/
structure Holds (m : Mem) (lo hi k : Nat) : Prop where
  inside : hi ≤ m.gcd.max
  order : lo ≤ hi
  pages : PageWise m.gcd lo (hi - lo)
  cells : ∀ a, lo ≤ a → a < hi → ∃ c, cellAt m.gcd.blocks a = some c ∧ c.type ≠ .nonExistent ∧ c.caps ||| (0x26000 ||| k) = c.caps ∧
    andNot c.attrs 0x26000 = k

/-- Between `m` and `m'` the attributes of each address became what `R` says of the address, its old and its new attributes; nothing
else changed in the memory space, and the page table agrees with it. -/
structure Becomes (ns : Nat) (m m' : Mem) (R : Nat → Nat → Nat → Prop) : Prop where
  ok : MemOk ns m'
  sync : Sync m'
  size : m'.gcd.max = m.gcd.max
  locked : m'.gcd.locked = m.gcd.locked
  refusals : m'.refusals = m.refusals
  gone : ∀ a, cellAt m.gcd.blocks a = none → cellAt m'.gcd.blocks a = none
  cells : ∀ a c, cellAt m.gcd.blocks a = some c → ∃ x, R a c.attrs x ∧ cellAt m'.gcd.blocks a = some { c with attrs := x }

/-- What protecting the sections makes of the attributes of address `a`: the last section that contains it decides about its access;
addresses in no section keep what they have. -/
def Protected (base align k : Nat) (l : List Section) (a old new : Nat) : Prop :=
  ((∀ s ∈ l, ¬ s.Has base align a) → new = old) ∧
  ∀ l1 s l2, l = l1 ++ s :: l2 → s.Has base align a → (∀ s' ∈ l2, ¬ s'.Has base align a) → ∃ x, Access s x ∧ new = x ||| k

/-- What removing the protections makes of the attributes of address `a`: addresses in a section are data. -/
def Unprotected (base align k : Nat) (l : List Section) (a old new : Nat) : Prop :=
  ((∀ s ∈ l, ¬ s.Has base align a) → new = old) ∧ ((∃ s ∈ l, s.Has base align a) → new = 0x4000 ||| k)

end Verif.ImageMem
