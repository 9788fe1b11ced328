import Verif.Paging.Init
import Verif.Paging.Spec
/-!
What a platform can rely on once paging is set up.
-/
namespace Verif.Paging
open Verif.Gcd

/-- How many bytes of memory a section takes: its size rounded up to the alignment of sections. -/
def CoreSection.rounded (alignment : Nat) (c : CoreSection) : Nat :=
  match Base.alignUp 32 c.size alignment with
  | .ok n => n
  | _ => 0

/-- The section is code (`IMAGE_SCN_CNT_CODE`). -/
def CoreSection.IsCode (c : CoreSection) : Prop := c.flags.testBit 5 = true

instance (c : CoreSection) : Decidable c.IsCode := inferInstanceAs (Decidable (_ = true))

/-- Page `p` lies inside the range. -/
def PageIn (p base len : Nat) : Prop := base ≤ p * 4096 ∧ p * 4096 + 4096 ≤ base + len

instance (p base len : Nat) : Decidable (PageIn p base len) := inferInstanceAs (Decidable (_ ∧ _))

/-- Page `p` lies inside a section of the core. -/
def InSection (image alignment p : Nat) (c : CoreSection) : Prop := PageIn p (image + c.address) (c.rounded alignment)

/-- The image of the core and its sections lie in the memory space, which ends with a page. -/
structure CoreFits (m : Mem) (image len : Nat) (pe : CorePe) : Prop where
  nonempty : 0 < len
  inside : image + len ≤ m.gcd.max
  sections : ∀ c ∈ pe.sections, image + c.address + c.rounded pe.alignment ≤ m.gcd.max
  pages : m.gcd.max % 4096 = 0 ∧ 0 < m.gcd.max

/-- Memory that is mapped because of what it is: allocated memory, MMIO and reserved memory. -/
def InUse (c : Cell) : Prop := c.allocated = true ∨ c.type = .memoryMappedIo ∨ c.type = .reserved

/-- Paging was set up, with everything on the way there having worked: nothing was logged. -/
structure SetUp (dbg : Bool) (fs : Nat → Faults) (m : Mem) (image len : Nat) (pe : CorePe) (m' : Mem) (t : Table) : Prop where
  runs : ∃ parse rest calls, parse image len = some pe ∧
    initPaging dbg fs parse ((image, len) :: rest) m = .at ⟨m', 0, calls⟩
  refusals : m'.refusals = m.refusals
  table : m'.table = some t

end Verif.Paging
