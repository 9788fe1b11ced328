import Verif.Paging.Compat
import Verif.Paging.Spec
/-!
What compatibility mode is for: an application that needs writable memory to be executable finds the memory of a legacy BIOS,
below 0xA0000, so mapped.
-/
namespace Verif.Paging
open Verif.Gcd

/-- The page may be read, written and executed: no attribute but cache attributes. (0x101F are the cache attributes.) -/
def FreelyMapped (t : Table) (p : Nat) : Prop := ∃ a, t p = some a ∧ a &&& 0x101F = a

/-- Page `p` begins in system memory. -/
def SystemPage (m : Mem) (p : Nat) : Prop := ∃ c, cellAt m.gcd.blocks (p * 4096) = some c ∧ c.type = .systemMemory

/-- The memory space has the addresses below 0xA0000, and room above it. -/
def HasLegacy (m : Mem) : Prop := 0xA0000 ≤ m.gcd.max ∧ m.gcd.max + 0xA0000 < W

/-- The system memory below 0xA0000 has cache attributes. -/
def LegacyCached (m : Mem) : Prop :=
  ∀ a c, a < 0xA0000 → cellAt m.gcd.blocks a = some c → c.type = .systemMemory → c.attrs &&& 0x101F ≠ 0

/-- Compatibility mode was entered, with nothing logged. -/
structure Entered (dbg : Bool) (fs : Nat → Faults) (m m' : Mem) : Prop where
  runs : ∃ calls, activateCompat dbg fs m = .at ⟨m', 0, calls⟩
  refusals : m'.refusals = m.refusals

end Verif.Paging
