import Verif.Cache.Model

/-!
# What users of a cache flush rely on

A byte as the processor sees it and as a device sees it, and the lines a range of memory lies in.
-/

namespace Verif.Cache

/-- The byte the processor reads at an address. -/
def Sys.cpuSees (s : Sys) (len a : Nat) : UInt8 := if s.line (a / len) = .absent then s.ram a else s.copy a

/-- The byte a device reads at an address. -/
def Sys.deviceSees (s : Sys) (a : Nat) : UInt8 := s.ram a

/-- A line that is present and not dirty agrees with memory (what the hardware keeps up as long as no device writes). -/
def Sys.Coherent (s : Sys) (len : Nat) : Prop := ∀ a, s.line (a / len) = .clean → s.copy a = s.ram a

/-- The line shares a byte with the range. -/
def Overlaps (len start length l : Nat) : Prop := ∃ a, start ≤ a ∧ a < start + length ∧ a / len = l

/-- How far the last byte of the range is from the beginning of the line in which the range begins. -/
def reach (len start length : Nat) : Nat := start % len + length - 1

end Verif.Cache
