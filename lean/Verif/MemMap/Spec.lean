import Verif.MemMap.Model
import Verif.Gcd.EngineSpec
/-!
What the memory map is supposed to say, independent of how it is computed.
-/
namespace Verif.MemMap
open Gcd

/-- The first address after the entry. -/
def Entry.stop (e : Entry) : Nat := e.start + e.pages * 4096

/-- The list reports the address `a`, as memory of type `t` with attributes `w`. -/
def Reports (l : List Entry) (a t w : Nat) : Prop := ∃ e ∈ l, e.start ≤ a ∧ a < e.stop ∧ e.type = t ∧ e.attr = w

/-- A well-formed memory map: non-empty ranges of whole pages, in order and disjoint, and no two that could be one. -/
structure WellFormed (l : List Entry) : Prop where
  whole : ∀ e ∈ l, 0 < e.pages ∧ e.start % 4096 = 0
  order : l.Pairwise fun x y => x.stop ≤ y.start
  joined : l.Pairwise fun x y => ¬ (x.stop = y.start ∧ x.type = y.type ∧ x.attr = y.attr)

/-- The UEFI memory type of an address: that of the allocator that owns it, and otherwise what the type of the memory space
says. Addresses where there is nothing, and free "more reliable" memory, have none. -/
inductive HasType (owners : List (Nat × Nat)) (c : Cell) : Nat → Prop
  | owned {t : Nat} : (c.image, t) ∈ owners → HasType owners c t
  | conventional : (∀ o ∈ owners, o.1 ≠ c.image) → c.type = .systemMemory → HasType owners c 7
  | io : (∀ o ∈ owners, o.1 ≠ c.image) → c.type = .memoryMappedIo → c.attrs.testBit 62 = false → HasType owners c 11
  | ioPort : (∀ o ∈ owners, o.1 ≠ c.image) → c.type = .memoryMappedIo → c.attrs.testBit 62 = true → HasType owners c 12
  | persistent : (∀ o ∈ owners, o.1 ≠ c.image) → c.type = .persistent → HasType owners c 14
  | unaccepted : (∀ o ∈ owners, o.1 ≠ c.image) → c.type = .unaccepted → HasType owners c 15
  | reserved : (∀ o ∈ owners, o.1 ≠ c.image) → c.type = .reserved → HasType owners c 0

/-- The attributes reported for an address, bit by bit. With `active`, what is in force; otherwise what the memory is capable
of, without the access protections (bits 13, 14, 17). Bit 63 says that the memory is needed at runtime. -/
def HasAttr (active : Bool) (c : Cell) (t w : Nat) : Prop :=
  ∀ i, w.testBit i =
    if i = 63 then c.attrs.testBit 63 || decide (t = 5 ∨ t = 6)
    else if active then c.attrs.testBit i
    else if i = 13 ∨ i = 14 ∨ i = 17 ∨ 64 ≤ i then false
    else c.caps.testBit i

/-- Every address of a page is in the same state. -/
def PageUniform (blocks : List (Block Cell)) : Prop := ∀ a, cellAt blocks a = cellAt blocks (a - a % 4096)

/-- No two allocators have the same handle. -/
def Distinct (owners : List (Nat × Nat)) : Prop := owners.Pairwise fun x y => x.1 ≠ y.1

end Verif.MemMap
