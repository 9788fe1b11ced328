import Verif.Resources.Model
import Verif.Gcd.Spec
import Verif.Gcd.IoProps
/-!
What a resource descriptor HOB says about the address map (PI specification, volume 3, section 5.5, and volume 2, section
7.2.4), in terms of single attribute bits.
-/
namespace Verif.Resources
open Verif.Gcd Verif.Hob

/-- The address is in the range the descriptor describes. -/
def Covers (d : ResourceDescriptor) (a : Nat) : Prop := d.start.toNat ≤ a ∧ a < d.start.toNat + d.length.toNat

/-- An attribute bit of the descriptor. -/
def Has (d : ResourceDescriptor) (i : Nat) : Prop := d.attr.toNat.testBit i = true

/-- None of: read protected (7), write protected (8), execution protected (9), 16, 32 and 64 bit I/O (14, 15, 16), read-only
protected (18), persistent (23). -/
def Plain (d : ResourceDescriptor) : Prop := ∀ i ∈ [7, 8, 9, 14, 15, 16, 18, 23], ¬ Has d i

/-- The kind of memory a descriptor stands for: bit 0 is present, 1 initialised, 2 tested, 23 persistent, 25 more reliable.
Resource types: 0 system memory, 1 memory-mapped I/O, 3 firmware device, 4 memory-mapped I/O port, 5 reserved. -/
inductive MapsTo (d : ResourceDescriptor) : MemType → Prop
  | tested : d.resourceType = 0 → Plain d → Has d 0 → Has d 1 → Has d 2 → ¬ Has d 25 → MapsTo d .systemMemory
  | reliable : d.resourceType = 0 → Plain d → Has d 0 → Has d 1 → Has d 2 → Has d 25 → MapsTo d .moreReliable
  | untested : d.resourceType = 0 → Plain d → Has d 0 → ¬ Has d 2 → MapsTo d .reserved
  | persistent : d.resourceType = 0 → Has d 23 → MapsTo d .persistent
  | device : d.resourceType = 1 ∨ d.resourceType = 3 → MapsTo d .memoryMappedIo
  | reserved : d.resourceType = 4 ∨ d.resourceType = 5 → MapsTo d .reserved

/-- The kind of I/O space a descriptor stands for. -/
inductive MapsToIo (d : ResourceDescriptor) : IoType → Prop
  | io : d.resourceType = 2 → MapsToIo d .io
  | reserved : d.resourceType = 6 → MapsToIo d .reserved

/-- Attribute bit, capability bit (UC 0, WC 1, WT 2, WB 3, UCE 4, WP 12, RP 13, XP 14, NV 15, more reliable 16, RO 17, present
56, initialised 57, tested 58), and whether it applies to system memory. -/
def capabilityBits : List (Nat × Nat × Bool) :=
  [(10, 0, true), (11, 1, true), (12, 2, true), (13, 3, true), (17, 4, true), (21, 12, true), (20, 13, true), (22, 14, true),
   (24, 15, true), (25, 16, true), (19, 17, true), (0, 56, false), (1, 57, false), (2, 58, false)]

/-- The memory has the capability of bit `j`. -/
def Capable (d : ResourceDescriptor) (ty : MemType) (j : Nat) : Prop :=
  ∃ e ∈ capabilityBits, e.2.1 = j ∧ Has d e.1 ∧ (e.2.2 = true ∨ (ty ≠ .systemMemory ∧ ty ≠ .moreReliable))

/-- The cell of the map a descriptor asks for: unallocated memory of its kind, with its capabilities, with RP, XP, RO and
RUNTIME added (and the I/O bit of memory-mapped I/O). -/
structure Placed (d : ResourceDescriptor) (ty : MemType) (c : Cell) : Prop where
  free : c.allocated = false
  type : c.type = ty
  caps : ∀ j, c.caps.testBit j = true ↔
    Capable d ty j ∨ j ∈ [13, 14, 17, 63] ∨ (j = 62 ∧ ty = .memoryMappedIo)

/-- The attributes: read-protected; for a descriptor of version 2 its cache attributes, and system memory is read-protected
in addition. -/
def attributesOf (ty : MemType) : Option Nat → Nat
  | none => 0x2000
  | some x => (x &&& 0x101F) ||| (if ty = .systemMemory then 0x2000 else 0)

/-- The address is in the range `[f.1, f.2)`. -/
def In (f : Nat × Nat) (a : Nat) : Prop := f.1 ≤ a ∧ a < f.2

instance (f : Nat × Nat) (a : Nat) : Decidable (In f a) := inferInstanceAs (Decidable (_ ∧ _))

/-- The range of the descriptor begins inside `f`. -/
def StartsIn (f : Nat × Nat) (d : ResourceDescriptor) : Prop := f.1 ≤ d.start.toNat ∧ d.start.toNat < f.2


/-- The resource descriptor a HOB holds, with the attributes of one of version 2. -/
inductive Describes : View → ResourceDescriptor → Option Nat → Prop
  | one (d : ResourceDescriptor) : Describes (.resource d) d none
  | two (d : ResourceDescriptorV2) : Describes (.resource2 d) d.v1 (some d.attributes.toNat)

/-- What the code asks of the attributes: write protection (8), execution protection (9), read-only protection (18) and
persistence (23) come with the capability (21, 22, 19, 24). Of read protection (7) it asks that the memory can be read-only
(19), not that it can be read-protected (20): `Witness.read_protected_needs_read_only`. -/
def Consistent (d : ResourceDescriptor) : Prop := ∀ e ∈ [(7, 19), (8, 21), (9, 22), (18, 19), (23, 24)], Has d e.1 → Has d e.2

/-- The free memory a handoff HOB announces: its whole pages, as start and end. -/
structure FreeMemory (p : Handoff) (f : Nat × Nat) : Prop where
  start : 0x1000 ∣ f.1 ∧ p.freeMemoryBottom.toNat ≤ f.1 ∧ f.1 < p.freeMemoryBottom.toNat + 0x1000
  stop : 0x1000 ∣ f.2 ∧ f.2 ≤ p.freeMemoryTop.toNat ∧ p.freeMemoryTop.toNat < f.2 + 0x1000

/-- The handoff HOBs, and the CPU HOBs. -/
def handoffs (vs : List View) : List Handoff := vs.filterMap fun | .handoff p => some p | _ => none
def cpus (vs : List View) : List Cpu := vs.filterMap fun | .cpu c => some c | _ => none

end Verif.Resources
