import Verif.Paging.Model
/-!
What a user of the memory space services can observe: the descriptors of the memory space, and which pages are mapped how.
-/
namespace Verif.Paging
open Verif.Gcd

/-- How memory with these attributes is to be mapped: read-protected memory not at all, other memory with the access and cache
attributes. (0x2000 is `EFI_MEMORY_RP`, bit 13; 0x2701F the access and cache attributes.) -/
def mappingFor (attrs : Nat) : Option Nat := if attrs.testBit 13 then none else some (attrs &&& 0x2701F)

/-- How the page of an address in state `c` is to be mapped: memory that does not exist is not. -/
def mappingOf (c : Cell) : Option Nat := if c.type = .nonExistent then none else mappingFor c.attrs

/-- The page table agrees with the memory space about every address. -/
def Sync (m : Mem) : Prop :=
  ∀ t, m.table = some t → ∀ a c, cellAt m.gcd.blocks a = some c → t (a / 4096) = mappingOf c

/-- No page is mapped "read-protected" (that is what not being mapped stands for). -/
def TableOk (m : Mem) : Prop := ∀ t p a, m.table = some t → t p = some a → a.testBit 13 = false

/-- The page of every address of the range. -/
def InPages (base len p : Nat) : Prop := base / 4096 ≤ p ∧ p < (base + len) / 4096

instance (base len p : Nat) : Decidable (InPages base len p) := inferInstanceAs (Decidable (_ ∧ _))

/-- The memory has everything it needs to be used in a state where its attributes are changed: it exists, and the attributes
are among its capabilities. -/
def Supports (g : Gcd) (base len attrs : Nat) : Prop :=
  ∀ a, base ≤ a → a < base + len → ∃ c, cellAt g.blocks a = some c ∧ c.type ≠ .nonExistent ∧ c.caps ||| attrs = c.caps

/-- No descriptor begins or ends inside a page of the range. -/
def PageWise (g : Gcd) (base len : Nat) : Prop :=
  base % 4096 = 0 ∧ len % 4096 = 0 ∧
    ∀ a, base ≤ a → a < base + len → cellAt g.blocks a = cellAt g.blocks (a / 4096 * 4096)

/-- Between `m` and `m'` the attributes of `[base, upto)` were set, in the memory space and in the page table, and nothing else
changed: no type, no capabilities, no other attributes, no owner of allocated memory, no other page. -/
structure AttrsSet (m m' : Mem) (base upto attrs : Nat) : Prop where
  size : m'.gcd.max = m.gcd.max
  memory : ∀ a c, cellAt m.gcd.blocks a = some c → ∃ c', cellAt m'.gcd.blocks a = some c' ∧ c'.type = c.type ∧ c'.caps = c.caps ∧
    c'.attrs = (if base ≤ a ∧ a < upto then attrs else c.attrs) ∧ (c.allocated = true → c'.allocated = true ∧ c'.image = c.image)
  table : ∀ t, m.table = some t → ∃ t', m'.table = some t' ∧
    ∀ p, t' p = if base / 4096 ≤ p ∧ p < upto / 4096 then mappingFor attrs else t p
  noTable : m.table = none → m'.table = none

/-- The page is mapped and code on it can be executed (0x4000 is `EFI_MEMORY_XP`, bit 14). -/
def Executable (m : Mem) (p : Nat) : Prop := ∃ t a, m.table = some t ∧ t p = some a ∧ a.testBit 14 = false

/-- The page is mapped. -/
def Mapped (m : Mem) (p : Nat) : Prop := ∃ t a, m.table = some t ∧ t p = some a

/-- The arguments are those of a 64-bit machine, and attributes are set inside the memory space. -/
def Call.InRange (m : Mem) : Call → Prop
  | .add _ base len caps => base < W ∧ len < W ∧ caps < W
  | .remove base len => base < W ∧ len < W
  | .allocate at_ _ shift len _ _ => ReqOk at_ shift len
  | .free base len => base < W ∧ len < W
  | .freeKeep base len => base < W ∧ len < W
  | .setAttributes base len attrs => base + len ≤ m.gcd.max ∧ attrs < W
  | .setCapabilities base len caps => base < W ∧ len < W ∧ caps < W
  | .lock => True
  | .unlock => True

/-- A call that keeps the page table in step with the memory space:
* memory is removed in whole pages, allocated in whole pages, and freed while the memory space is not locked and without
  keeping it for its owner;
* attributes are set that the whole range supports and that mean something to the page table;
* the page table does not fail to unmap what is removed or freed;
* there is room for a few more descriptors, and the page table does not need memory while attributes are set. -/
def Call.Proper (f : Faults) (m : Mem) : Call → Prop
  | .add .. => True
  | .remove base len => base % 4096 = 0 ∧ len % 4096 = 0 ∧ f.fail base = none
  | .allocate _ _ shift len _ _ => len % 4096 = 0 ∧ 12 ≤ shift ∧ m.gcd.blocks.length + 8 ≤ 4096 ∧
      ∀ a c, cellAt m.gcd.blocks a = some c → c.type ≠ .nonExistent → c.caps.testBit 14 = true
  | .free base _ => m.gcd.locked = false ∧ f.fail base = none
  | .freeKeep .. => False
  | .setAttributes base len attrs => attrs &&& 0x2701F ≠ 0 ∧ Supports m.gcd base len attrs ∧ PageWise m.gcd base len ∧
      m.gcd.blocks.length + 8 ≤ 4096 ∧ ∀ a, f.refill a = false
  | .setCapabilities .. => True
  | .lock => True
  | .unlock => True

/-- `m'` is reached from `m` by calls that return, each of them made in a state where `P` holds of it. `dbg` tells debug from
release builds. -/
inductive History (dbg : Bool) (ns : Nat) (P : Faults → Mem → Call → Prop) : Mem → Mem → Prop where
  | none (m : Mem) : History dbg ns P m m
  | call {m m1 m2 : Mem} {f : Faults} {c : Call} {r : Outcome EfiError Unit} : History dbg ns P m m1 → P f m1 c →
      m1.step dbg ns f c = some (r, m2) → r ≠ .panic → History dbg ns P m m2

/-- A state the calls are made in: the map of the memory space exists. -/
structure MemOk (ns : Nat) (m : Mem) : Prop where
  reach : Reachable ns m.gcd
  some : m.gcd.blocks ≠ []
  table : TableOk m
  dflt : m.dflt < W

end Verif.Paging
