import Verif.Hob.Model
import Verif.Gcd.IoModel
import Verif.Base.Model
/-!
Model of how the HOBs found at start-up become the address map: `init_gcd` and `add_hob_resource_descriptors_to_gcd`
(`/repo/patina_dxe_core/src/gcd.rs` lines 30-266), `get_capabilities` and the table it reads (`gcd/spin_locked_gcd.rs` lines
70-169), and `SpinLockedGcd::set_memory_space_attributes` (lines 2397-2484) as it works before the page table exists.

`dbg` says whether debug assertions and overflow checks are compiled in. The HOBs are given as what is found in memory
through them (`Hob.View`). Log output is left out. `MemoryAttributes::CacheAttributesMask` of the external crate
`patina_paging` is taken to be the cache bits of UEFI, `0x101F`, and `from_bits_truncate` to keep them.
-/
namespace Verif.Resources
open Verif.Gcd Verif.Hob

/-- The memory and I/O space of `SpinLockedGcd`. -/
structure Machine where
  mem : Gcd
  io : Io
deriving DecidableEq, Repr

/-! ### Attributes -/

/-- `EFI_RESOURCE_*`, hob.rs lines 295-303 -/
def SYSTEM_MEMORY : UInt32 := 0
def MEMORY_MAPPED_IO : UInt32 := 1
def IO : UInt32 := 2
def FIRMWARE_DEVICE : UInt32 := 3
def MEMORY_MAPPED_IO_PORT : UInt32 := 4
def MEMORY_RESERVED : UInt32 := 5
def IO_RESERVED : UInt32 := 6

/-- `MEMORY_ATTRIBUTE_MASK`, hob.rs lines 374-384 -/
def MEMORY_ATTRIBUTE_MASK : Nat := 0x1 ||| 0x2 ||| 0x4 ||| 0x80 ||| 0x100 ||| 0x200 ||| 0x40000 ||| 0x4000 ||| 0x8000 |||
  0x10000 ||| 0x800000
/-- hob.rs lines 386-391 -/
def TESTED : Nat := 7
def INITIALIZED : Nat := 3
def PRESENT : Nat := 1
def MORE_RELIABLE : Nat := 0x2000000
def PERSISTENT : Nat := 0x800000

/-- `ATTRIBUTE_CONVERSION_TABLE`, spin_locked_gcd.rs lines 77-149: attribute, capability, `memory` -/
def conversions : List (Nat × Nat × Bool) :=
  [(0x400, 0x1, true), (0x20000, 0x10, true), (0x800, 0x2, true), (0x1000, 0x4, true), (0x2000, 0x8, true),
   (0x100000, 0x2000, true), (0x200000, 0x1000, true), (0x400000, 0x4000, true), (0x80000, 0x20000, true),
   (0x1, 0x0100000000000000, false), (0x2, 0x0200000000000000, false), (0x4, 0x0400000000000000, false),
   (0x1000000, 0x8000, true), (0x2000000, 0x10000, true), (0, 0, false)]

/-- The loop of `get_capabilities`, lines 151-169 -/
def capsLoop (ty : MemType) (attr : Nat) : List (Nat × Nat × Bool) → Nat → Nat
  | [], acc => acc
  | (a, c, memory) :: l, acc =>
    if a = 0 then acc
    else if (memory ∨ (ty ≠ .systemMemory ∧ ty ≠ .moreReliable)) ∧ attr &&& a ≠ 0 then capsLoop ty attr l (acc ||| c)
    else capsLoop ty attr l acc

def getCapabilities (ty : MemType) (attr : Nat) : Nat := capsLoop ty attr conversions 0

/-- `ResourceDescriptor::attributes_valid`, hob.rs lines 443-457. (The first line tests READ_ONLY_PROTECTABLE for
READ_PROTECTED.) -/
def attributesValid (attr : Nat) : Bool :=
  (attr &&& 0x80 = 0 || attr &&& 0x80000 ≠ 0) &&
  (attr &&& 0x100 = 0 || attr &&& 0x200000 ≠ 0) &&
  (attr &&& 0x200 = 0 || attr &&& 0x400000 ≠ 0) &&
  (attr &&& 0x40000 = 0 || attr &&& 0x80000 ≠ 0) &&
  (attr &&& 0x800000 = 0 || attr &&& 0x1000000 ≠ 0)

/-- The three tests on system memory, gcd.rs lines 127-150, each overriding the one before. -/
def testedKind (attr : Nat) : MemType :=
  if attr &&& MEMORY_ATTRIBUTE_MASK = TESTED then
    if attr &&& MORE_RELIABLE = MORE_RELIABLE then .moreReliable else .systemMemory
  else .nonExistent

def untestedKind (attr : Nat) : MemType :=
  if attr &&& MEMORY_ATTRIBUTE_MASK = INITIALIZED ∨ attr &&& MEMORY_ATTRIBUTE_MASK = PRESENT then .reserved
  else testedKind attr

def systemKind (attr : Nat) : MemType :=
  if attr &&& PERSISTENT = PERSISTENT then .persistent else untestedKind attr

/-- The `match` on the resource type as far as memory is concerned, lines 123-188 -/
def memKind (d : ResourceDescriptor) : MemType :=
  if d.resourceType = SYSTEM_MEMORY then systemKind d.attr.toNat
  else if d.resourceType = MEMORY_MAPPED_IO ∨ d.resourceType = FIRMWARE_DEVICE then .memoryMappedIo
  else if d.resourceType = MEMORY_MAPPED_IO_PORT ∨ d.resourceType = MEMORY_RESERVED then .reserved
  else .nonExistent

/-! ### Before the page table exists -/

/-- `if attributes & (CACHE_ATTRIBUTE_MASK | MEMORY_ACCESS_MASK) != 0 { … res = Err(NotReady) }`, lines 2437-2447:
`set_paging_attributes` answers `NotReady` while there is no page table (line 1965). -/
def pagingResult (attrs : Nat) (res : Outcome EfiError Unit) : Outcome EfiError Unit :=
  if attrs &&& (CACHE_ATTRIBUTE_MASK ||| MEMORY_ACCESS_MASK) ≠ 0 then .err .notReady else res

/-- The loop of `SpinLockedGcd::set_memory_space_attributes`, lines 2409-2476. An error of the GCD is logged, and a panic
with debug assertions (lines 2424-2429). -/
def setEarlyLoop (dbg : Bool) (attrs stop : Nat) : Nat → Nat → Outcome EfiError Unit → Gcd → Res (Outcome EfiError Unit × Gcd)
  | 0, _, _, _ => .running
  | steps + 1, cur, res, g =>
    if ¬ cur < stop then .ok (res, g)
    else match g.descriptorFor cur with
      | .err e => .ok (.err e, g)
      | .panic => .panic
      | .ok b =>
        let next := min (addw b.base b.len) stop
        match g.setAttributes cur (subw next cur) attrs with
        | (.ok _, g') => setEarlyLoop dbg attrs stop steps next (pagingResult attrs res) g'
        | (.err _, g') => if dbg then .panic else setEarlyLoop dbg attrs stop steps next (pagingResult attrs res) g'
        | (.panic, _) => .panic

/-- `SpinLockedGcd::set_memory_space_attributes`, lines 2397-2484, before `init_paging` -/
def setEarly (dbg : Bool) (steps base len attrs : Nat) (g : Gcd) : Res (Outcome EfiError Unit × Gcd) :=
  setEarlyLoop dbg attrs (addw base len) steps base (.ok ()) g

/-! ### The resource descriptors -/

/-- `remove_range_overlap`, gcd.rs lines 255-268: ranges as start and end -/
def removeOverlap (a b : Nat × Nat) : List (Option (Nat × Nat)) :=
  if a.1 < b.2 ∧ a.2 > b.1 then
    [if a.1 < b.1 then some (a.1, b.1) else none, if a.2 > b.2 then some (b.2, a.2) else none]
  else [some a, none]

/-- `.take_while(|r| r.is_some()).flatten()`, lines 211-213 -/
def pieces (a b : Nat × Nat) : List (Nat × Nat) := ((removeOverlap a b).takeWhile Option.isSome).filterMap id

/-- The resource descriptor in a HOB, lines 109-114, with the attributes of one of version 2. -/
def resourceOf : View → Option (ResourceDescriptor × Option Nat)
  | .resource d => some (d, none)
  | .resource2 d => some (d.v1, some d.attributes.toNat)
  | _ => none

/-- Lines 195-208: the attributes to set for a descriptor of version 2 -/
def wanted (ty : MemType) (attrs : Nat) : Nat :=
  if ty = .systemMemory then (attrs &&& CACHE_ATTRIBUTE_MASK) ||| MEMORY_RP else attrs &&& CACHE_ATTRIBUTE_MASK

/-- Lines 230-249: anything but `NotReady` is a panic -/
def expectNotReady (r : Outcome EfiError Unit × Gcd) : Res Gcd :=
  if r.1 = .err .notReady then .ok r.2 else .panic

def setWanted (dbg : Bool) (steps : Nat) (r : Nat × Nat) (attrs : Option Nat) (g : Gcd) : Res Gcd :=
  match attrs with
  | none => .ok g
  | some x => (setEarly dbg steps r.1 (r.2 - r.1) x g).bind expectNotReady

/-- Lines 220-250: one of the ranges -/
def addPiece (dbg : Bool) (steps nodeSize : Nat) (ty : MemType) (caps : Nat) (attrs : Option Nat) (r : Nat × Nat) (g : Gcd) :
    Res Gcd :=
  match g.add nodeSize ty r.1 (r.2 - r.1) caps with
  | (.ok _, g') => setWanted dbg steps r attrs g'
  | _ => .panic

def addPieces (dbg : Bool) (steps nodeSize : Nat) (ty : MemType) (caps : Nat) (attrs : Option Nat) :
    List (Nat × Nat) → Gcd → Res Gcd
  | [], g => .ok g
  | r :: l, g => (addPiece dbg steps nodeSize ty caps attrs r g).bind (addPieces dbg steps nodeSize ty caps attrs l)

def expectIo (r : IoRet Unit) : Res Io :=
  match r with
  | (.ok _, io) => .ok io
  | _ => .panic

/-- The `match` on the resource type as far as I/O is concerned, lines 159-185; an unknown type is a debug assertion -/
def addIo (dbg : Bool) (d : ResourceDescriptor) (io : Io) : Res Io :=
  if d.resourceType = IO then expectIo (io.add .io d.start.toNat d.length.toNat)
  else if d.resourceType = IO_RESERVED then expectIo (io.add .reserved d.start.toNat d.length.toNat)
  else if d.resourceType.toNat ≤ 5 then .ok io
  else if dbg then .panic
  else .ok io

/-- Lines 191-251 -/
def addMem (dbg : Bool) (steps nodeSize : Nat) (free : Nat × Nat) (d : ResourceDescriptor) (attrs : Option Nat) (g : Gcd) : Res Gcd :=
  if memKind d = .nonExistent then .ok g
  else if attributesValid d.attr.toNat = false then .panic
  else addPieces dbg steps nodeSize (memKind d) (getCapabilities (memKind d) d.attr.toNat) (attrs.map (wanted (memKind d)))
    (pieces (d.start.toNat, d.start.toNat + d.length.toNat) free) g

/-- One turn of the loop of `add_hob_resource_descriptors_to_gcd`, lines 104-252 -/
def addOne (dbg : Bool) (steps nodeSize : Nat) (free : Nat × Nat) (v : View) (s : Machine) : Res Machine :=
  match resourceOf v with
  | none => .ok s
  | some (d, attrs) =>
    if d.start.toNat + d.length.toNat ≥ W then .panic
    else (addIo dbg d s.io).bind fun io =>
      (addMem dbg steps nodeSize free d attrs s.mem).bind fun mem => .ok ⟨mem, io⟩

def addAll (dbg : Bool) (steps nodeSize : Nat) (free : Nat × Nat) : List View → Machine → Res Machine
  | [], s => .ok s
  | v :: l, s => (addOne dbg steps nodeSize free v s).bind (addAll dbg steps nodeSize free l)

/-- `free_memory_start` and the end of the free memory, lines 99-101 (and 43-45): `start + (end - start)` is `end` again,
with and without wrapping. -/
def freeRange (dbg : Bool) (p : Handoff) : Res (Nat × Nat) :=
  match Base.alignUp 64 p.freeMemoryBottom.toNat 0x1000, Base.alignDown 64 p.freeMemoryTop.toNat 0x1000 with
  | .ok s, .ok e => if dbg && decide (e < s) then .panic else .ok (s, e)
  | _, _ => .panic

/-- The first handoff HOB, lines 91-97 -/
def phit : List View → Option Handoff
  | [] => none
  | .handoff p :: _ => some p
  | _ :: l => phit l

/-- `add_hob_resource_descriptors_to_gcd`, lines 90-253 -/
def addResources (dbg : Bool) (steps nodeSize : Nat) (vs : List View) (s : Machine) : Res Machine :=
  match phit vs with
  | none => .panic
  | some p => (freeRange dbg p).bind fun free => addAll dbg steps nodeSize free vs s

/-! ### The initial region -/

/-- The local variables of `init_gcd`, lines 31-34, and the GCD. `free` is start and end (as in `freeRange`). -/
structure Init where
  free : Nat × Nat := (0, 0)
  range : Nat × Nat := (0, 0)
  machine : Machine := ⟨⟨0, 0, [], false, false⟩, ⟨0, 0, []⟩⟩
deriving DecidableEq, Repr

/-- The loop of `init_gcd`, lines 41-55 -/
def initLoop (dbg : Bool) : List View → Init → Res Init
  | [], s => .ok s
  | .handoff p :: l, s =>
    (freeRange dbg p).bind fun f =>
      initLoop dbg l { s with free := f, range := (p.memoryBottom.toNat, p.memoryTop.toNat) }
  | .cpu c :: l, s =>
    initLoop dbg l { s with machine :=
      ⟨{ s.machine.mem with max := oneShl c.memorySpace.toNat }, { s.machine.io with max := oneShl c.ioSpace.toNat }⟩ }
  | _ :: l, s => initLoop dbg l s

/-- Lines 63-82 -/
def initFinish (dbg : Bool) (nodeSize : Nat) (s : Init) : Res Machine :=
  if dbg && decide (s.range.2 < s.range.1) then .panic
  else if subw s.free.2 s.free.1 = 0 then .panic
  else if ¬ s.range.1 < s.range.2 then .panic
  else match s.machine.mem.add nodeSize .systemMemory s.free.1 (subw s.free.2 s.free.1) 0x2700F with
    | (.ok _, g) => .ok { s.machine with mem := g }
    | _ => .panic

/-- `init_gcd`, lines 30-84; `vs` is what the iterator shows. -/
def initGcd (dbg : Bool) (nodeSize : Nat) (vs : List View) : Res Machine :=
  (initLoop dbg vs {}).bind (initFinish dbg nodeSize)

end Verif.Resources
