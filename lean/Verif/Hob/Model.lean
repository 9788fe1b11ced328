import Verif.Prelude
import Verif.Bytes
/-!
Model of the HOB list (`/repo/sdk/patina_pi/src/hob.rs`).

Memory is a function from addresses to bytes. A `Hob` of the code holds references into that memory: it is
modelled by the addresses it refers to, and `view` is what a reader finds through those references.
Integers are little-endian and the target is 64-bit. An address is a natural number; adding a length to a
pointer wraps at `2^64` (release profile) or panics (overflow checks, `dbg`).
Simplifications: all of memory is readable; a `BootMode`, a `MemoryType` and a `Boolean` are the integers
they are stored as, whatever their value.
-/
namespace Verif.Hob

abbrev Mem := Nat → UInt8

/-- The `n` bytes at `a`. -/
def rd (m : Mem) : Nat → Nat → List UInt8
  | _, 0 => []
  | a, n + 1 => m a :: rd m (a + 1) n

/-- Writing the bytes `bs` at `a`. -/
def wr (m : Mem) (a : Nat) (bs : List UInt8) : Mem := fun x =>
  if a ≤ x then bs.getD (x - a) (m x) else m x

def u8 (m : Mem) (a : Nat) : UInt8 := m a
def u16 (m : Mem) (a : Nat) : UInt16 := UInt16.ofNat (leVal (rd m a 2))
def u32 (m : Mem) (a : Nat) : UInt32 := UInt32.ofNat (leVal (rd m a 4))
def u64 (m : Mem) (a : Nat) : UInt64 := UInt64.ofNat (leVal (rd m a 8))
/-- `efi::Guid`: 16 bytes. -/
def guid (m : Mem) (a : Nat) : List UInt8 := rd m a 16

/-! ### The structures -/

/-- `header::Hob`, lines 127-142. -/
structure Header where
  type : UInt16
  length : UInt16
  reserved : UInt32
deriving DecidableEq, Repr

/-- `PhaseHandoffInformationTable`, lines 193-228. -/
structure Handoff where
  header : Header
  version : UInt32
  bootMode : UInt32
  memoryTop : UInt64
  memoryBottom : UInt64
  freeMemoryTop : UInt64
  freeMemoryBottom : UInt64
  endOfHobList : UInt64
deriving DecidableEq, Repr

/-- `header::MemoryAllocation`, lines 150-178. -/
structure AllocDesc where
  name : List UInt8
  base : UInt64
  length : UInt64
  type : UInt32
  reserved : List UInt8
deriving DecidableEq, Repr

/-- `MemoryAllocation`, lines 236-250. -/
structure MemoryAllocation where
  header : Header
  desc : AllocDesc
deriving DecidableEq, Repr

/-- `MemoryAllocationModule`, lines 269-291. -/
structure MemoryAllocationModule where
  header : Header
  desc : AllocDesc
  moduleName : List UInt8
  entryPoint : UInt64
deriving DecidableEq, Repr

/-- `ResourceDescriptor`, lines 415-441. -/
structure ResourceDescriptor where
  header : Header
  owner : List UInt8
  resourceType : UInt32
  attr : UInt32
  start : UInt64
  length : UInt64
deriving DecidableEq, Repr

/-- `ResourceDescriptorV2`, lines 466-477. -/
structure ResourceDescriptorV2 where
  v1 : ResourceDescriptor
  attributes : UInt64
deriving DecidableEq, Repr

/-- `GuidHob`, lines 489-501. -/
structure GuidHob where
  header : Header
  name : List UInt8
deriving DecidableEq, Repr

/-- `FirmwareVolume`, lines 506-520; `Capsule`, lines 619-635, has the same fields. -/
structure FirmwareVolume where
  header : Header
  base : UInt64
  length : UInt64
deriving DecidableEq, Repr

/-- `FirmwareVolume2`, lines 526-548. -/
structure FirmwareVolume2 where
  header : Header
  base : UInt64
  length : UInt64
  fvName : List UInt8
  fileName : List UInt8
deriving DecidableEq, Repr

/-- `FirmwareVolume3`, lines 554-587 (three bytes of padding after `extracted`). -/
structure FirmwareVolume3 where
  header : Header
  base : UInt64
  length : UInt64
  authStatus : UInt32
  extracted : UInt8
  fvName : List UInt8
  fileName : List UInt8
deriving DecidableEq, Repr

/-- `Cpu`, lines 592-611. -/
structure Cpu where
  header : Header
  memorySpace : UInt8
  ioSpace : UInt8
  reserved : List UInt8
deriving DecidableEq, Repr

def readHeader (m : Mem) (a : Nat) : Header := ⟨u16 m a, u16 m (a + 2), u32 m (a + 4)⟩
def readHandoff (m : Mem) (a : Nat) : Handoff :=
  ⟨readHeader m a, u32 m (a + 8), u32 m (a + 12), u64 m (a + 16), u64 m (a + 24), u64 m (a + 32),
    u64 m (a + 40), u64 m (a + 48)⟩
def readDesc (m : Mem) (a : Nat) : AllocDesc :=
  ⟨guid m a, u64 m (a + 16), u64 m (a + 24), u32 m (a + 32), rd m (a + 36) 4⟩
def readAlloc (m : Mem) (a : Nat) : MemoryAllocation := ⟨readHeader m a, readDesc m (a + 8)⟩
def readModule (m : Mem) (a : Nat) : MemoryAllocationModule :=
  ⟨readHeader m a, readDesc m (a + 8), guid m (a + 48), u64 m (a + 64)⟩
def readResource (m : Mem) (a : Nat) : ResourceDescriptor :=
  ⟨readHeader m a, guid m (a + 8), u32 m (a + 24), u32 m (a + 28), u64 m (a + 32), u64 m (a + 40)⟩
def readResource2 (m : Mem) (a : Nat) : ResourceDescriptorV2 := ⟨readResource m a, u64 m (a + 48)⟩
def readGuid (m : Mem) (a : Nat) : GuidHob := ⟨readHeader m a, guid m (a + 8)⟩
def readFv (m : Mem) (a : Nat) : FirmwareVolume := ⟨readHeader m a, u64 m (a + 8), u64 m (a + 16)⟩
def readFv2 (m : Mem) (a : Nat) : FirmwareVolume2 :=
  ⟨readHeader m a, u64 m (a + 8), u64 m (a + 16), guid m (a + 24), guid m (a + 40)⟩
def readFv3 (m : Mem) (a : Nat) : FirmwareVolume3 :=
  ⟨readHeader m a, u64 m (a + 8), u64 m (a + 16), u32 m (a + 24), u8 m (a + 28), guid m (a + 32),
    guid m (a + 48)⟩
def readCpu (m : Mem) (a : Nat) : Cpu := ⟨readHeader m a, u8 m (a + 8), u8 m (a + 9), rd m (a + 10) 6⟩

/-! `size_of` of the structures above. -/
def HEADER_SIZE : Nat := 8
def HANDOFF_SIZE : Nat := 56
def ALLOC_SIZE : Nat := 48
def MODULE_SIZE : Nat := 72
def RESOURCE_SIZE : Nat := 48
def RESOURCE2_SIZE : Nat := 56
def GUID_SIZE : Nat := 24
def FV_SIZE : Nat := 24
def FV2_SIZE : Nat := 56
def FV3_SIZE : Nat := 64
def CPU_SIZE : Nat := 16
def CAPSULE_SIZE : Nat := 24

/-! HOB types, lines 105-118. -/
def HANDOFF : UInt16 := 0x0001
def MEMORY_ALLOCATION : UInt16 := 0x0002
def RESOURCE_DESCRIPTOR : UInt16 := 0x0003
def GUID_EXTENSION : UInt16 := 0x0004
def FV : UInt16 := 0x0005
def CPU : UInt16 := 0x0006
def FV2 : UInt16 := 0x0009
def UEFI_CAPSULE : UInt16 := 0x000B
def FV3 : UInt16 := 0x000C
def RESOURCE_DESCRIPTOR2 : UInt16 := 0x000D
def END_OF_HOB_LIST : UInt16 := 0xFFFF

/-- `Hob`, lines 648-662. Every reference is the address it points to; the data slice of a GUID HOB is an
address and a length. -/
inductive Hob where
  | handoff (a : Nat)
  | alloc (a : Nat)
  | module (a : Nat)
  | capsule (a : Nat)
  | resource (a : Nat)
  | guid (a : Nat) (data len : Nat)
  | fv (a : Nat)
  | fv2 (a : Nat)
  | fv3 (a : Nat)
  | cpu (a : Nat)
  | resource2 (a : Nat)
  | misc (type : UInt16)
deriving DecidableEq, Repr

/-- What is found in memory through the references of a `Hob`. -/
inductive View where
  | handoff (h : Handoff)
  | alloc (h : MemoryAllocation)
  | module (h : MemoryAllocationModule)
  | capsule (h : FirmwareVolume)
  | resource (h : ResourceDescriptor)
  | guid (h : GuidHob) (data : List UInt8)
  | fv (h : FirmwareVolume)
  | fv2 (h : FirmwareVolume2)
  | fv3 (h : FirmwareVolume3)
  | cpu (h : Cpu)
  | resource2 (h : ResourceDescriptorV2)
  | misc (type : UInt16)
deriving DecidableEq, Repr

def view (m : Mem) : Hob → View
  | .handoff a => .handoff (readHandoff m a)
  | .alloc a => .alloc (readAlloc m a)
  | .module a => .module (readModule m a)
  | .capsule a => .capsule (readFv m a)
  | .resource a => .resource (readResource m a)
  | .guid a d n => .guid (readGuid m a) (rd m d n)
  | .fv a => .fv (readFv m a)
  | .fv2 a => .fv2 (readFv2 m a)
  | .fv3 a => .fv3 (readFv3 m a)
  | .cpu a => .cpu (readCpu m a)
  | .resource2 a => .resource2 (readResource2 m a)
  | .misc t => .misc t

/-- Outcome of a walk. -/
inductive Res (α : Type) where
  | ok (a : α)
  | panic
  /-- the loop has not ended within the step budget -/
  | running
deriving DecidableEq, Repr

def Res.bind {α β : Type} (x : Res α) (f : α → Res β) : Res β :=
  match x with
  | ok a => f a
  | panic => panic
  | running => running

/-- `assert_hob_size`, lines 925-933. -/
def assertSize (h : Header) (size : Nat) (hob : Hob) : Res Hob :=
  if h.length.toNat = size then .ok hob else .panic

/-- `hob.header.length as usize - size_of::<GuidHob>()`, lines 970 and 1291: panics below zero with
overflow checks, wraps without them. -/
def dataLen (dbg : Bool) (h : Header) : Res Nat :=
  if GUID_SIZE ≤ h.length.toNat then .ok (h.length.toNat - GUID_SIZE)
  else if dbg then .panic
  else .ok (h.length.toNat + 2 ^ 64 - GUID_SIZE)

/-- The memory allocation arm, lines 946-956. -/
def allocHob (h : Header) (a : Nat) : Res Hob :=
  if h.length.toNat = MODULE_SIZE then .ok (.module a) else assertSize h ALLOC_SIZE (.alloc a)

/-- One HOB of `discover_hobs`, lines 939-1008 (the end marker is handled in `discover`). -/
def discoverOne (dbg : Bool) (m : Mem) (a : Nat) : Res Hob :=
  let h := readHeader m a
  if h.type = HANDOFF then assertSize h HANDOFF_SIZE (.handoff a)
  else if h.type = MEMORY_ALLOCATION then allocHob h a
  else if h.type = RESOURCE_DESCRIPTOR then assertSize h RESOURCE_SIZE (.resource a)
  else if h.type = GUID_EXTENSION then
    (dataLen dbg h).bind fun n => .ok (.guid a (a + GUID_SIZE) n)
  else if h.type = FV then assertSize h FV_SIZE (.fv a)
  else if h.type = FV2 then assertSize h FV2_SIZE (.fv2 a)
  else if h.type = FV3 then assertSize h FV3_SIZE (.fv3 a)
  else if h.type = CPU then assertSize h CPU_SIZE (.cpu a)
  else if h.type = UEFI_CAPSULE then assertSize h CAPSULE_SIZE (.capsule a)
  else if h.type = RESOURCE_DESCRIPTOR2 then assertSize h RESOURCE2_SIZE (.resource2 a)
  else .ok (.misc h.type)

/-- `hob_header as usize + current_header.length as usize`, lines 1009 and 1308. -/
def nextAddr (dbg : Bool) (a : Nat) (h : Header) : Res Nat :=
  if dbg && decide (2 ^ 64 ≤ a + h.length.toNat) then .panic
  else .ok ((a + h.length.toNat) % 2 ^ 64)

/-- `HobList::discover_hobs`, lines 923-1013: the list grows by what the walk finds. A null pointer fails
the `expect` of line 938. -/
def discover (dbg : Bool) (m : Mem) : Nat → Nat → List Hob → Res (List Hob)
  | 0, _, _ => .running
  | fuel + 1, a, l =>
    if a = 0 then .panic
    else if (readHeader m a).type = END_OF_HOB_LIST then .ok l
    else (discoverOne dbg m a).bind fun h =>
      (nextAddr dbg a (readHeader m a)).bind fun a' => discover dbg m fuel a' (l ++ [h])

/-- One HOB of `HobIter::next`, lines 1273-1307. There is no size check, and the resource descriptor of
version 2 (line 1302) is read through a pointer cast to `*const &ResourceDescriptorV2`: the first eight
bytes of the HOB are taken for the address of the structure. -/
def iterOne (dbg : Bool) (m : Mem) (a : Nat) : Res Hob :=
  let h := readHeader m a
  if h.type = HANDOFF then .ok (.handoff a)
  else if h.type = MEMORY_ALLOCATION ∧ h.length.toNat = MODULE_SIZE then .ok (.module a)
  else if h.type = MEMORY_ALLOCATION then .ok (.alloc a)
  else if h.type = RESOURCE_DESCRIPTOR then .ok (.resource a)
  else if h.type = GUID_EXTENSION then
    (dataLen dbg h).bind fun n => .ok (.guid a (a + GUID_SIZE) n)
  else if h.type = FV then .ok (.fv a)
  else if h.type = FV2 then .ok (.fv2 a)
  else if h.type = FV3 then .ok (.fv3 a)
  else if h.type = CPU then .ok (.cpu a)
  else if h.type = UEFI_CAPSULE then .ok (.capsule a)
  else if h.type = RESOURCE_DESCRIPTOR2 then .ok (.resource2 (u64 m a).toNat)
  else .ok (.misc h.type)

/-- A `for` loop over a `HobIter` (lines 1254-1311) started at `a`: what it yields. -/
def iterate (dbg : Bool) (m : Mem) : Nat → Nat → Res (List Hob)
  | 0, _ => .running
  | fuel + 1, a =>
    if (readHeader m a).type = END_OF_HOB_LIST then .ok []
    else (iterOne dbg m a).bind fun h =>
      (nextAddr dbg a (readHeader m a)).bind fun a' =>
        (iterate dbg m fuel a').bind fun l => .ok (h :: l)

/-- The loop of `get_c_hob_list_size`, lines 738-754 (the sum of 16-bit lengths cannot reach `2^64` in a
walk of fewer than `2^48` steps; its overflow is not modelled). -/
def cListSize (dbg : Bool) (m : Mem) : Nat → Nat → Nat → Res Nat
  | 0, _, _ => .running
  | fuel + 1, a, n =>
    if a = 0 then .panic
    else if (readHeader m a).type = END_OF_HOB_LIST then .ok (n + (readHeader m a).length.toNat)
    else (nextAddr dbg a (readHeader m a)).bind fun a' =>
      cListSize dbg m fuel a' (n + (readHeader m a).length.toNat)

/-- `Hob::size`, lines 672-687. -/
def size (m : Mem) : Hob → Nat
  | .handoff _ => HANDOFF_SIZE
  | .alloc _ => ALLOC_SIZE
  | .module _ => MODULE_SIZE
  | .capsule _ => CAPSULE_SIZE
  | .resource _ => RESOURCE_SIZE
  | .guid a _ _ => (readHeader m a).length.toNat
  | .fv _ => FV_SIZE
  | .fv2 _ => FV2_SIZE
  | .fv3 _ => FV3_SIZE
  | .cpu _ => CPU_SIZE
  | .resource2 _ => RESOURCE2_SIZE
  | .misc _ => 2

/-- `HobList::size`, lines 820-828. -/
def listSize (m : Mem) : List Hob → Nat
  | [] => 0
  | h :: l => size m h + listSize m l

/-- `Hob::header`, lines 1231-1249. -/
def header (m : Mem) : Hob → Header
  | .handoff a => readHeader m a
  | .alloc a => readHeader m a
  | .module a => readHeader m a
  | .capsule a => readHeader m a
  | .resource a => readHeader m a
  | .guid a _ _ => readHeader m a
  | .fv a => readHeader m a
  | .fv2 a => readHeader m a
  | .fv3 a => readHeader m a
  | .cpu a => readHeader m a
  | .resource2 a => readHeader m a
  | .misc t => ⟨t, 8, 0⟩

/-- `Box::leak(Box::new(T::clone(hob)))`: the `n` bytes at `a` are copied to the block `b`. (Padding is
copied too; no field depends on it.) -/
def copyTo (m : Mem) (a n b : Nat) : Mem := wr m b (rd m a n)

/-- `HobList::relocate_hobs`, lines 1034-1054, one HOB. `b` and `d` are the addresses the allocator returns
for the structure and for the data of a GUID HOB. -/
def relocateOne (m : Mem) (b d : Nat) : Hob → Mem × Hob
  | .handoff a => (copyTo m a HANDOFF_SIZE b, .handoff b)
  | .alloc a => (copyTo m a ALLOC_SIZE b, .alloc b)
  | .module a => (copyTo m a MODULE_SIZE b, .module b)
  | .capsule a => (copyTo m a CAPSULE_SIZE b, .capsule b)
  | .resource a => (copyTo m a RESOURCE_SIZE b, .resource b)
  | .guid a x n => (copyTo (copyTo m a GUID_SIZE b) x n d, .guid b d n)
  | .fv a => (copyTo m a FV_SIZE b, .fv b)
  | .fv2 a => (copyTo m a FV2_SIZE b, .fv2 b)
  | .fv3 a => (copyTo m a FV3_SIZE b, .fv3 b)
  | .cpu a => (copyTo m a CPU_SIZE b, .cpu b)
  | .resource2 a => (copyTo m a RESOURCE2_SIZE b, .resource2 b)
  | .misc t => (m, .misc t)

/-- The loop of `relocate_hobs`; `blocks` lists the addresses the allocator returns, in order. -/
def relocate (m : Mem) : List (Nat × Nat) → List Hob → Mem × List Hob
  | (b, d) :: bs, h :: l =>
    let r := relocateOne m b d h
    let r' := relocate r.1 bs l
    (r'.1, r.2 :: r'.2)
  | _, l => (m, l)

end Verif.Hob
