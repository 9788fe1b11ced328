import Verif.Hob.Model
/-!
What a HOB list in memory looks like (PI specification, volume 3, chapter 5), independently of the code that
walks it: a HOB is a header followed by the fields of its type, and a list is HOBs back to back up to a HOB
of the end type.
-/
namespace Verif.Hob

/-- The bytes `bs` are in memory at `a`. -/
def Holds (m : Mem) (a : Nat) (bs : List UInt8) : Prop :=
  ∀ (i : Nat) (b : UInt8), bs[i]? = some b → m (a + i) = b

def le16 (x : UInt16) : List UInt8 := leBytes 2 x.toNat
def le32 (x : UInt32) : List UInt8 := leBytes 4 x.toNat
def le64 (x : UInt64) : List UInt8 := leBytes 8 x.toNat

def Header.bytes (h : Header) : List UInt8 := le16 h.type ++ le16 h.length ++ le32 h.reserved

def AllocDesc.bytes (d : AllocDesc) : List UInt8 :=
  d.name ++ le64 d.base ++ le64 d.length ++ le32 d.type ++ d.reserved

def ResourceDescriptor.bytes (h : ResourceDescriptor) : List UInt8 :=
  h.header.bytes ++ h.owner ++ le32 h.resourceType ++ le32 h.attr ++ le64 h.start ++ le64 h.length

/-- A HOB as its producer means it. -/
inductive Item where
  | handoff (h : Handoff)
  | alloc (h : MemoryAllocation)
  | module (h : MemoryAllocationModule)
  | capsule (h : FirmwareVolume)
  | resource (h : ResourceDescriptor)
  | guid (h : GuidHob) (data : List UInt8)
  | fv (h : FirmwareVolume)
  | fv2 (h : FirmwareVolume2)
  /-- `pad`: the three bytes between `extracted` and `fvName` -/
  | fv3 (h : FirmwareVolume3) (pad : List UInt8)
  | cpu (h : Cpu)
  | resource2 (h : ResourceDescriptorV2)
  /-- a HOB of a type the code does not know -/
  | other (h : Header) (payload : List UInt8)

def Item.bytes : Item → List UInt8
  | .handoff h => h.header.bytes ++ le32 h.version ++ le32 h.bootMode ++ le64 h.memoryTop ++
      le64 h.memoryBottom ++ le64 h.freeMemoryTop ++ le64 h.freeMemoryBottom ++ le64 h.endOfHobList
  | .alloc h => h.header.bytes ++ h.desc.bytes
  | .module h => h.header.bytes ++ h.desc.bytes ++ h.moduleName ++ le64 h.entryPoint
  | .capsule h => h.header.bytes ++ le64 h.base ++ le64 h.length
  | .resource h => h.bytes
  | .guid h data => h.header.bytes ++ h.name ++ data
  | .fv h => h.header.bytes ++ le64 h.base ++ le64 h.length
  | .fv2 h => h.header.bytes ++ le64 h.base ++ le64 h.length ++ h.fvName ++ h.fileName
  | .fv3 h pad => h.header.bytes ++ le64 h.base ++ le64 h.length ++ le32 h.authStatus ++ [h.extracted] ++ pad ++
      h.fvName ++ h.fileName
  | .cpu h => h.header.bytes ++ [h.memorySpace, h.ioSpace] ++ h.reserved
  | .resource2 h => h.v1.bytes ++ le64 h.attributes
  | .other h payload => h.bytes ++ payload

def Item.header : Item → Header
  | .handoff h => h.header
  | .alloc h => h.header
  | .module h => h.header
  | .capsule h => h.header
  | .resource h => h.header
  | .guid h _ => h.header
  | .fv h => h.header
  | .fv2 h => h.header
  | .fv3 h _ => h.header
  | .cpu h => h.header
  | .resource2 h => h.v1.header
  | .other h _ => h

/-- The types with a meaning of their own: 1 handoff, 2 allocation, 3 resource, 4 GUID, 5, 9 and 12 volumes,
6 CPU, 11 capsule, 13 resource of version 2, 0xFFFF end. -/
def knownTypes : List UInt16 := [1, 2, 3, 4, 5, 6, 9, 11, 12, 13, 0xFFFF]

/-- The type of the header is the one of the HOB, and fixed-size fields have their size. -/
def Item.Typed : Item → Prop
  | .handoff h => h.header.type = 1
  | .alloc h => h.header.type = 2 ∧ h.desc.name.length = 16 ∧ h.desc.reserved.length = 4
  | .module h => h.header.type = 2 ∧ h.desc.name.length = 16 ∧ h.desc.reserved.length = 4 ∧
      h.moduleName.length = 16
  | .capsule h => h.header.type = 11
  | .resource h => h.header.type = 3 ∧ h.owner.length = 16
  | .guid h _ => h.header.type = 4 ∧ h.name.length = 16
  | .fv h => h.header.type = 5
  | .fv2 h => h.header.type = 9 ∧ h.fvName.length = 16 ∧ h.fileName.length = 16
  | .fv3 h pad => h.header.type = 12 ∧ pad.length = 3 ∧ h.fvName.length = 16 ∧ h.fileName.length = 16
  | .cpu h => h.header.type = 6 ∧ h.reserved.length = 6
  | .resource2 h => h.v1.header.type = 13 ∧ h.v1.owner.length = 16
  | .other h _ => h.type ∉ knownTypes

/-- A HOB the specification allows: typed, and its header states the number of bytes it occupies. -/
def Item.WellFormed (x : Item) : Prop := x.Typed ∧ x.header.length.toNat = x.bytes.length

/-- The bytes of the HOBs of a list, back to back. -/
def itemsBytes : List Item → List UInt8
  | [] => []
  | x :: xs => x.bytes ++ itemsBytes xs

/-- The memory at `a` holds a HOB list: the HOBs `xs` and an end marker with the header `e`. -/
structure ListAt (m : Mem) (a : Nat) (xs : List Item) (e : Header) : Prop where
  notNull : a ≠ 0
  holds : Holds m a (itemsBytes xs ++ e.bytes)
  inMemory : a + (itemsBytes xs ++ e.bytes).length ≤ 2 ^ 64
  wellFormed : ∀ x ∈ xs, x.WellFormed
  isEnd : e.type = 0xFFFF

/-- What a consumer is to see of a HOB: every field of it, and the whole data of a GUID HOB. Of a HOB of
unknown type it is told the type. -/
def Item.seen : Item → View
  | .handoff h => .handoff h
  | .alloc h => .alloc h
  | .module h => .module h
  | .capsule h => .capsule h
  | .resource h => .resource h
  | .guid h data => .guid h data
  | .fv h => .fv h
  | .fv2 h => .fv2 h
  | .fv3 h _ => .fv3 h
  | .cpu h => .cpu h
  | .resource2 h => .resource2 h
  | .other h _ => .misc h.type

/-- The regions of memory a `Hob` refers to: start and number of bytes. -/
def Hob.regions : Hob → List (Nat × Nat)
  | .handoff a => [(a, 56)]
  | .alloc a => [(a, 48)]
  | .module a => [(a, 72)]
  | .capsule a => [(a, 24)]
  | .resource a => [(a, 48)]
  | .guid a d n => [(a, 24), (d, n)]
  | .fv a => [(a, 24)]
  | .fv2 a => [(a, 56)]
  | .fv3 a => [(a, 64)]
  | .cpu a => [(a, 16)]
  | .resource2 a => [(a, 56)]
  | .misc _ => []

/-- No byte is in both regions. -/
def Apart (r s : Nat × Nat) : Prop := ∀ i j, i < r.2 → j < s.2 → r.1 + i ≠ s.1 + j

end Verif.Hob
