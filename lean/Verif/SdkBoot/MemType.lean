import Verif.Base.Model
/-!
Model of `EfiMemoryType`, `/repo/sdk/patina/src/efi_types.rs` lines 17-125, and of the address helpers of
`/repo/sdk/patina_pi/src/address_helper.rs` lines 17-42.
-/
namespace Verif.SdkBoot.MemType

/-- `EfiMemoryType`, efi_types.rs lines 17-59. The field of `CustomMemoryType` (lines 63-66) is private: values of it outside the module come from
`fromEfi` only. -/
inductive MemoryType
  | reservedMemoryType | loaderCode | loaderData | bootServicesCode | bootServicesData | runtimeServicesCode | runtimeServicesData
  | conventionalMemory | unusableMemory | acpiReclaimMemory | acpiMemoryNvs | memoryMappedIo | memoryMappedIoPortSpace | palCode
  | persistentMemory | unacceptedMemoryType
  | oem (v : Nat) | os (v : Nat)
deriving DecidableEq, Repr

/-- `EfiMemoryType::from_efi`, lines 73-97; the constants are those of `r_efi`, 0 to 15 in this order. -/
def fromEfi (v : Nat) : Except EfiError MemoryType :=
  if v = 0 then .ok .reservedMemoryType
  else if v = 1 then .ok .loaderCode
  else if v = 2 then .ok .loaderData
  else if v = 3 then .ok .bootServicesCode
  else if v = 4 then .ok .bootServicesData
  else if v = 5 then .ok .runtimeServicesCode
  else if v = 6 then .ok .runtimeServicesData
  else if v = 7 then .ok .conventionalMemory
  else if v = 8 then .ok .unusableMemory
  else if v = 9 then .ok .acpiReclaimMemory
  else if v = 10 then .ok .acpiMemoryNvs
  else if v = 11 then .ok .memoryMappedIo
  else if v = 12 then .ok .memoryMappedIoPortSpace
  else if v = 13 then .ok .palCode
  else if v = 14 then .ok .persistentMemory
  else if v = 15 then .ok .unacceptedMemoryType
  else if 0x70000000 ≤ v ∧ v ≤ 0x7FFFFFFF then .ok (.oem v)
  else if 0x80000000 ≤ v ∧ v ≤ 0xFFFFFFFF then .ok (.os v)
  else .error .invalidParameter

/-- `From<EfiMemoryType> for efi::MemoryType`, lines 100-125. -/
def toEfi : MemoryType → Nat
  | .reservedMemoryType => 0
  | .loaderCode => 1
  | .loaderData => 2
  | .bootServicesCode => 3
  | .bootServicesData => 4
  | .runtimeServicesCode => 5
  | .runtimeServicesData => 6
  | .conventionalMemory => 7
  | .unusableMemory => 8
  | .acpiReclaimMemory => 9
  | .acpiMemoryNvs => 10
  | .memoryMappedIo => 11
  | .memoryMappedIoPortSpace => 12
  | .palCode => 13
  | .persistentMemory => 14
  | .unacceptedMemoryType => 15
  | .oem v => v
  | .os v => v

/-- `align_down`, address_helper.rs lines 18-21, on numbers below `2^64`; `none` is a panic. `u64::is_power_of_two` is the check of the same name in base.rs. -/
def alignDown (addr align : Nat) : Option Nat :=
  if Base.isPowerOfTwo align then some (addr &&& Base.compl 64 (align - 1)) else none

/-- `align_up`, lines 29-42; `none` is a panic. -/
def alignUp (addr align : Nat) : Option Nat :=
  if Base.isPowerOfTwo align then
    if addr &&& (align - 1) = 0 then some addr
    else if (addr ||| (align - 1)) + 1 < 2 ^ 64 then some ((addr ||| (align - 1)) + 1) else none
  else none

end Verif.SdkBoot.MemType
