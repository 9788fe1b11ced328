import Verif.Paging.Witness
/-!
Model of the two services that change attributes relative to what they are:

* the memory attribute protocol, `/repo/patina_dxe_core/src/memory_attributes_protocol.rs` lines 26-188 (null pointers are
  left out);
* `set_page_attributes` and `get_page_attributes` of the memory manager service, `memory_manager.rs` lines 92-200, with
  `AccessType` and `CachingType`, `/repo/sdk/patina/src/component/service/memory.rs` lines 685-775.
-/
namespace Verif.Paging
open Verif.Gcd

/-- How the loop ends early: a descriptor is not found, or the attributes are not set. -/
inductive WalkError where
  | lookup
  | set
deriving DecidableEq, Repr

/-- The loop both services share, memory_attributes_protocol.rs lines 92-127 and 152-187, memory_manager.rs lines 124-160: each
descriptor of the range, or the part of it inside the range, gets `upd` of the attributes it has. A debug build checks
`next_base - current_base` for overflow. `none`: it has not ended after that many rounds. -/
def Mem.walk (dbg : Bool) (f : Faults) (upd : Nat → Nat) (stop : Nat) : Nat → Mem → Nat → Option (Outcome WalkError Unit × Mem)
  | 0, _, _ => none
  | n + 1, m, cur =>
    if cur < stop then
      match m.gcd.descriptorFor cur with
      | .ok d =>
        if dbg = true ∧ min (addw d.base d.len) stop < cur then some (.panic, m)
        else
          match m.coreSetAttributes dbg f (subw (min (addw d.base d.len) stop) cur + 1) cur (subw (min (addw d.base d.len) stop) cur) (upd d.st.attrs) with
          | some (.ok _, m) => Mem.walk dbg f upd stop n m (min (addw d.base d.len) stop)
          | some (.err _, m) => some (.err .set, m)
          | some (.panic, m) => some (.panic, m)
          | none => none
      | .err _ => some (.err .lookup, m)
      | .panic => some (.panic, m)
    else some (.ok (), m)

/-! ### The memory attribute protocol -/

/-- The statuses the protocol returns. -/
inductive AttrError where
  | invalidParameter
  | noMapping
  | unsupported
deriving DecidableEq, Repr

/-- Lines 79-88, 139-148: are the arguments of `set_memory_attributes` and `clear_memory_attributes` refused? -/
def badRequest (base len attrs : Nat) : Bool :=
  decide (base &&& UEFI_PAGE_MASK ≠ 0 ∨ len &&& UEFI_PAGE_MASK ≠ 0 ∨ attrs = 0 ∨ attrs &&& MEMORY_ACCESS_MASK ≠ attrs)

/-- Both kinds of error of the loop are reported as unsupported. -/
def unsupportedOf : Option (Outcome WalkError Unit × Mem) → Option (Outcome AttrError Unit × Mem)
  | some (.ok _, m) => some (.ok (), m)
  | some (.err _, m) => some (.err .unsupported, m)
  | some (.panic, m) => some (.panic, m)
  | none => none

/-- `set_memory_attributes`, lines 72-128; `rounds` bounds the loop. -/
def Mem.setMemoryAttributes (dbg : Bool) (f : Faults) (rounds : Nat) (m : Mem) (base len attrs : Nat) : Option (Outcome AttrError Unit × Mem) :=
  if badRequest base len attrs = true then some (.err .invalidParameter, m)
  else if dbg = true ∧ W ≤ base + len then some (.panic, m)
  else unsupportedOf (m.walk dbg f (fun a => a ||| attrs) (addw base len) rounds base)

/-- `a & !b` -/
def andNot (a b : Nat) : Nat := a &&& (W - 1 - b)

/-- `clear_memory_attributes`, lines 130-188 -/
def Mem.clearMemoryAttributes (dbg : Bool) (f : Faults) (rounds : Nat) (m : Mem) (base len attrs : Nat) : Option (Outcome AttrError Unit × Mem) :=
  if badRequest base len attrs = true then some (.err .invalidParameter, m)
  else if dbg = true ∧ W ≤ base + len then some (.panic, m)
  else unsupportedOf (m.walk dbg f (fun a => andNot a attrs) (addw base len) rounds base)

/-- `get_memory_attributes`, lines 26-70 -/
def Mem.getMemoryAttributes (m : Mem) (base len : Nat) : Outcome AttrError Nat :=
  if base &&& UEFI_PAGE_MASK ≠ 0 ∨ len &&& UEFI_PAGE_MASK ≠ 0 then .err .invalidParameter
  else match m.gcd.descriptorFor base with
    | .ok d => if d.base ≠ base ∨ d.len ≠ len then .err .noMapping else .ok (d.st.attrs &&& MEMORY_ACCESS_MASK)
    | .err _ => .err .noMapping
    | .panic => .panic

/-! ### The memory manager service -/

/-- `AccessType`, memory.rs lines 681-702 -/
inductive AccessType where
  | noAccess
  | readOnly
  | readWrite
  | readExecute
  | readWriteExecute
deriving DecidableEq, Repr

/-- `AccessType::from_efi_attributes`, lines 719-735 -/
def AccessType.ofAttributes (a : Nat) : AccessType :=
  if a &&& MEMORY_RP ≠ 0 then .noAccess
  else if a &&& (MEMORY_RO ||| MEMORY_XP) = MEMORY_RO then .readExecute
  else if a &&& (MEMORY_RO ||| MEMORY_XP) = MEMORY_XP then .readWrite
  else if a &&& (MEMORY_RO ||| MEMORY_XP) = MEMORY_RO ||| MEMORY_XP then .readOnly
  else .readWriteExecute

/-- `CachingType`, lines 738-754 -/
inductive CachingType where
  | uncached
  | writeCombining
  | writeBack
  | writeThrough
  | writeProtect
deriving DecidableEq, Repr

/-- `CachingType::from_efi_attributes`, lines 765-774; `MEMORY_UC` 1, `WC` 2, `WT` 4, `WB` 8, `WP` 0x1000. -/
def CachingType.ofAttributes (a : Nat) : Option CachingType :=
  if a &&& CACHE_ATTRIBUTE_MASK = MEMORY_WB then some .writeBack
  else if a &&& CACHE_ATTRIBUTE_MASK = 2 then some .writeCombining
  else if a &&& CACHE_ATTRIBUTE_MASK = 4 then some .writeThrough
  else if a &&& CACHE_ATTRIBUTE_MASK = 1 then some .uncached
  else if a &&& CACHE_ATTRIBUTE_MASK = 0x1000 then some .writeProtect
  else none

/-- `MemoryError`, lines 778-800; those the two functions return. -/
inductive MemoryError where
  | internalError
  | unalignedAddress
  | invalidAddress
  | inconsistentRangeAttributes
  | invalidPageCount
  | unsupportedAttributes
deriving DecidableEq, Repr

/-- memory_manager.rs lines 107-113 -/
def accessAttributes : AccessType → Option Nat
  | .noAccess => some MEMORY_RP
  | .readOnly => some (MEMORY_RO ||| MEMORY_XP)
  | .readWrite => some MEMORY_XP
  | .readExecute => some MEMORY_RO
  | .readWriteExecute => none

/-- Lines 115-122; `none`: not supported, `some none`: left as it is. -/
def cacheAttributes : Option CachingType → Option (Option Nat)
  | some .uncached => some (some 1)
  | some .writeBack => some (some MEMORY_WB)
  | some .writeCombining => some (some 2)
  | some .writeThrough => some (some 4)
  | some .writeProtect => none
  | none => some none

/-- Lines 143-151 -/
def newAttributes (access : Nat) (cache : Option Nat) (old : Nat) : Nat :=
  match cache with
  | some c => andNot (andNot old MEMORY_ACCESS_MASK ||| access) CACHE_ATTRIBUTE_MASK ||| c
  | none => andNot old MEMORY_ACCESS_MASK ||| access

/-- How the two kinds of error of the loop are reported, lines 131 and 155. -/
def memoryErrorOf : Option (Outcome WalkError Unit × Mem) → Option (Outcome MemoryError Unit × Mem)
  | some (.ok _, m) => some (.ok (), m)
  | some (.err .lookup, m) => some (.err .invalidAddress, m)
  | some (.err .set, m) => some (.err .internalError, m)
  | some (.panic, m) => some (.panic, m)
  | none => none

/-- `set_page_attributes`, lines 92-163 -/
def Mem.setPageAttributes (dbg : Bool) (f : Faults) (rounds : Nat) (m : Mem) (address count : Nat) (access : AccessType)
    (caching : Option CachingType) : Option (Outcome MemoryError Unit × Mem) :=
  if count = 0 then some (.err .invalidPageCount, m)
  else if address % 4096 ≠ 0 then some (.err .unalignedAddress, m)
  else match accessAttributes access, cacheAttributes caching with
    | none, _ => some (.err .unsupportedAttributes, m)
    | _, none => some (.err .unsupportedAttributes, m)
    | some a, some c =>
      if dbg = true ∧ (W ≤ count * 4096 ∨ W ≤ address + count * 4096) then some (.panic, m)
      else memoryErrorOf (m.walk dbg f (newAttributes a c) (addw address (count * 4096)) rounds address)

/-- `get_page_attributes`, lines 165-200 -/
def Mem.getPageAttributes (dbg : Bool) (m : Mem) (address count : Nat) : Outcome MemoryError (AccessType × CachingType) :=
  if count = 0 then .err .invalidPageCount
  else if address % 4096 ≠ 0 then .err .unalignedAddress
  else if dbg = true ∧ W ≤ count * 4096 then .panic
  else match m.gcd.descriptorFor address with
    | .ok d =>
      if dbg = true ∧ W ≤ address + count * 4096 % W then .panic
      else if addw d.base d.len < addw address (count * 4096) then .err .inconsistentRangeAttributes
      else .ok (AccessType.ofAttributes d.st.attrs, (CachingType.ofAttributes d.st.attrs).getD .writeBack)
    | .err _ => .err .invalidAddress
    | .panic => .panic

end Verif.Paging
