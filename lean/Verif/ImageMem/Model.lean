import Verif.Paging.WalkProps
import Verif.Base.Props
/-!
Model of what loading, unloading and starting an image do to the memory the image and its stack occupy:
`/repo/patina_dxe_core/src/image.rs`, lines 68-150 (stack), 177-240 (image buffer), 370-493 (memory protections).

Sections are what the parsed header says about them. Each section comes with the failures of the page table while it is
dealt with. `debug_assert!(false)` is `dbgFail`. Log output is left out.
-/
namespace Verif.ImageMem
open Verif.Gcd Verif.Paging

/-- A section of the header, as far as the protections depend on it: `virtual_address`, `virtual_size` and `characteristics`, 32-bit
numbers. -/
structure Section where
  address : Nat
  size : Nat
  flags : Nat
deriving DecidableEq, Repr

/-- `IMAGE_SCN_CNT_CODE`, `IMAGE_SCN_MEM_READ`, `IMAGE_SCN_MEM_WRITE` (PE/COFF specification; pecoff.rs line 20, goblin). -/
def CNT_CODE : Nat := 0x20
def MEM_READ : Nat := 0x40000000
def MEM_WRITE : Nat := 0x80000000

/-- `efi::MEMORY_ATTRIBUTE_MASK`: the access attributes, `MEMORY_SP` and `MEMORY_CPU_CRYPTO`. -/
def MEMORY_ATTRIBUTE_MASK : Nat := MEMORY_ACCESS_MASK ||| 0x40000 ||| 0x80000

/-- Lines 372-381 -/
def sectionAccess (flags : Nat) : Nat :=
  if flags &&& MEM_WRITE = 0 ∧ flags &&& MEM_READ = MEM_READ then
    (if flags &&& CNT_CODE = CNT_CODE then MEMORY_RO else MEMORY_XP) ||| MEMORY_RO
  else if flags &&& CNT_CODE = CNT_CODE then MEMORY_RO else MEMORY_XP

/-- The result of setting the attributes of a section: errors are logged only. -/
def logged : Option (Outcome EfiError Unit × Mem) → Option (Outcome EfiError Unit × Mem)
  | some (.panic, m) => some (.panic, m)
  | some (_, m) => some (.ok (), m)
  | none => none

/-- `apply_image_memory_protections`, the body of the loop, lines 371-446. (`nodeSize` is a parameter of `Mem.step`.) -/
def protectSection (dbg : Bool) (nodeSize : Nat) (base align : Nat) (m : Mem) (s : Section) (f : Faults) : Option (Outcome EfiError Unit × Mem) :=
  if dbg = true ∧ W ≤ base + s.address then some (.panic, m)
  else match m.gcd.descriptorFor (addw base s.address) with
    | .ok d =>
      match Base.alignUp 32 s.size align with
      | .ok n =>
        logged ((m.setCapabilities (addw base s.address) n (sectionAccess s.flags ||| d.st.caps)).2.step dbg nodeSize f
          (.setAttributes (addw base s.address) n (sectionAccess s.flags ||| andNot d.st.attrs MEMORY_ACCESS_MASK)))
      | _ => some (dbgFail dbg (.ok ()), m)
    | _ => some (dbgFail dbg (.ok ()), m)

/-- `remove_image_memory_protections`, the body of the loop, lines 450-492. (A missing descriptor is only logged.) -/
def unprotectSection (dbg : Bool) (nodeSize : Nat) (base align : Nat) (m : Mem) (s : Section) (f : Faults) : Option (Outcome EfiError Unit × Mem) :=
  if dbg = true ∧ W ≤ base + s.address then some (.panic, m)
  else match m.gcd.descriptorFor (addw base s.address) with
    | .ok d =>
      match Base.alignUp 32 s.size align with
      | .ok n =>
        logged (m.step dbg nodeSize f (.setAttributes (addw base s.address) n (andNot d.st.attrs MEMORY_ATTRIBUTE_MASK ||| MEMORY_XP)))
      | _ => some (dbgFail dbg (.ok ()), m)
    | _ => some (.ok (), m)

/-- Both loops: one section after the other. -/
def eachSection (body : Mem → Section → Faults → Option (Outcome EfiError Unit × Mem)) : List (Section × Faults) → Mem → Option (Outcome EfiError Unit × Mem)
  | [], m => some (.ok (), m)
  | (s, f) :: l, m =>
    match body m s f with
    | some (.ok _, m) => eachSection body l m
    | r => r

/-- `apply_image_memory_protections`, lines 370-447 -/
def protect (dbg : Bool) (nodeSize base align : Nat) (l : List (Section × Faults)) (m : Mem) : Option (Outcome EfiError Unit × Mem) :=
  eachSection (protectSection dbg nodeSize base align) l m

/-- `remove_image_memory_protections`, lines 449-493 -/
def unprotect (dbg : Bool) (nodeSize base align : Nat) (l : List (Section × Faults)) (m : Mem) : Option (Outcome EfiError Unit × Mem) :=
  eachSection (unprotectSection dbg nodeSize base align) l m

/-! ### The stack of an image -/

/-- `DEFAULT_CACHE_ATTR`, sdk/patina/src/base.rs: write-back. -/
def DEFAULT_CACHE_ATTR : Nat := MEMORY_WB

/-- `ImageStack::new`, lines 84-97: the lowest page of the allocation is made the guard page. -/
def guard (dbg : Bool) (nodeSize : Nat) (f : Faults) (m : Mem) (stack : Nat) : Option (Outcome EfiError Unit × Mem) :=
  logged (m.step dbg nodeSize f (.setAttributes stack 4096
    ((match m.gcd.descriptorFor stack with | .ok d => d.st.attrs | _ => DEFAULT_CACHE_ATTR) ||| MEMORY_RP)))

/-- `ImageStack::drop`, lines 110-131: the guard page becomes an ordinary page again. -/
def unguard (dbg : Bool) (nodeSize : Nat) (f : Faults) (m : Mem) (stack : Nat) : Option (Outcome EfiError Unit × Mem) :=
  logged (m.step dbg nodeSize f (.setAttributes stack 4096
    ((match m.gcd.descriptorFor stack with | .ok d => andNot d.st.attrs MEMORY_ATTRIBUTE_MASK | _ => DEFAULT_CACHE_ATTR) ||| MEMORY_XP)))

/-- `ImageStack::new`, lines 76-79 and 100-104: how many pages are allocated for a stack of `size` bytes, and how long the stack is.
`MIN_STACK_SIZE` and `STACK_ALIGNMENT` are constants of the corosensei crate. -/
def stackPages (minSize alignment size : Nat) : Outcome EfiError (Nat × Nat) :=
  match Base.alignUp 64 (max size minSize) alignment with
  | .ok len => .ok ((len + 4095) / 4096 + 1, len)
  | .err e => .err e
  | .panic => .panic

/-! ### The buffer of an image -/

/-- `PrivateImageData::new`, lines 183-198: how many pages are allocated for an image of `size` bytes; `None`: refused. -/
def imagePages (size align : Nat) : Option Nat :=
  if 4096 < align then
    if size + align < W then some ((size + align + 4095) / 4096) else none
  else some ((size + 4095) / 4096)

/-- Lines 208-212: where in the allocation the image begins. -/
def imageStart (page align : Nat) : Outcome EfiError Nat :=
  if page = 0 then .err .outOfResources
  else match Base.alignUp 64 page align with
    | .ok a => .ok a
    | .err _ => .err .loadError
    | .panic => .panic

end Verif.ImageMem
