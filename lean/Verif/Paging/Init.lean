import Verif.Paging.Model
import Verif.Base.Model
/-!
Model of `SpinLockedGcd::init_paging`, `/repo/patina_dxe_core/src/gcd/spin_locked_gcd.rs` lines 2031-2206: what is mapped in the
first page table of the core.

* The page table is modelled as in `Model.lean`. The memory for its root is taken before (`create_cpu_paging`, line 2035): the
  memory space the model starts from is the one after that. Installing the table (line 2203) is left out.
* The HOB list is modelled by the base and length of its `MemoryAllocationModule` HOBs, in order. Reading the image of the core
  (`UefiPeInfo::parse`) is a parameter: which sections and which section alignment it finds at an address.
* `failed` counts the errors that are logged and carried on from, `calls` is the list of the attributes that were asked to be set;
  how the page table behaves may be different for each of them (`fs`).
-/
namespace Verif.Paging
open Verif.Gcd

/-- A section of the image of the core: `virtual_address`, `virtual_size` and `characteristics` of goblin's `SectionTable`. -/
structure CoreSection where
  address : Nat
  size : Nat
  flags : Nat
deriving DecidableEq, Repr

/-- The fields of `UefiPeInfo` that lines 2092-2155 use. -/
structure CorePe where
  alignment : Nat
  sections : List CoreSection
deriving DecidableEq, Repr

/-- One call of `set_memory_space_attributes`. -/
structure SetCall where
  base : Nat
  len : Nat
  attrs : Nat
deriving DecidableEq, Repr

/-- The state of `init_paging`. -/
structure Init where
  mem : Mem
  failed : Nat
  calls : List SetCall

/-- What became of it: it hangs, it panics, or it has come so far. -/
inductive Progress where
  | hangs
  | panics
  | at (s : Init)

def Progress.then (p : Progress) (k : Init → Progress) : Progress :=
  match p with
  | .at s => k s
  | p => p

/-- `set_memory_space_attributes`, lines 2397-2484; the loop makes at most `len` rounds inside the memory space. `onErr` is what
is done with an error. -/
def Init.call (dbg : Bool) (fs : Nat → Faults) (s : Init) (c : SetCall) (onErr : Init → Progress) : Progress :=
  match s.mem.setAttributes dbg (fs s.calls.length) (c.len + 1) c.base c.len c.attrs with
  | none => .hangs
  | some (.ok _, m) => .at { s with mem := m, calls := s.calls ++ [c] }
  | some (.err _, m) => onErr { s with mem := m, calls := s.calls ++ [c] }
  | some (.panic, _) => .panics

/-- An error is logged, and a debug build stops there: lines 2066-2083, 2177-2190, 2195-2201. -/
def Init.attempt (dbg : Bool) (fs : Nat → Faults) (s : Init) (c : SetCall) : Progress :=
  s.call dbg fs c fun s => if dbg then .panics else .at { s with failed := s.failed + 1 }

/-- An error is a panic: lines 2106-2117, 2147-2154. -/
def Init.must (dbg : Bool) (fs : Nat → Faults) (s : Init) (c : SetCall) : Progress :=
  s.call dbg fs c fun _ => .panics

/-- Lines 1007-1014 and 2057-2071: the calls for allocated memory. -/
def allocatedCalls (l : List (Block Cell)) : List SetCall :=
  (l.filter fun b => b.st.allocated).map fun b => ⟨b.base, b.len, (b.st.attrs &&& CACHE_ATTRIBUTE_MASK) ||| MEMORY_XP⟩

/-- Lines 1027-1037: MMIO and reserved memory that is not allocated. -/
def mmioBlocks (l : List (Block Cell)) : List (Block Cell) :=
  l.filter fun b => !b.st.allocated && (b.st.type = .memoryMappedIo || b.st.type = .reserved)

/-- Lines 2161-2163: widened to pages, as the code does it. -/
def mmioCall (b : Block Cell) : SetCall :=
  ⟨b.base / 4096 * 4096, addw b.len 0xFFF / 4096 * 4096, (b.st.attrs &&& CACHE_ATTRIBUTE_MASK) ||| MEMORY_XP⟩

/-- Lines 2057-2083 -/
def Init.attemptAll (dbg : Bool) (fs : Nat → Faults) : Init → List SetCall → Progress
  | s, [] => .at s
  | s, c :: l => (s.attempt dbg fs c).then fun s => Init.attemptAll dbg fs s l

/-- Lines 2158-2191; `desc.length as usize + UEFI_PAGE_MASK` is checked for overflow in debug builds. -/
def Init.mmio (dbg : Bool) (fs : Nat → Faults) : Init → List (Block Cell) → Progress
  | s, [] => .at s
  | s, b :: l =>
    if dbg = true ∧ W ≤ b.len + 0xFFF then .panics
    else (s.attempt dbg fs (mmioCall b)).then fun s => Init.mmio dbg fs s l

/-- Lines 2125-2128 (`IMAGE_SCN_CNT_CODE` is 0x20) -/
def CoreSection.protection (c : CoreSection) : Nat := if c.flags &&& 0x20 = 0x20 then MEMORY_RO else MEMORY_XP

/-- Lines 2120-2155, one section -/
def Init.section (dbg : Bool) (fs : Nat → Faults) (image alignment : Nat) (s : Init) (c : CoreSection) : Progress :=
  if dbg = true ∧ W ≤ image + c.address then .panics
  else match Base.alignUp 32 c.size alignment with
    | .ok size =>
      match s.mem.gcd.descriptorFor image with
      | .ok d => s.must dbg fs ⟨addw image c.address, size, c.protection ||| (d.st.attrs &&& CACHE_ATTRIBUTE_MASK)⟩
      | _ => .panics
    | _ => .panics

/-- Lines 2120-2155 -/
def Init.sections (dbg : Bool) (fs : Nat → Faults) (image alignment : Nat) : Init → List CoreSection → Progress
  | s, [] => .at s
  | s, c :: l => (s.section dbg fs image alignment c).then fun s => Init.sections dbg fs image alignment s l

/-- Lines 2099-2155: the image of the core at `[base, base + len)`. -/
def Init.image (dbg : Bool) (fs : Nat → Faults) (base len : Nat) (pe : CorePe) (s : Init) : Progress :=
  match s.mem.gcd.descriptorFor base with
  | .ok d =>
    (s.must dbg fs ⟨base, len, MEMORY_XP ||| (d.st.attrs &&& CACHE_ATTRIBUTE_MASK)⟩).then fun s =>
      Init.sections dbg fs base pe.alignment s pe.sections
  | _ => .panics

/-- Lines 2193-2201 -/
def Init.zero (dbg : Bool) (fs : Nat → Faults) (s : Init) : Progress :=
  match s.mem.gcd.descriptorFor 0 with
  | .ok d => if d.st.type ≠ .nonExistent then s.attempt dbg fs ⟨0, 4096, MEMORY_RP⟩ else .at s
  | _ => .at s

/-- `init_paging`, lines 2031-2206. The descriptors are collected before any attribute is changed (lines 2037-2054; the memory
space must be set up). -/
def initPaging (dbg : Bool) (fs : Nat → Faults) (parse : Nat → Nat → Option CorePe) (modules : List (Nat × Nat)) (m : Mem) : Progress :=
  if m.gcd.max = 0 then .panics
  else
    (Init.attemptAll dbg fs ⟨{ m with table := some fun _ => none }, 0, []⟩ (allocatedCalls m.gcd.blocks)).then fun s =>
      match modules with
      | [] => .panics
      | (base, len) :: _ =>
        match parse base len with
        | none => .panics
        | some pe =>
          (s.image dbg fs base len pe).then fun s => (s.mmio dbg fs (mmioBlocks m.gcd.blocks)).then fun s => s.zero dbg fs

end Verif.Paging
