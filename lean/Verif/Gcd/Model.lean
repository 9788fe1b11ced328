import Verif.Gcd.Engine
import Verif.Base.Model
/-!
Model of the memory space of the GCD: `struct GCD`, `/repo/patina_dxe_core/src/gcd/spin_locked_gcd.rs` lines 279-1165, and of
the memory block transitions, `memory_block.rs` lines 185-313.

* `init` is called once, first; the model starts with the address width already set.
* `nodeSize` is `node_size::<MemoryBlock>()`; all theorems hold for every value.
* Release profile: wrapping arithmetic, no debug assertions. Log output is left out.
-/
namespace Verif.Gcd

/-- `GcdMemoryType`, dxe_services.rs lines 145-167 -/
inductive MemType where
  | nonExistent | reserved | systemMemory | memoryMappedIo | persistent | moreReliable | unaccepted
deriving DecidableEq, Repr

/-- A memory block apart from its range: the variant (`Allocated`/`Unallocated`, memory_block.rs lines 22-26) and the
other fields of `MemorySpaceDescriptor`, dxe_services.rs lines 186-207. Handles are numbers, 0 is the null handle. -/
structure Cell where
  allocated : Bool
  type : MemType
  caps : Nat
  attrs : Nat
  image : Nat
  device : Nat
deriving DecidableEq, Repr

/-- UEFI memory attribute bits (r-efi). -/
def MEMORY_RP : Nat := 0x2000
def MEMORY_XP : Nat := 0x4000
def MEMORY_RO : Nat := 0x20000
def MEMORY_WB : Nat := 0x8
def MEMORY_RUNTIME : Nat := 0x8000000000000000
def MEMORY_ISA_VALID : Nat := 0x4000000000000000
def MEMORY_ACCESS_MASK : Nat := MEMORY_RP ||| MEMORY_XP ||| MEMORY_RO
/-- UC, WC, WT, WB, UCE, WP -/
def CACHE_ATTRIBUTE_MASK : Nat := 0x101F

def UEFI_PAGE_SIZE : Nat := 4096
def UEFI_PAGE_MASK : Nat := 4095
def UEFI_PAGE_SHIFT : Nat := 12
/-- protocol_db.rs line 33 -/
def BOOT_DATA_HANDLE : Nat := 6
/-- `MEMORY_BLOCK_SLICE_LEN`, line 43 -/
def SLOTS : Nat := 4096

/-- `add_transition`, memory_block.rs lines 205-224 -/
def addTr (ty : MemType) (caps attrs : Nat) (c : Cell) : Option Cell :=
  if c.allocated = false ∧ c.type = .nonExistent ∧ ty ≠ .nonExistent then
    some { c with type := ty, caps := caps, attrs := attrs }
  else none

/-- `remove_transition`, memory_block.rs lines 226-235 -/
def removeTr (c : Cell) : Option Cell :=
  if c.allocated = false ∧ c.type ≠ .nonExistent then some { c with type := .nonExistent, caps := 0 } else none

/-- `allocate_transition`, memory_block.rs lines 237-264 -/
def allocTr (image : Nat) (device : Option Nat) (respect : Bool) (c : Cell) : Option Cell :=
  if c.allocated = false ∧ c.type ≠ .nonExistent ∧ c.type ≠ .unaccepted then
    if respect = true ∧ ¬ (c.image = 0 ∨ c.image = image) then none
    else some { c with allocated := true, image := image, device := device.getD c.device }
  else none

/-- `free_transition`, memory_block.rs lines 266-278 -/
def freeTr (preserve : Bool) (c : Cell) : Option Cell :=
  if c.allocated = true ∧ c.type ≠ .nonExistent then
    some { c with allocated := false, image := if preserve then c.image else 0, device := 0 }
  else none

/-- `attribute_transition`, memory_block.rs lines 280-294 -/
def attrTr (attrs : Nat) (c : Cell) : Option Cell :=
  if c.type ≠ .nonExistent then
    if (c.caps ||| attrs) ≠ c.caps then none else some { c with attrs := attrs }
  else none

/-- `capabilities_transition`, memory_block.rs lines 296-313 -/
def capsTr (caps : Nat) (c : Cell) : Option Cell :=
  if c.type ≠ .nonExistent then
    if (caps &&& c.attrs) ≠ c.attrs then none else some { c with caps := caps }
  else none

/-- `GCD`, lines 281-291. `cap` is the capacity of the tree (0 before the first `add_memory_space`); `locked` says which
pair of functions `allocate_memory_space_fn`/`free_memory_space_fn` holds. -/
structure Gcd where
  max : Nat
  cap : Nat
  blocks : List (Block Cell)
  locked : Bool
  prio32 : Bool
deriving DecidableEq, Repr

/-- `maximum_address: 1 << bits`, lines 336-338 -/
def Gcd.start (bits : Nat) (prio32 : Bool) : Gcd := ⟨oneShl bits, 0, [], false, prio32⟩

abbrev Ret (α : Type) := Outcome EfiError α × Gcd

/-- `changeAt` on the memory map. -/
def Gcd.change (g : Gcd) (base len : Nat) (tr : Cell → Option Cell) (onErr : Cell → BlockErr → EfiError) : Ret Unit :=
  ((changeAt g.cap g.blocks base len tr onErr).1, { g with blocks := (changeAt g.cap g.blocks base len tr onErr).2 })

/-- Lines 431-437 -/
def addCaps (ty : MemType) (caps : Nat) : Nat :=
  caps ||| (MEMORY_ACCESS_MASK ||| MEMORY_RUNTIME) ||| (if ty = .memoryMappedIo then MEMORY_ISA_VALID else 0)

/-- Lines 445-451: only space that does not exist yet can be added. -/
def isNonExistent (g : Gcd) (base : Nat) : Bool :=
  match seek base g.blocks with
  | none => true
  | some z => z.cur.st.type = .nonExistent

/-- `add_memory_space`, lines 414-465, once the tree exists. -/
def Gcd.addSpace (g : Gcd) (ty : MemType) (base len caps : Nat) : Ret Unit :=
  if g.max = 0 then (.err .notReady, g)
  else if len = 0 then (.err .invalidParameter, g)
  else if ¬ (base + len < W ∧ base + len ≤ g.max) then (.err .unsupported, g)
  else if isNonExistent g base = false then (.err .accessDenied, g)
  else g.change base len (addTr ty (addCaps ty caps) MEMORY_RP) (fun _ e =>
    match e with
    | .blockOutsideRange => .accessDenied
    | .invalidStateTransition => .invalidParameter)

/-- `remove_memory_space`, lines 471-495 -/
def Gcd.removeSpace (g : Gcd) (base len : Nat) : Ret Unit :=
  if g.max = 0 then (.err .notReady, g)
  else if len = 0 then (.err .invalidParameter, g)
  else if ¬ addw base len ≤ g.max then (.err .unsupported, g)
  else g.change base len removeTr (fun c e =>
    match e with
    | .blockOutsideRange => .notFound
    | .invalidStateTransition => if c.allocated then .accessDenied else .notFound)

/-- `set_gcd_memory_attributes`, lines 896-930 -/
def Gcd.setAttrsCore (g : Gcd) (base len attrs : Nat) : Ret Unit :=
  g.change base len (attrTr attrs) (fun _ _ => .unsupported)

/-- `set_memory_space_attributes`, lines 875-890 -/
def Gcd.setAttributes (g : Gcd) (base len attrs : Nat) : Ret Unit :=
  if g.max = 0 then (.err .notReady, g)
  else if len = 0 then (.err .invalidParameter, g)
  else if ¬ addw base len ≤ g.max then (.err .unsupported, g)
  else if ¬ (base &&& UEFI_PAGE_MASK = 0 ∧ len &&& UEFI_PAGE_MASK = 0) then (.err .invalidParameter, g)
  else g.setAttrsCore base len attrs

/-- `set_memory_space_capabilities`, lines 936-968 -/
def Gcd.setCapabilities (g : Gcd) (base len caps : Nat) : Ret Unit :=
  if g.max = 0 then (.err .notReady, g)
  else if len = 0 then (.err .invalidParameter, g)
  else if ¬ addw base len ≤ g.max then (.err .unsupported, g)
  else if ¬ (base &&& UEFI_PAGE_MASK = 0 ∧ len &&& UEFI_PAGE_MASK = 0) then (.err .invalidParameter, g)
  else g.change base len (capsTr caps) (fun _ _ => .unsupported)

/-- `get_memory_descriptor_for_address`, lines 1042-1056 -/
def Gcd.descriptorFor (g : Gcd) (addr : Nat) : Outcome EfiError (Block Cell) :=
  if g.max = 0 then .err .notReady
  else match seek addr g.blocks with
    | none => .err .notFound
    | some z => .ok z.cur

/-- `free_memory_space_worker`, lines 573-622 -/
def Gcd.freeWorker (g : Gcd) (base len : Nat) (preserve : Bool) : Ret Unit :=
  if g.max = 0 then (.err .notReady, g)
  else if len = 0 then (.err .invalidParameter, g)
  else if ¬ addw base len ≤ g.max then (.err .unsupported, g)
  else if ¬ (base &&& UEFI_PAGE_MASK = 0 ∧ len &&& UEFI_PAGE_MASK = 0) then (.err .invalidParameter, g)
  else
    match g.change base len (freeTr preserve) (fun _ _ => .notFound) with
    | (.ok _, g) =>
      match g.descriptorFor base with
      | .ok d => g.setAttrsCore base len (MEMORY_RP ||| (d.st.attrs &&& CACHE_ATTRIBUTE_MASK))
      | .err e => (.err e, g)
      | .panic => (.panic, g)
    | r => r

/-- `free_memory_space` and `free_memory_space_preserving_ownership`, lines 855-870; while locked,
`free_memory_space_worker_null`, lines 624-642. -/
def Gcd.freeSpace (g : Gcd) (base len : Nat) (preserve : Bool) : Ret Unit :=
  if g.locked then (.ok (), g) else g.freeWorker base len preserve

/-- `AllocateType`, lines 58-68 -/
inductive AllocType where
  | bottomUp (max : Option Nat)
  | topDown (max : Option Nat)
  | address (addr : Nat)
deriving DecidableEq, Repr

/-- What `allocate_bottom_up` does with a block, lines 669-697: the first aligned address at or above `start`. -/
def upAddr (shift start : Nat) : Nat :=
  let addr := start &&& maskShl shift
  if addr < start then addw addr (oneShl shift) else addr

def upCand (ty : MemType) (shift len max : Nat) (b : Block Cell) : Cand :=
  if b.len < len then .skip
  else
    let addr := upAddr shift b.base
    if ¬ addw addr len ≤ max then .stop .notFound
    else if b.st.type ≠ ty then .skip
    else if addr = 0 then
      match Base.alignUp 64 UEFI_PAGE_SIZE (oneShl shift) with
      | .ok addr => if addw addr len ≥ max ∨ subw b.len addr < len then .skip else .try_ addr
      | .err e => .stop e
      | .panic => .skip
    else .try_ addr

/-- `allocate_bottom_up`, lines 644-716 -/
def Gcd.allocUp (g : Gcd) (ty : MemType) (shift len image : Nat) (device : Option Nat) (max : Nat) : Ret Nat :=
  if len = 0 then (.err .invalidParameter, g)
  else
    let r := searchUp g.cap (upCand ty shift len max) len (allocTr image device true)
      (if max = W - 1 then .outOfResources else .notFound) [] g.blocks
    (r.1, { g with blocks := r.2 })

/-- What `allocate_top_down` does with a block, lines 753-779. (`checked_sub(..).unwrap()` cannot fail: the block found by
`get_closest_idx` and those before it start at or below `max`.) -/
def usableLen {σ : Type} (max : Nat) (b : Block σ) : Nat := if subw b.stop 1 > max then max - b.base + 1 else b.len

def downAddr {σ : Type} (shift len max : Nat) (b : Block σ) : Nat := (addw b.base (usableLen max b) - len) &&& maskShl shift

def downCand (ty : MemType) (shift len max : Nat) (final : EfiError) (b : Block Cell) : Cand :=
  if usableLen max b < len then .skip
  else if downAddr shift len max b < b.base then .skip
  else if b.st.type ≠ ty then .skip
  else if downAddr shift len max b = 0 then .stop final
  else .try_ (downAddr shift len max b)

/-- The search of `allocate_top_down`, lines 748-798, below `max` (inclusive). -/
def Gcd.allocDownMax (g : Gcd) (ty : MemType) (shift len image : Nat) (device : Option Nat) (max : Nat) : Ret Nat :=
  let final := if max = W - 1 then .outOfResources else .notFound
  match seek max g.blocks with
  | none => (.err final, g)
  | some z =>
    let r := searchDown g.cap (downCand ty shift len max final) len (allocTr image device true) final (z.cur :: z.before) z.after
    (r.1, { g with blocks := r.2 })

/-- `allocate_top_down`, lines 718-799, with the first attempt below 4 GiB (lines 729-739). -/
def Gcd.allocDown (g : Gcd) (ty : MemType) (shift len image : Nat) (device : Option Nat) (max : Nat) : Ret Nat :=
  if len = 0 then (.err .invalidParameter, g)
  else if g.prio32 = true ∧ max > 2 ^ 32 - 1 then
    match g.allocDownMax ty shift len image device (2 ^ 32 - 1) with
    | (.ok addr, g) => (.ok addr, g)
    | (.err _, g) => g.allocDownMax ty shift len image device max
    | (.panic, g) => (.panic, g)
  else g.allocDownMax ty shift len image device max

/-- Lines 829-832 -/
def fitsAddress (g : Gcd) (ty : MemType) (shift addr : Nat) : Bool :=
  match seek addr g.blocks with
  | none => true
  | some z => z.cur.st.type = ty ∧ addr = addr &&& maskShl shift

/-- `allocate_address`, lines 801-848 -/
def Gcd.allocAddress (g : Gcd) (ty : MemType) (shift len image : Nat) (device : Option Nat) (addr : Nat) : Ret Nat :=
  if len = 0 then (.err .invalidParameter, g)
  else if fitsAddress g ty shift addr = false then (.err .notFound, g)
  else match g.change addr len (allocTr image device false) (fun _ _ => .notFound) with
    | (.ok _, g) => (.ok addr, g)
    | (.err e, g) => (.err e, g)
    | (.panic, g) => (.panic, g)

/-- `allocate_memory_space`, lines 497-571; while locked, `allocate_memory_space_null`. -/
def Gcd.allocate (g : Gcd) (at_ : AllocType) (ty : MemType) (shift len image : Nat) (device : Option Nat) : Ret Nat :=
  if g.locked then (.err .accessDenied, g)
  else if g.max = 0 then (.err .notReady, g)
  else if ¬ (len > 0 ∧ image > 0 ∧ ty ≠ .unaccepted) then (.err .invalidParameter, g)
  else match at_ with
    | .bottomUp max => g.allocUp ty shift len image device (max.getD (W - 1))
    | .topDown max => g.allocDown ty shift len image device (max.getD (W - 1))
    | .address addr =>
      if ¬ addw addr len ≤ g.max then (.err .notFound, g) else g.allocAddress ty shift len image device addr

/-- The state of an address nothing was ever added at (lines 358-363, `Default` in dxe_services.rs lines 293-305). -/
def emptyCell : Cell := ⟨false, .nonExistent, 0, 0, 0, 0⟩

/-- `Ok(_) | Err(NotReady) => Ok(())`, lines 372-379 -/
def okOrNotReady (r : Outcome EfiError Unit) : Outcome EfiError Unit :=
  match r with
  | .err .notReady => .ok ()
  | r => r

/-- `?` on a call that changes the GCD. -/
def andThen {α : Type} (r : Ret Unit) (f : Gcd → Ret α) : Ret α :=
  match r with
  | (.ok _, g) => f g
  | (.err e, g) => (.err e, g)
  | (.panic, g) => (.panic, g)

/-- Lines 391-401: the attributes of what is left of the first range. -/
def Gcd.protectRest (g : Gcd) (slice base len : Nat) : Ret Unit :=
  if len > slice then
    let r := g.setAttributes (addw base slice) (len - slice) (MEMORY_WB ||| MEMORY_RP)
    (okOrNotReady r.1, r.2)
  else (.ok (), g)

/-- `init_memory_blocks`, lines 340-404 -/
def Gcd.initBlocks (g : Gcd) (nodeSize : Nat) (ty : MemType) (base len caps : Nat) : Ret Unit :=
  let slice := SLOTS * nodeSize
  if g.max = 0 then (.err .notReady, g)
  else if ¬ (ty = .systemMemory ∧ len ≥ slice) then (.err .outOfResources, g)
  else
    let g := { g with cap := SLOTS, blocks := [⟨0, g.max, emptyCell⟩] }
    andThen (g.addSpace ty base len caps) fun g =>
    let r := g.setAttributes base len (MEMORY_WB ||| MEMORY_XP)
    andThen (okOrNotReady r.1, r.2) fun g =>
    match g.allocate (.address base) .systemMemory UEFI_PAGE_SHIFT slice BOOT_DATA_HANDLE none with
    | (.ok _, g) => g.protectRest slice base len
    | (.err e, g) => (.err e, g)
    | (.panic, g) => (.panic, g)

/-- `add_memory_space`, lines 414-465 -/
def Gcd.add (g : Gcd) (nodeSize : Nat) (ty : MemType) (base len caps : Nat) : Ret Unit :=
  if g.max = 0 then (.err .notReady, g)
  else if len = 0 then (.err .invalidParameter, g)
  else if ¬ (base + len < W ∧ base + len ≤ g.max) then (.err .unsupported, g)
  else if g.cap = 0 then g.initBlocks nodeSize ty base len (addCaps ty caps)
  else g.addSpace ty base len caps

/-- `get_memory_descriptors`, lines 974-998 (into an empty buffer of sufficient capacity) -/
def Gcd.descriptors (g : Gcd) : Outcome EfiError (List (Block Cell)) :=
  if g.max = 0 then .err .notReady else .ok g.blocks

/-- The calls that change the GCD. -/
inductive Op where
  | add (ty : MemType) (base len caps : Nat)
  | remove (base len : Nat)
  | allocate (at_ : AllocType) (ty : MemType) (shift len image : Nat) (device : Option Nat)
  | free (base len : Nat) (preserve : Bool)
  | setAttributes (base len attrs : Nat)
  | setCapabilities (base len caps : Nat)
  | lock
  | unlock
  | prioritize32 (b : Bool)
deriving DecidableEq, Repr

def Gcd.step (nodeSize : Nat) (g : Gcd) : Op → Gcd
  | .add ty base len caps => (g.add nodeSize ty base len caps).2
  | .remove base len => (g.removeSpace base len).2
  | .allocate at_ ty shift len image device => (g.allocate at_ ty shift len image device).2
  | .free base len preserve => (g.freeSpace base len preserve).2
  | .setAttributes base len attrs => (g.setAttributes base len attrs).2
  | .setCapabilities base len caps => (g.setCapabilities base len caps).2
  -- `lock_memory_space` and `unlock_memory_space`, lines 325-334
  | .lock => { g with locked := true }
  | .unlock => { g with locked := false }
  -- `SpinLockedGcd::prioritize_32_bit_memory`, lines 1856-1858
  | .prioritize32 b => { g with prio32 := b }

def Gcd.run (nodeSize : Nat) (g : Gcd) (ops : List Op) : Gcd := ops.foldl (Gcd.step nodeSize) g

end Verif.Gcd
