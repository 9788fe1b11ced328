import Verif.Gcd.AllocProps
/-!
Model of `SpinLockedGcd`, the layer that keeps the page table together with the memory space of the GCD:
`/repo/patina_dxe_core/src/gcd/spin_locked_gcd.rs` lines 183-276 (`PagingAllocator`), 1870-1990 and 2208-2510, and
`core_set_memory_space_attributes`, `dxe_services.rs` lines 151-171.

* The page table is the `patina_paging` crate, which is not part of the repository. It is modelled as a map from page numbers to
  the attributes the page is mapped with. Its `query_memory_region` refuses empty and unaligned ranges, and otherwise tells
  whether the range is mapped with one set of attributes, not mapped at all, or neither. `map_memory_region` and
  `unmap_memory_region` either do what they say for the whole range or fail and change nothing; which of the two, and with
  which error, is up to the environment (`Faults`).
* The page table takes its own pages from the memory space, 512 at a time (`PagingAllocator`); when it does so is up to the
  environment as well. The pages it frees or keeps in its pool are not modelled further.
* `dbg` tells a build with debug assertions and overflow checks from a release build.
* Beyond the end of the memory space the loop of `set_memory_space_attributes` looks at the last descriptor again; the overflow
  check that a debug build makes there (`next_base - current_base`) is not modelled.
* The lines logged when the memory space refuses a change of attributes are counted (`refusals`), other log output is left
  out, and so is the memory change callback (C57 is about it).
-/
namespace Verif.Paging
open Verif.Gcd

/-- `PtError` (patina_paging); only the two errors that are told apart. -/
inductive PtError where
  | outOfResources
  | noMapping
  | other
deriving DecidableEq, Repr

/-- Lines 1977-1981 -/
def PtError.efi : PtError → EfiError
  | .outOfResources => .outOfResources
  | .noMapping => .notFound
  | .other => .invalidParameter

/-- What the page table does in the course of one call, by the address it is called with: does the change fail, and does the
page table need a new lot of pages for it? -/
structure Faults where
  fail : Nat → Option PtError
  refill : Nat → Bool

/-- Page number ↦ attributes it is mapped with. -/
abbrev Table := Nat → Option Nat

/-- `AccessAttributesMask | CacheAttributesMask`, lines 1873-1874; `CACHE_ATTRIBUTE_MASK | MEMORY_ACCESS_MASK`, line 2435. -/
def PT_MASK : Nat := MEMORY_ACCESS_MASK ||| CACHE_ATTRIBUTE_MASK

/-- Does the page table accept the range at all? -/
def rangeOk (base len : Nat) : Bool := base % 4096 = 0 ∧ len % 4096 = 0 ∧ len ≠ 0

/-- The pages of the range are all in the state `x`. -/
def Table.all (t : Table) (base len : Nat) (x : Option Nat) : Bool :=
  (List.range (len / 4096)).all fun i => t (base / 4096 + i) = x

/-- The answer of `query_memory_region`. -/
inductive Query where
  | mapped (attrs : Nat)
  | unmapped
  | failed
deriving DecidableEq, Repr

/-- `query_memory_region` (patina_paging), as lines 1881-1901 use it. -/
def Table.query (t : Table) (base len : Nat) : Query :=
  if rangeOk base len = false then .failed
  else match t (base / 4096) with
    | none => if t.all base len none then .unmapped else .failed
    | some a => if t.all base len (some a) then .mapped a else .failed

/-- The table with the pages of the range put in the state `x`. -/
def Table.set (t : Table) (base len : Nat) (x : Option Nat) : Table :=
  fun p => if base / 4096 ≤ p ∧ p < base / 4096 + len / 4096 then x else t p

/-- `SpinLockedGcd`, lines 1797-1850: the memory space and the page table (`none` before `init_paging`). `dflt` is
`default_attributes` (line 289), `signals` counts how often the cache attribute change event group was signalled, `refusals`
the lines logged because the memory space refused a change of attributes. -/
structure Mem where
  gcd : Gcd
  table : Option Table
  dflt : Nat
  signals : Nat
  refusals : Nat

/-- `allocate_page`, lines 248-272: 512 pages, straight from the memory space. `none`: there is no memory, which panics. -/
def Mem.refill (f : Faults) (m : Mem) (base : Nat) : Option Mem :=
  if f.refill base then
    match m.gcd.allocate (.topDown none) .systemMemory UEFI_PAGE_SHIFT (512 * 4096) BOOT_DATA_HANDLE none with
    | (.ok _, g) => some { m with gcd := g }
    | _ => none
  else some m

/-- `unmap_memory_region` (patina_paging). -/
def Mem.unmap (f : Faults) (m : Mem) (t : Table) (base len : Nat) : Outcome PtError Unit × Mem :=
  match m.refill f base with
  | none => (.panic, m)
  | some m =>
    if rangeOk base len = false then (.err .other, m)
    else match f.fail base with
      | some e => (.err e, m)
      | none => (.ok (), { m with table := some (t.set base len none) })

/-- `map_memory_region` (patina_paging). -/
def Mem.map (f : Faults) (m : Mem) (t : Table) (base len attrs : Nat) : Outcome PtError Unit × Mem :=
  match m.refill f base with
  | none => (.panic, m)
  | some m =>
    if rangeOk base len = false then (.err .other, m)
    else match f.fail base with
      | some e => (.err e, m)
      | none => (.ok (), { m with table := some (t.set base len (some attrs)) })

/-- Lines 1947-1968: is the event group signalled? `old` is what the region was mapped with, `none` if it was not mapped. -/
def cacheChanged (old : Option Nat) (want : Nat) : Bool :=
  match old with
  | some a => a &&& CACHE_ATTRIBUTE_MASK ≠ want &&& CACHE_ATTRIBUTE_MASK ∧ want &&& CACHE_ATTRIBUTE_MASK ≠ 0
  | none => want &&& CACHE_ATTRIBUTE_MASK ≠ 0

/-- A failed debug assertion in a debug build, `r` in a release build. -/
def dbgFail {α : Type} (dbg : Bool) (r : Outcome EfiError α) : Outcome EfiError α := if dbg then .panic else r

/-- Lines 1917-1983: the region is to be changed from `old` to `want`. -/
def Mem.applyPaging (dbg : Bool) (f : Faults) (m : Mem) (t : Table) (base len want : Nat) (old : Option Nat) :
    Outcome EfiError Unit × Mem :=
  if want &&& MEMORY_RP = MEMORY_RP then
    match old with
    | none => (dbgFail dbg (.ok ()), m)
    | some _ =>
      match m.unmap f t base len with
      | (.ok _, m) => (.ok (), m)
      | (.err _, m) => (dbgFail dbg (.err .invalidParameter), m)
      | (.panic, m) => (.panic, m)
  else
    match m.map f t base len want with
    | (.ok _, m) => (.ok (), { m with signals := m.signals + (if cacheChanged old want then 1 else 0) })
    | (.err e, m) => (dbgFail dbg (.err e.efi), m)
    | (.panic, m) => (.panic, m)

/-- `set_paging_attributes`, lines 1870-1990 -/
def Mem.setPaging (dbg : Bool) (f : Faults) (m : Mem) (base len attrs : Nat) : Outcome EfiError Unit × Mem :=
  match m.table with
  | none => (.err .notReady, m)
  | some t =>
    match t.query base len with
    | .failed => (dbgFail dbg (.err .invalidParameter), m)
    | .mapped a => if a = attrs &&& PT_MASK then (.ok (), m) else m.applyPaging dbg f t base len (attrs &&& PT_MASK) (some a)
    | .unmapped => m.applyPaging dbg f t base len (attrs &&& PT_MASK) none

/-- `set_memory_space_attributes` of the inner GCD, with the line logged if it is refused (lines 2414-2426, 2456-2467). -/
def Mem.setGcd (m : Mem) (base len attrs : Nat) : Mem :=
  match m.gcd.setAttributes base len attrs with
  | (.ok _, g) => { m with gcd := g }
  | (_, g) => { m with gcd := g, refusals := m.refusals + 1 }

/-- Lines 2435-2473, after the memory space was asked to set the attributes: the same for the page table; `old` is what
the descriptor said. -/
def Mem.setTable (dbg : Bool) (f : Faults) (m : Mem) (old base len attrs : Nat) : Outcome EfiError Unit × Mem :=
  if attrs &&& PT_MASK = 0 then (.ok (), m)
  else match m.setPaging dbg f base len attrs with
    | (.ok _, m) => (.ok (), m)
    | (.err .notReady, m) => (.err .notReady, m)
    | (.err e, m) => (dbgFail dbg (.err e), m.setGcd base len old)
    | (.panic, m) => (.panic, m)

/-- One round of the loop, lines 2414-2473, for the part `[base, base + len)` of a descriptor with attributes `old`. -/
def Mem.setPiece (dbg : Bool) (f : Faults) (m : Mem) (old base len attrs : Nat) : Outcome EfiError Unit × Mem :=
  if dbg = true ∧ (m.setGcd base len attrs).refusals ≠ m.refusals then (.panic, m)
  else (m.setGcd base len attrs).setTable dbg f old base len attrs

/-- The loop of `set_memory_space_attributes`, lines 2406-2476; `res` is what it would return. `none`: it has not ended
after that many rounds. -/
def Mem.setLoop (dbg : Bool) (f : Faults) (attrs stop : Nat) : Nat → Mem → Nat → Outcome EfiError Unit → Option (Outcome EfiError Unit × Mem)
  | 0, _, _, _ => none
  | n + 1, m, cur, res =>
    if cur < stop then
      match m.gcd.descriptorFor cur with
      | .ok d =>
        match m.setPiece dbg f d.st.attrs cur (subw (min (addw d.base d.len) stop) cur) attrs with
        | (.ok _, m) => Mem.setLoop dbg f attrs stop n m (min (addw d.base d.len) stop) res
        | (.err .notReady, m) => Mem.setLoop dbg f attrs stop n m (min (addw d.base d.len) stop) (.err .notReady)
        | (r, m) => some (r, m)
      | .err e => some (.err e, m)
      | .panic => some (.panic, m)
    else some (res, m)

/-- `set_memory_space_attributes`, lines 2397-2484 -/
def Mem.setAttributes (dbg : Bool) (f : Faults) (rounds : Nat) (m : Mem) (base len attrs : Nat) : Option (Outcome EfiError Unit × Mem) :=
  if dbg = true ∧ W ≤ base + len then some (.panic, m)
  else Mem.setLoop dbg f attrs (addw base len) rounds m base (.ok ())

/-- `core_set_memory_space_attributes`, dxe_services.rs lines 151-171; `is_ready` is `maximum_address != 0`. -/
def Mem.coreSetAttributes (dbg : Bool) (f : Faults) (rounds : Nat) (m : Mem) (base len attrs : Nat) :
    Option (Outcome EfiError Unit × Mem) :=
  match m.setAttributes dbg f rounds base len attrs with
  | some (.err .notReady, m) => some (if m.gcd.max ≠ 0 then .ok () else .err .notReady, m)
  | r => r

/-- Lines 2280-2283 -/
def Mem.attrsAt (m : Mem) (base : Nat) : Nat :=
  match m.gcd.descriptorFor base with
  | .ok d => d.st.attrs
  | _ => MEMORY_WB

/-- `allocate_memory_space`, lines 2262-2335. (The loop makes at most `len` rounds: `set_returns`.) -/
def Mem.allocate (dbg : Bool) (f : Faults) (m : Mem) (at_ : AllocType) (ty : MemType) (shift len image : Nat) (device : Option Nat) :
    Option (Outcome EfiError Nat × Mem) :=
  match m.gcd.allocate at_ ty shift len image device with
  | (.ok base, g) =>
    match Mem.setAttributes dbg f (len + 1) { m with gcd := g } base len
        ((Mem.attrsAt { m with gcd := g } base &&& CACHE_ATTRIBUTE_MASK) ||| m.dflt) with
    | some (.ok _, m) => some (.ok base, m)
    | some (.err .notReady, m) => some (.ok base, m)
    | some (.err _, m) => some (dbgFail dbg (.ok base), m)
    | some (.panic, m) => some (.panic, m)
    | none => none
  | (.err e, g) => some (.err e, { m with gcd := g })
  | (.panic, g) => some (.panic, { m with gcd := g })

/-- `free_memory_space`, lines 2342-2378 -/
def Mem.free (dbg : Bool) (f : Faults) (m : Mem) (base len : Nat) : Outcome EfiError Unit × Mem :=
  match m.gcd.freeSpace base len false with
  | (.ok _, g) =>
    match m.table with
    | none => (.ok (), { m with gcd := g })
    | some t =>
      match Mem.unmap f { m with gcd := g } t base len with
      | (.ok _, m) => (.ok (), m)
      | (.err _, m) => (dbgFail dbg (.ok ()), m)
      | (.panic, m) => (.panic, m)
  | (.err .accessDenied, g) => (.ok (), { m with gcd := g })
  | (.err e, g) => (.err e, { m with gcd := g })
  | (.panic, g) => (.panic, { m with gcd := g })

/-- `free_memory_space_preserving_ownership`, lines 2388-2396 -/
def Mem.freeKeep (m : Mem) (base len : Nat) : Outcome EfiError Unit × Mem :=
  ((m.gcd.freeSpace base len true).1, { m with gcd := (m.gcd.freeSpace base len true).2 })

/-- `add_memory_space`, lines 2217-2231 -/
def Mem.add (nodeSize : Nat) (m : Mem) (ty : MemType) (base len caps : Nat) : Outcome EfiError Unit × Mem :=
  ((m.gcd.add nodeSize ty base len caps).1, { m with gcd := (m.gcd.add nodeSize ty base len caps).2 })

/-- `remove_memory_space`, lines 2237-2257 -/
def Mem.remove (f : Faults) (m : Mem) (base len : Nat) : Outcome EfiError Unit × Mem :=
  match m.gcd.removeSpace base len with
  | (.ok _, g) =>
    match m.table with
    | none => (.ok (), { m with gcd := g })
    | some t =>
      match Mem.unmap f { m with gcd := g } t base len with
      | (.panic, m) => (.panic, m)
      | (_, m) => (.ok (), m)
  | (.err e, g) => (.err e, { m with gcd := g })
  | (.panic, g) => (.panic, { m with gcd := g })

/-- `set_memory_space_capabilities`, lines 2490-2504 -/
def Mem.setCapabilities (m : Mem) (base len caps : Nat) : Outcome EfiError Unit × Mem :=
  ((m.gcd.setCapabilities base len caps).1, { m with gcd := (m.gcd.setCapabilities base len caps).2 })

/-- The calls. -/
inductive Call where
  | add (ty : MemType) (base len caps : Nat)
  | remove (base len : Nat)
  | allocate (at_ : AllocType) (ty : MemType) (shift len image : Nat) (device : Option Nat)
  | free (base len : Nat)
  | freeKeep (base len : Nat)
  | setAttributes (base len attrs : Nat)
  | setCapabilities (base len caps : Nat)
  | lock
  | unlock
deriving DecidableEq, Repr

/-- Forget the value of a result. -/
def forget {α : Type} (r : Outcome EfiError α) : Outcome EfiError Unit :=
  match r with
  | .ok _ => .ok ()
  | .err e => .err e
  | .panic => .panic

/-- One call. `none`: it does not return. (`lock`/`unlock`: lines 1995-2001.) -/
def Mem.step (dbg : Bool) (nodeSize : Nat) (f : Faults) (m : Mem) : Call → Option (Outcome EfiError Unit × Mem)
  | .add ty base len caps => some (m.add nodeSize ty base len caps)
  | .remove base len => some (m.remove f base len)
  | .allocate at_ ty shift len image device =>
    match m.allocate dbg f at_ ty shift len image device with
    | some (r, m) => some (forget r, m)
    | none => none
  | .free base len => some (m.free dbg f base len)
  | .freeKeep base len => some (m.freeKeep base len)
  | .setAttributes base len attrs => m.coreSetAttributes dbg f (len + 1) base len attrs
  | .setCapabilities base len caps => some (m.setCapabilities base len caps)
  | .lock => some (.ok (), { m with gcd := { m.gcd with locked := true } })
  | .unlock => some (.ok (), { m with gcd := { m.gcd with locked := false } })

end Verif.Paging
