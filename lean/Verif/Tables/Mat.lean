import Verif.Tables.ConfigProps
import Verif.MemMap.Props
/-!
Model of the memory attributes table: `/repo/patina_dxe_core/src/config_tables/memory_attributes_table.rs`, lines 56-61 and 98-243, and its callers,
`/repo/patina_dxe_core/src/allocator.rs` lines 508-517 and 568-577.

The pool is the buffers this code has got from `core_allocate_pool` and not given back. What the allocators answer and what memory looks
like when the descriptors are read is part of each call (`Env`). The number of entries is not cut to 32 bits. `GUID` stands for
`efi::MEMORY_ATTRIBUTES_TABLE_GUID` and `VERSION` for `efi::MEMORY_ATTRIBUTES_TABLE_VERSION`, constants of the r-efi crate.
-/
namespace Verif.Tables.Mat
open Verif.Gcd

/-- `efi::MemoryAttributesTable` and the descriptors behind it. -/
structure Table where
  version : Nat
  count : Nat
  descSize : Nat
  entries : List MemMap.Entry
deriving DecidableEq, Repr

def VERSION : Nat := 1
def GUID : Nat := 0xDCFA911D26EB469FA22038B7DC461220

/-- Lines 163-181: which descriptors become entries, and with which attributes. -/
def entry (e : MemMap.Entry) : Option MemMap.Entry :=
  if e.type = MemMap.RUNTIME_SERVICES_CODE ∨ e.type = MemMap.RUNTIME_SERVICES_DATA then
    some { e with attr :=
      if e.attr &&& (MEMORY_RO ||| MEMORY_XP) = 0 then
        (if e.type = MemMap.RUNTIME_SERVICES_CODE then MEMORY_RO ||| MEMORY_XP ||| MEMORY_RUNTIME else MEMORY_RUNTIME ||| MEMORY_XP)
      else e.attr &&& (MEMORY_RO ||| MEMORY_XP ||| MEMORY_RUNTIME) }
  else none

/-- Lines 145-186 and 209-212: the table for the memory `m`. -/
def build (m : MemMap.Mem) : Table :=
  let l := (MemMap.memoryMap m.owners true m.gcd.blocks).filterMap entry
  ⟨VERSION, l.length, 40, l⟩

/-- Lines 121-127 -/
def placeholder : Table := ⟨0, 0, 0, []⟩

/-- `MEMORY_ATTRIBUTES_TABLE` and `POST_RTB`, lines 29 and 37, the system table, and the buffers in use. -/
structure Sys where
  st : St
  cached : Nat
  postRtb : Bool
  pool : Nat → Option Table

/-- What a call meets: the answers of `core_allocate_pool` to its two requests, of the allocator of configuration table arrays, whether
`core_free_pool` succeeds, and memory when the descriptors are read. -/
structure Env where
  pool1 : Option Nat
  array1 : Option Nat
  mem : MemMap.Mem
  pool2 : Option Nat
  array2 : Option Nat
  free : Bool

def put (f : Nat → Option Table) (a : Nat) (v : Option Table) : Nat → Option Table := fun x => if x = a then v else f x

/-- Lines 111-142: the first time an empty table is installed, so that installing the real one allocates no runtime memory. The flag says whether to
go on; `none` is a panic. -/
def first (s : Sys) (pool array : Option Nat) : Option (Bool × Sys) :=
  if s.cached ≠ 0 then some (true, s)
  else match pool with
    | none => some (false, s)
    | some p =>
      if p = 0 then some (true, s)
      else match install s.st array GUID p with
        | (.panic, _) => none
        | (.err _, st) => some (false, { s with st := st, cached := p, pool := put s.pool p (some placeholder) })
        | (.ok _, st) => some (true, { s with st := st, cached := p, pool := put s.pool p (some placeholder) })

/-- Lines 222-240: the new table is installed and the old one is freed. -/
def publish (s : Sys) (p : Nat) (array : Option Nat) (free : Bool) (t : Table) : Option Sys :=
  match install s.st array GUID p with
  | (.panic, _) => none
  | (.err _, st) => some { s with st := st, pool := put s.pool p (if free then none else some t) }
  | (.ok _, st) =>
    some { s with st := st, cached := p
                  pool := if s.cached ≠ 0 ∧ free then put (put s.pool p (some t)) s.cached none else put s.pool p (some t) }

/-- `core_install_memory_attributes_table`, lines 107-243. -/
def installTable (s : Sys) (e : Env) : Option Sys :=
  match first s e.pool1 e.array1 with
  | none => none
  | some (false, s) => some s
  | some (true, s) =>
    if MemMap.memoryMap e.mem.owners true e.mem.gcd.blocks = [] then some s
    else match e.pool2 with
      | none => some s
      | some p => if p = 0 then some s else publish s p e.array2 e.free (build e.mem)

/-- What happens: ready to boot (lines 94-105), runtime pages are allocated or freed by the page services (lines 56-61 and allocator.rs lines 508-517 and
568-577), somebody uses the configuration tables. -/
inductive Op where
  | readyToBoot (e : Env)
  | runtimePages (e : Env)
  | other (o : Tables.Op)

def Sys.step (s : Sys) : Op → Option Sys
  | .readyToBoot e => (installTable s e).map fun s => { s with postRtb := true }
  | .runtimePages e => if s.postRtb then installTable s e else some s
  | .other o =>
    match s.st.step o with
    | (.panic, _) => none
    | (_, st) => some { s with st := st }

def Sys.run (s : Sys) : List Op → Option Sys
  | [] => some s
  | o :: l =>
    match s.step o with
    | none => none
    | some s => s.run l

end Verif.Tables.Mat
