import Verif.MemMap.Crc
/-!
Model of the system table and its configuration tables: `/repo/patina_dxe_core/src/systemtables.rs` (headers and checksums, lines
165-170, 580-585, 595-625, 664-694, 713-728) and `/repo/patina_dxe_core/src/config_tables.rs`, lines 23-124.

The fields of the tables are numbers of the width the UEFI specification gives them; a pointer is a number, 0 is null. The functions of the
boot and runtime services tables are only bytes here. Memory holds one configuration table entry at an address: only the addresses
of arrays of entries matter. Locking is left out (the lock is the subject of the `Mutex` modules).
-/
namespace Verif.Tables
open Verif.MemMap (crc32)

/-- `efi::TableHeader`: 24 bytes. -/
structure Header where
  signature : Nat
  revision : Nat
  size : Nat
  crc : Nat
  reserved : Nat
deriving DecidableEq, Repr

/-- How a header lies in memory (little endian). -/
def Header.bytes (h : Header) : List UInt8 :=
  leBytes 8 h.signature ++ leBytes 4 h.revision ++ leBytes 4 h.size ++ leBytes 4 h.crc ++ leBytes 4 h.reserved

/-- A table of services: `efi::BootServices`, `efi::RuntimeServices`. The functions are their bytes. -/
structure Services where
  header : Header
  functions : List UInt8
deriving DecidableEq, Repr

def Services.bytes (t : Services) : List UInt8 := t.header.bytes ++ t.functions

/-- `EfiRuntimeServicesTable::checksum`, lines 165-170, and `EfiBootServicesTable::checksum`, lines 580-585. -/
def Services.checksum (t : Services) : Services :=
  { t with header := { t.header with crc := crc32 ({ t with header := { t.header with crc := 0 } } : Services).bytes } }

/-- The console fields of the system table, which drivers write. -/
structure Console where
  inHandle : Nat
  input : Nat
  outHandle : Nat
  output : Nat
  errHandle : Nat
  error : Nat
deriving DecidableEq, Repr

/-- `efi::SystemTable`: 120 bytes. `pad` stands for the four bytes after `firmware_revision`. -/
structure System where
  header : Header
  vendor : Nat
  revision : Nat
  pad : Nat
  console : Console
  runtime : Nat
  boot : Nat
  count : Nat
  table : Nat
deriving DecidableEq, Repr

def System.bytes (t : System) : List UInt8 :=
  t.header.bytes ++ leBytes 8 t.vendor ++ leBytes 4 t.revision ++ leBytes 4 t.pad
    ++ leBytes 8 t.console.inHandle ++ leBytes 8 t.console.input ++ leBytes 8 t.console.outHandle ++ leBytes 8 t.console.output
    ++ leBytes 8 t.console.errHandle ++ leBytes 8 t.console.error
    ++ leBytes 8 t.runtime ++ leBytes 8 t.boot ++ leBytes 8 t.count ++ leBytes 8 t.table

/-- `EfiSystemTable::checksum`, lines 664-669. -/
def System.checksum (t : System) : System :=
  { t with header := { t.header with crc := crc32 ({ t with header := { t.header with crc := 0 } } : System).bytes } }

/-- `efi::ConfigurationTable`: a GUID and a pointer, 24 bytes. GUIDs are numbers: they are only compared. -/
structure Entry where
  guid : Nat
  table : Nat
deriving DecidableEq, Repr

/-- The system table, the tables it points to, memory, and the event groups that have been signalled, oldest first. -/
structure St where
  sys : System
  bootServices : Services
  runtimeServices : Services
  mem : Nat → Entry
  signalled : List Nat

/-- `from_raw_parts(address, n)` for configuration table entries. -/
def readEntries (mem : Nat → Entry) (address n : Nat) : List Entry := (List.range n).map fun i => mem (address + 24 * i)

/-- Memory after the entries have been put at `address`. -/
def writeEntries (mem : Nat → Entry) (address : Nat) (l : List Entry) : Nat → Entry := fun x =>
  if address ≤ x ∧ (x - address) % 24 = 0 then
    match l[(x - address) / 24]? with
    | some e => e
    | none => mem x
  else mem x

/-- The entry found is given the new pointer: `find`, lines 71-78. -/
def modifyFirst (g t : Nat) : List Entry → List Entry
  | [] => []
  | e :: l => if e.guid = g then { e with table := t } :: l else e :: modifyFirst g t l

/-- What the new list is: lines 66-106. `none` for `old`: the pointer was null. The result is `none` if the entry to be deleted is not
there. -/
def newEntries (old : Option (List Entry)) (g t : Nat) : Option (List Entry) :=
  match old with
  | some l =>
    if t ≠ 0 then
      if l.any (fun e => e.guid == g) then some (modifyFirst g t l) else some (l ++ [⟨g, t⟩])
    else if l.any (fun e => e.guid == g) then some (l.filter (fun e => e.guid != g)) else none
  | none => if t ≠ 0 then some [⟨g, t⟩] else none

/-- Lines 108-118: the new list is put where the allocator says; no memory is a panic. -/
def putEntries (s : St) (alloc : Option Nat) (l : List Entry) : Option St :=
  if l = [] then some { s with sys := { s.sys with count := 0, table := 0 } }
  else match alloc with
    | none => none
    | some a => some { s with sys := { s.sys with count := l.length, table := a }, mem := writeEntries s.mem a l }

/-- `core_install_configuration_table`, lines 43-124. `alloc` is the answer of the allocator of runtime data. -/
def install (s : St) (alloc : Option Nat) (g t : Nat) : Outcome EfiError Unit × St :=
  if s.sys.table = 0 ∧ s.sys.count ≠ 0 then (.panic, s)
  else match newEntries (if s.sys.table = 0 then none else some (readEntries s.mem s.sys.table s.sys.count)) g t with
    | none => (.err .notFound, s)
    | some l =>
      match putEntries s alloc l with
      | none => (.panic, s)
      | some s => (.ok (), { s with sys := s.sys.checksum, signalled := s.signalled ++ [g] })

/-- `install_configuration_table`, lines 23-41: `guid` is what the pointer points to, `none` for a null pointer; `none` for the state: no system
table yet. -/
def installService (s : Option St) (alloc : Option Nat) (guid : Option Nat) (t : Nat) : Outcome EfiError Unit × Option St :=
  match guid with
  | none => (.err .invalidParameter, s)
  | some g =>
    match s with
    | none => (.err .notFound, none)
    | some s => ((install s alloc g t).1, some (install s alloc g t).2)

/-- `clear_boot_time_services`, lines 685-694. -/
def clearBoot (s : St) : St := { s with sys := ({ s.sys with boot := 0, console := ⟨0, 0, 0, 0, 0, 0⟩ } : System).checksum }

/-- `checksum_all`, lines 679-683. -/
def checksumAll (s : St) : St :=
  { s with bootServices := s.bootServices.checksum, runtimeServices := s.runtimeServices.checksum, sys := s.sys.checksum }

/-- `EfiSystemTable::init`, lines 595-625, then `init_system_table`, lines 713-717: `boot` and `runtime` are where the services tables were put. -/
def initial (signature revision boot runtime pad : Nat) (mem : Nat → Entry) (bs rs : Services) : St :=
  { sys := ({ header := ⟨signature, revision, 120, 0, 0⟩, vendor := 0, revision := 0, pad := pad, console := ⟨0, 0, 0, 0, 0, 0⟩,
              runtime := runtime, boot := boot, count := 0, table := 0 } : System).checksum
    bootServices := bs.checksum
    runtimeServices := rs.checksum
    mem := mem
    signalled := [] }

/-- What happens to the system table: a configuration table is installed or removed; a driver writes the console fields or replaces
services; the checksums are recomputed (`SystemTableChecksumInstaller`, lines 726-728); boot services end. -/
inductive Op where
  | install (alloc : Option Nat) (guid table : Nat)
  | console (c : Console)
  | bootFunctions (f : List UInt8)
  | runtimeFunctions (f : List UInt8)
  | checksum
  | clearBoot

def St.step (s : St) : Op → Outcome EfiError Unit × St
  | .install a g t => Tables.install s a g t
  | .console c => (.ok (), { s with sys := { s.sys with console := c } })
  | .bootFunctions f => (.ok (), { s with bootServices := { s.bootServices with functions := f } })
  | .runtimeFunctions f => (.ok (), { s with runtimeServices := { s.runtimeServices with functions := f } })
  | .checksum => (.ok (), checksumAll s)
  | .clearBoot => (.ok (), Tables.clearBoot s)

/-- A history: `none` if something panicked. -/
def St.run (s : St) : List Op → Option St
  | [] => some s
  | o :: l =>
    match s.step o with
    | (.panic, _) => none
    | (_, s) => s.run l

end Verif.Tables
