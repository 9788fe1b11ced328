import Verif.Gcd.Model
import Verif.Bytes
/-!
Model of the UEFI memory map and of `ExitBootServices`: `/repo/patina_dxe_core/src/allocator.rs` lines 376-378 and 595-775 and
`/repo/patina_dxe_core/src/misc_boot_services.rs` lines 37-47 and 135-216.

* `owners` is the list of allocators in the order `ALLOCATORS.iter()` yields them, each as its handle and memory type.
* Building the map allocates two vectors first, which may make the pool allocator grow and so change the GCD. That effect
  is the parameter `prep`; `none` is the panic of a failed allocation.
* The event callbacks run by `signal_group` are the parameter `cb`: any function on the memory state.
* A `efi::MemoryDescriptor` is 40 bytes of which 4, after the type, are padding: what they hold is the parameter `pad`.
* The checksum crate `crc32fast` is outside the repository; `crc32` is the function it documents (CRC-32/ISO-HDLC).
-/
namespace Verif.MemMap
open Gcd

/-- UEFI memory types (r-efi). -/
def RESERVED_MEMORY_TYPE : Nat := 0
def RUNTIME_SERVICES_CODE : Nat := 5
def RUNTIME_SERVICES_DATA : Nat := 6
def CONVENTIONAL_MEMORY : Nat := 7
def MEMORY_MAPPED_IO : Nat := 11
def MEMORY_MAPPED_IO_PORT_SPACE : Nat := 12
def PERSISTENT_MEMORY : Nat := 14
def UNACCEPTED_MEMORY_TYPE : Nat := 15

/-- `efi::MemoryDescriptor` apart from `virtual_start`, which is always 0. -/
structure Entry where
  type : Nat
  start : Nat
  pages : Nat
  attr : Nat
deriving DecidableEq, Repr

/-- `AllocatorMap::memory_type_for_handle`, allocator.rs lines 376-378: the first allocator with that handle. -/
def typeForHandle (owners : List (Nat × Nat)) (h : Nat) : Option Nat := (owners.find? (fun o => o.1 = h)).map (·.2)

/-- allocator.rs lines 640-664: the type of memory that no allocator tracks. -/
def gcdType (c : Cell) : Option Nat :=
  match c.type with
  | .systemMemory => some CONVENTIONAL_MEMORY
  | .memoryMappedIo =>
    if c.attrs &&& MEMORY_ISA_VALID = MEMORY_ISA_VALID then some MEMORY_MAPPED_IO_PORT_SPACE else some MEMORY_MAPPED_IO
  | .persistent => some PERSISTENT_MEMORY
  | .unaccepted => some UNACCEPTED_MEMORY_TYPE
  | .reserved => some RESERVED_MEMORY_TYPE
  | _ => none

/-- allocator.rs lines 639-665 -/
def memType (owners : List (Nat × Nat)) (c : Cell) : Option Nat :=
  match typeForHandle owners c.image with
  | some t => some t
  | none => gcdType c

/-- `!x` on 64 bits. -/
def not64 (x : Nat) : Nat := (W - 1) ^^^ x

/-- allocator.rs lines 675-690 -/
def entryAttr (active : Bool) (t : Nat) (c : Cell) : Nat :=
  (if active then c.attrs
   else (c.caps &&& not64 (MEMORY_ACCESS_MASK ||| MEMORY_RUNTIME)) ||| (c.attrs &&& MEMORY_RUNTIME))
  ||| (if t = RUNTIME_SERVICES_CODE ∨ t = RUNTIME_SERVICES_DATA then MEMORY_RUNTIME else 0)

/-- The closure of `filter_map`, allocator.rs lines 638-700. -/
def entryFor (owners : List (Nat × Nat)) (active : Bool) (b : Block Cell) : Option Entry :=
  match memType owners b.st with
  | none => none
  | some t =>
    if b.len / 4096 = 0 then none
    else if b.base % 0x1000 ≠ 0 then none
    else some ⟨t, b.base, b.len / 4096, entryAttr active t b.st⟩

/-- `merge_blocks`, allocator.rs lines 595-611. `u64` arithmetic wraps (release). -/
def mergeBlocks (prev : List Entry) (cur : Entry) : List Entry :=
  match prev.getLast? with
  | none => prev ++ [cur]
  | some d =>
    if d.type = cur.type ∧ d.attr = cur.attr ∧ addw d.start (d.pages * 4096 % W) = cur.start then
      prev.dropLast ++ [{ d with pages := addw d.pages cur.pages }]
    else prev ++ [cur]

/-- `get_memory_map_descriptors`, allocator.rs lines 622-702, from the descriptors of the GCD on. -/
def memoryMap (owners : List (Nat × Nat)) (active : Bool) (blocks : List (Block Cell)) : List Entry :=
  (blocks.filterMap (entryFor owners active)).foldl mergeBlocks []

/-- The bytes of an `efi::MemoryDescriptor` in memory; `pad` is what its padding holds. -/
def Entry.bytes (pad : Nat) (e : Entry) : List UInt8 :=
  leBytes 4 e.type ++ leBytes 4 pad ++ leBytes 8 e.start ++ leBytes 8 0 ++ leBytes 8 e.pages ++ leBytes 8 e.attr

/-- The bytes of the vector of descriptors, allocator.rs lines 742-756 and 769-771. -/
def mapBytes (pad : Nat → Nat) : Nat → List Entry → List UInt8
  | _, [] => []
  | i, e :: l => e.bytes (pad i) ++ mapBytes pad (i + 1) l

/-- One bit of a CRC-32 with the reflected polynomial 0xEDB88320. -/
def crcBit (s : Nat) : Nat := if s % 2 = 1 then (s / 2) ^^^ 0xEDB88320 else s / 2

def crcBits : Nat → Nat → Nat
  | 0, s => s
  | n + 1, s => crcBits n (crcBit s)

def crcByte (s : Nat) (b : UInt8) : Nat := crcBits 8 (s ^^^ b.toNat)

/-- `crc32fast::hash`: initial value and final inversion 0xFFFFFFFF. -/
def crc32 (bs : List UInt8) : Nat := bs.foldl crcByte 0xFFFFFFFF ^^^ 0xFFFFFFFF

/-- The part of the firmware's state the memory map comes from. -/
structure Mem where
  gcd : Gcd
  owners : List (Nat × Nat)
deriving DecidableEq, Repr

/-- The memory map a caller sees: the descriptors of the GCD, allocator.rs lines 623-634, with capabilities. -/
def Mem.map (m : Mem) : List Entry := memoryMap m.owners false m.gcd.blocks

inductive Status where
  | success | invalidParameter | bufferTooSmall
deriving DecidableEq, Repr

/-- The arguments of `GetMemoryMap`; a null pointer is `none` or `false`. -/
structure MapArgs where
  size : Option Nat
  map : Bool
  key : Bool
  descSize : Bool
  version : Bool
deriving DecidableEq, Repr

/-- What `GetMemoryMap` wrote through each pointer. -/
structure MapOut where
  size : Option Nat := none
  map : Option (List UInt8) := none
  key : Option Nat := none
  descSize : Option Nat := none
  version : Option Nat := none
deriving DecidableEq, Repr

/-- How a call ended; `panic` is an assertion or a failed allocation. -/
inductive MapRes where
  | ret (s : Status) (o : MapOut)
  | panic
deriving DecidableEq, Repr

/-- `get_memory_map`, allocator.rs lines 704-766. `EFI_MEMORY_DESCRIPTOR_VERSION` is 1. -/
def getMemoryMap (prep : Mem → Option Mem) (pad : Nat → Nat) (a : MapArgs) (m : Mem) : MapRes × Mem :=
  match a.size with
  | none => (.ret .invalidParameter {}, m)
  | some sz =>
    match prep m with
    | none => (.panic, m)
    | some m' =>
      let ds := if a.descSize then some 40 else none
      let dv := if a.version then some 1 else none
      if m'.map.length = 0 then (.panic, m')
      else if sz < m'.map.length * 40 then
        (.ret .bufferTooSmall { size := some (m'.map.length * 40), descSize := ds, version := dv }, m')
      else if a.map = false then
        (.ret .invalidParameter { size := some (m'.map.length * 40), descSize := ds, version := dv }, m')
      else
        (.ret .success
          { size := some (m'.map.length * 40), map := some (mapBytes pad 0 m'.map),
            key := if a.key then some (crc32 (mapBytes pad 0 m'.map)) else none, descSize := ds, version := dv }, m')

/-- `terminate_memory_map`, allocator.rs lines 768-775. `none` is the panic of a failed allocation. -/
def terminateMemoryMap (prep : Mem → Option Mem) (pad : Nat → Nat) (key : Nat) (m : Mem) : Option Bool × Mem :=
  match prep m with
  | none => (none, m)
  | some m' => (some (decide (key = crc32 (mapBytes pad 0 m'.map))), m')

/-- The event groups `ExitBootServices` signals. -/
inductive Group where
  | preEbs | beforeEbs | exitBootServices | ebsFailed
deriving DecidableEq, Repr

/-- What `ExitBootServices` can be seen to do besides changing memory. -/
inductive Act where
  | signal (g : Group)
  | timerOff
  | statusCode
  | interruptsOff
  | clearBootServices
  | atRuntime
deriving DecidableEq, Repr

/-- `called` is the static `EXIT_BOOT_SERVICES_CALLED`, line 136. -/
structure Sys where
  mem : Mem
  called : Bool
  log : List Act
deriving DecidableEq, Repr

/-- What the rest of the firmware does: the callbacks of each group, the allocations made while a map is built, the padding
bytes found in the new descriptors, and whether the timer, status code and runtime protocols are installed. -/
structure Env where
  cb : Group → Mem → Mem
  prep : Mem → Option Mem
  pad : Nat → Nat
  timer : Bool
  statusCode : Bool
  runtime : Bool

/-- `EventDb::signal_group` as seen from here. -/
def Sys.signal (E : Env) (g : Group) (s : Sys) : Sys :=
  { s with mem := E.cb g s.mem, log := s.log ++ [.signal g] }

def Sys.act (a : Act) (s : Sys) : Sys := { s with log := s.log ++ [a] }

/-- `lock_memory_space`/`unlock_memory_space`, spin_locked_gcd.rs lines 325-334. -/
def Sys.setLock (b : Bool) (s : Sys) : Sys :=
  { s with mem := { s.mem with gcd := { s.mem.gcd with locked := b } } }

/-- Lines 140-147 -/
def beforeExit (E : Env) (s : Sys) : Sys :=
  if s.called then s
  else { ((s.signal E .preEbs).signal E .beforeEbs) with called := true }

/-- Lines 177-215: after the key was accepted. -/
def finishExit (E : Env) (s : Sys) : Sys :=
  let s := s.signal E .exitBootServices
  let s := if E.statusCode then s.act .statusCode else s
  let s := (s.act .interruptsOff).act .clearBootServices
  if E.runtime then s.act .atRuntime else s

/-- How a call of `ExitBootServices` ended. -/
inductive ExitRes where
  | success | invalidParameter | panic
deriving DecidableEq, Repr

/-- `exit_boot_services`, lines 135-216. The system table is present. -/
def exitBootServices (E : Env) (key : Nat) (s : Sys) : ExitRes × Sys :=
  let s := beforeExit E s
  let s := if E.timer then s.act .timerOff else s
  let s := s.setLock true
  match terminateMemoryMap E.prep E.pad key s.mem with
  | (none, m) => (.panic, { s with mem := m })
  | (some false, m) => (.invalidParameter, (Sys.setLock false { s with mem := m }).signal E .ebsFailed)
  | (some true, m) => (.success, finishExit E { s with mem := m })

/-- `calculate_crc32`, lines 37-47; a null pointer is `none` or `false`. Returns the status and what was written. -/
def calculateCrc32 (data : Option (List UInt8)) (out : Bool) : Status × Option Nat :=
  match data with
  | none => (.invalidParameter, none)
  | some bs => if bs.length = 0 ∨ out = false then (.invalidParameter, none) else (.success, some (crc32 bs))

end Verif.MemMap
