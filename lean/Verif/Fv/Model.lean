import Verif.Ffs.VolumeModel
import Verif.Ffs.EditModel
import Verif.DevicePath.Spec
import Verif.Services.Model
/-!
Model of the firmware volume support of the core, `/repo/patina_dxe_core/src/fv.rs`, lines 33-847, on top of the firmware file system
(`Verif/Ffs`), device paths (`Verif/DevicePath`) and the protocol services (`Verif/Services`).

* Memory is a function from addresses to bytes. Firmware volumes are not changed while they are read, as the code demands of its callers.
* A pointer the caller must supply is represented by what it points at; whether all of them are not null is the argument `args`. A result the
  caller finds through a pointer is an `Option`: `none` if nothing is written there.
* `alloc` is `core_allocate_pool(BOOT_SERVICES_DATA, _)`: an address, or the status it fails with.
* GUIDs are the numbers of their 16 bytes, little endian (`rd b 0 16`).
* `dbg` tells a build with overflow checks and debug assertions from a release build. An iterator that may not end has fuel; the outer `none`
  stands for a call that has not returned yet.
-/
namespace Verif.Fv
open Verif.Ffs

/-- The statuses of these functions; `panics` for a call that does not return because the core panics. -/
inductive Status where
  | success
  | invalidParameter
  | notFound
  | accessDenied
  | unsupported
  | volumeCorrupted
  | bufferTooSmall
  | badBufferSize
  | warnBufferTooSmall
  | outOfResources
  | alreadyStarted
  | panics
deriving DecidableEq, Repr

/-- `From<FirmwareFileSystemError> for EfiError`, `/repo/sdk/patina_ffs/src/err.rs` lines 37-54, into `efi::Status`. The two errors that are missing
here are not produced by what these functions call. -/
def Status.of : FfsError → Status
  | .invalidParameter | .notComposed | .notLeaf => .invalidParameter
  | .unsupported => .unsupported
  | .invalidHeader | .invalidBlockMap | .invalidState | .dataCorrupt => .volumeCorrupted

/-- The memory of the machine. -/
abbrev Mem := Nat → UInt8

/-- `slice::from_raw_parts(a, n)`. -/
def bytesAt (m : Mem) (a n : Nat) : List UInt8 := (List.range n).map fun i => m (a + i)

/-- `VolumeRef::new_from_address`, `/repo/sdk/patina_ffs/src/volume.rs` lines 228-237. -/
def openVolume (m : Mem) (base : Nat) : Outcome FfsError VolumeRef :=
  if rd (bytesAt m base 56) 40 4 ≠ SIGNATURE then .err .dataCorrupt
  else VolumeRef.new (bytesAt m base (rd (bytesAt m base 56) 32 8))

/-- The two protocols. -/
inductive Kind where
  | block
  | volume
deriving DecidableEq, Repr

/-- `fv_information`, lines 33-51: for each interface pointer its kind and the address of the volume. -/
abbrev Info := BMap (Kind × Nat)

/-- The start of every protocol function, e.g. lines 84-92: the volume behind the interface `this`. -/
def volumeOf (m : Mem) (info : Info) (k : Kind) (this : Nat) : Outcome Status (Nat × VolumeRef) :=
  match info.get this with
  | some (k', base) =>
    if k' = k then
      match openVolume m base with
      | .ok v => .ok (base, v)
      | .err e => .err (.of e)
      | .panic => .panic
    else .err .notFound
  | none => .err .notFound

/-! ### The block protocol -/

/-- `fvb_get_attributes`, lines 63-95: status and what is written. -/
def blockAttributes (m : Mem) (info : Info) (this : Nat) (args : Bool) : Status × Option Nat :=
  if !args then (.invalidParameter, none)
  else
    match volumeOf m info .block this with
    | .ok (_, v) => (.success, some v.attributes)
    | .err e => (e, none)
    | .panic => (.panics, none)

/-- `fvb_get_physical_address`, lines 104-122. -/
def physicalAddress (info : Info) (this : Nat) (args : Bool) : Status × Option Nat :=
  if !args then (.invalidParameter, none)
  else
    match info.get this with
    | some (.block, base) => (.success, some base)
    | _ => (.notFound, none)

/-- `lba.try_into::<u32>()` and `lba_info`, lines 162-164 and 228-232. -/
def lbaOf (dbg : Bool) (v : VolumeRef) (lba : Nat) : Outcome Status (Nat × Nat × Nat) :=
  if 2 ^ 32 ≤ lba then .err .invalidParameter
  else
    match lbaInfo dbg v.blockMap lba with
    | .ok r => .ok r
    | .err e => .err (.of e)
    | .panic => .panic

/-- `fvb_get_block_size`, lines 124-167: status, block size and number of blocks. -/
def blockSize (dbg : Bool) (m : Mem) (info : Info) (this lba : Nat) (args : Bool) : Status × Option (Nat × Nat) :=
  if !args then (.invalidParameter, none)
  else
    match (do let v ← volumeOf m info .block this; lbaOf dbg v.2 lba : Outcome Status (Nat × Nat × Nat)) with
    | .ok (size, remaining, _) => (.success, some (size, remaining))
    | .err e => (e, none)
    | .panic => (.panics, none)

/-- Lines 234-238: how much to read, on 64-bit numbers. -/
def clip (dbg : Bool) (offset n size : Nat) : Outcome Status Nat :=
  if dbg && decide (2 ^ 64 ≤ offset + n) then .panic
  else if (offset + n) % 2 ^ 64 > size then
    if dbg then .panic else .ok ((size + (2 ^ 64 - offset)) % 2 ^ 64)
  else .ok n

/-- Line 240: where to start. -/
def startAt (dbg : Bool) (base off offset : Nat) : Outcome Status Nat :=
  if dbg && decide (2 ^ 64 ≤ base + off + offset) then .panic else .ok ((base + off + offset) % 2 ^ 64)

/-- `core_fvb_read`, lines 211-245: address and length of the data. -/
def blockSpan (dbg : Bool) (m : Mem) (info : Info) (this lba offset n : Nat) : Outcome Status (Nat × Nat) := do
  let v ← volumeOf m info .block this
  let b ← lbaOf dbg v.2 lba
  let len ← clip dbg offset n b.2.1
  let a ← startAt dbg v.1 b.1 offset
  .ok (a, len)

/-- What `fvb_read` does: its status, what is written to `num_bytes` and what is copied to the buffer. -/
structure ReadOut where
  status : Status
  num : Option Nat
  data : Option (List UInt8)
deriving DecidableEq, Repr

/-- `fvb_read`, lines 169-209. -/
def blockRead (dbg : Bool) (m : Mem) (info : Info) (this lba offset n : Nat) (args : Bool) : ReadOut :=
  if !args then ⟨.invalidParameter, none, none⟩
  else
    match blockSpan dbg m info this lba offset n with
    | .err e => ⟨e, none, none⟩
    | .panic => ⟨.panics, none, none⟩
    | .ok (a, len) =>
      if len > n then ⟨.bufferTooSmall, some len, none⟩
      else ⟨if len ≠ n then .badBufferSize else .success, some len, some (bytesAt m a len)⟩

/-- `fvb_set_attributes`, `fvb_write`, `fvb_erase_blocks`, `fv_set_volume_attributes`, `fv_write_file`, `fv_get_info`, `fv_set_info`, lines 97-102,
247-262, 325-330, 533-540, 633-649. -/
def unsupportedCall : Status := .unsupported

/-! ### The volume protocol -/

/-- `fv_get_volume_attributes`, lines 292-323. -/
def volumeAttributes (m : Mem) (info : Info) (this : Nat) (args : Bool) : Status × Option Nat :=
  if !args then (.invalidParameter, none)
  else
    match volumeOf m info .volume this with
    | .ok (_, v) => (.success, some v.attributes)
    | .err e => (e, none)
    | .panic => (.panics, none)

/-- `files().filter(q).nth(key)`: the iterator is only followed as far as needed. The inner filter (`keepItem`) is that of `files`. -/
def nth (q : Except FfsError FileRef → Bool) : Nat → Nat → FIter → Option (Outcome Status (Option (Except FfsError FileRef)))
  | 0, _, _ => none
  | n + 1, key, it =>
    match it.step with
    | .done => some (.ok none)
    | .panic => some .panic
    | .item r it' =>
      if keepItem r && q r then
        match key with
        | 0 => some (.ok (some r))
        | key + 1 => nth q n key it'
      else nth q n key it'

/-- The `match` on the result, lines 372-376, 513-517 and 613-617. -/
def oneFile : Option (Outcome Status (Option (Except FfsError FileRef))) → Option (Outcome Status FileRef)
  | none => none
  | some .panic => some .panic
  | some (.err e) => some (.err e)
  | some (.ok (some (.ok f))) => some (.ok f)
  | some (.ok (some (.error e))) => some (.err (.of e))
  | some (.ok none) => some (.err .notFound)

/-- `find(|f| f.name() == name || f.is_err())`, lines 372 and 513. -/
def named (name : Nat) : Except FfsError FileRef → Bool
  | .ok f => f.name == name
  | .error _ => true

/-- `filter(|f| f.is_err() || file_type == ALL || f.file_type_raw() == file_type)`, lines 604-610. -/
def ofType (t : UInt8) : Except FfsError FileRef → Bool
  | .ok f => t == 0 || f.fileType == t
  | .error _ => true

/-- The volume of `this` if it may be read (`READ_STATUS`), lines 358-370, 498-511 and 590-602, and its files. -/
def readable (m : Mem) (info : Info) (this : Nat) : Outcome Status (VolumeRef × FIter) :=
  match volumeOf m info .volume this with
  | .err e => .err e
  | .panic => .panic
  | .ok (_, v) =>
    if v.attributes &&& 4 = 0 then .err .accessDenied
    else
      match v.iter with
      | .ok it => .ok (v, it)
      | _ => .panic

/-- The file of that name. -/
def findFile (m : Mem) (info : Info) (fuel this name : Nat) : Option (Outcome Status FileRef) :=
  match readable m info this with
  | .err e => some (.err e)
  | .panic => some .panic
  | .ok (_, it) => oneFile (nth (named name) fuel 0 it)

/-- `FileRef::fv_attributes`, `/repo/sdk/patina_ffs/src/file.rs` lines 188-212. -/
def fileAttributes (attrs : UInt8) : Nat := alignExp attrs ||| (if attrs &&& 0x04 ≠ 0 then 0x100 else 0)

/-- What `fv_read_file` does: status; type, attributes and size it reports; the address it stores in `*buffer`; the address and the bytes it
copies. -/
structure FileOut where
  status : Status
  info : Option (UInt8 × Nat × Nat)
  buffer : Option Nat
  copied : Option (Nat × List UInt8)
deriving DecidableEq, Repr

/-- Lines 388-428, for a file that has been found. `buffer` is `none` for a null pointer, `some p` if `*buffer` is `p`; `size` is `*buffer_size`. -/
def deliver (alloc : Nat → Except Status Nat) (f : FileRef) (buffer : Option Nat) (size : Nat) : FileOut :=
  match f.content with
  | .ok c =>
    let md := (f.fileType, fileAttributes f.attrs, c.length)
    match buffer with
    | none => ⟨.success, some md, none, none⟩
    | some p =>
      if size > 0 then
        if size < c.length then ⟨.bufferTooSmall, some md, none, none⟩
        else if p = 0 then ⟨.invalidParameter, some md, none, none⟩
        else ⟨.success, some md, none, some (p, c)⟩
      else
        match alloc c.length with
        | .error e => ⟨e, some md, none, none⟩
        | .ok a => ⟨.success, some md, some a, some (a, c)⟩
  | _ => ⟨.panics, none, none, none⟩

/-- `fv_read_file`, lines 332-429. -/
def readFile (alloc : Nat → Except Status Nat) (m : Mem) (info : Info) (fuel this : Nat) (args : Bool) (name : Nat) (buffer : Option Nat) (size : Nat) :
    Option FileOut :=
  if !args then some ⟨.invalidParameter, none, none, none⟩
  else
    match findFile m info fuel this name with
    | none => none
    | some (.ok f) => some (deliver alloc f buffer size)
    | some (.err e) => some ⟨e, none, none, none⟩
    | some .panic => some ⟨.panics, none, none, none⟩

/-- `Section::sections`, `/repo/sdk/patina_ffs/src/section.rs` lines 568-576. -/
def flat (s : Section) : List Section := if s.encap then s :: s.subs else [s]

/-- The loop of `sections_with_extractor`, `/repo/sdk/patina_ffs/src/file.rs` lines 263-274: every section is extracted as soon as it is parsed; the
first error ends it. `depth` bounds the nesting, see `Section.extract`. -/
def extractAll (dbg : Bool) (x : Extractor) (depth : Nat) : Nat → SIter → Outcome FfsError (List Section)
  | 0, _ => .panic
  | n + 1, it =>
    match it.step dbg with
    | .done => .ok []
    | .panic => .panic
    | .item (.error e) _ => .err e
    | .item (.ok s) it' =>
      match s.extract dbg x depth with
      | .ok s' =>
        match extractAll dbg x depth n it' with
        | .ok ss => .ok (s' :: ss)
        | r => r
      | .err e => .err e
      | .panic => .panic

/-- `sections_with_extractor`, file.rs lines 262-277. -/
def withExtractor (dbg : Bool) (x : Extractor) (depth : Nat) (f : FileRef) : Outcome FfsError (List Section) :=
  match f.content with
  | .ok c =>
    match extractAll dbg x depth (c.length + 2) ⟨c, 0, false⟩ with
    | .ok ss => .ok (ss.flatMap flat)
    | .err e => .err e
    | .panic => .panic
  | _ => .panic

/-- The end of `core_fv_read_section`, lines 519-530. -/
def sectionOf (dbg : Bool) (x : Extractor) (depth : Nat) (f : FileRef) (ty : UInt8) (inst : Nat) : Outcome Status Section :=
  match withExtractor dbg x depth f with
  | .ok ss =>
    match (ss.filter fun s => s.hdr.ty == ty)[inst]? with
    | some s => .ok s
    | none => .err .notFound
  | .err e => .err (.of e)
  | .panic => .panic

/-- What `fv_read_section` does: status, size it reports, the address it stores in `*buffer`, the address and the bytes it copies. -/
structure SectionOut where
  status : Status
  size : Option Nat
  buffer : Option Nat
  copied : Option (Nat × List UInt8)
deriving DecidableEq, Repr

/-- Lines 459-491, for the data of the section. `p` is `*buffer`, `size` is `*buffer_size`. Copying panics if the buffer is larger than the data. -/
def deliverSection (alloc : Nat → Except Status Nat) (d : List UInt8) (p size : Nat) : SectionOut :=
  if p = 0 then
    match alloc d.length with
    | .error e => ⟨e, none, none, none⟩
    | .ok a => ⟨.success, some d.length, some a, some (a, d)⟩
  else if d.length < size then ⟨.panics, some d.length, none, none⟩
  else ⟨if size < d.length then .warnBufferTooSmall else .success, some d.length, none, some (p, d.take size)⟩

/-- `fv_read_section`, lines 431-531. -/
def readSection (dbg : Bool) (alloc : Nat → Except Status Nat) (x : Extractor) (depth : Nat) (m : Mem) (info : Info) (fuel this : Nat) (args : Bool)
    (name : Nat) (ty : UInt8) (inst p size : Nat) : Option SectionOut :=
  if !args then some ⟨.invalidParameter, none, none, none⟩
  else
    match findFile m info fuel this name with
    | none => none
    | some (.err e) => some ⟨e, none, none, none⟩
    | some .panic => some ⟨.panics, none, none, none⟩
    | some (.ok f) =>
      match sectionOf dbg x depth f ty inst with
      | .err e => some ⟨e, none, none, none⟩
      | .panic => some ⟨.panics, none, none, none⟩
      | .ok s =>
        match s.content with
        | .ok d => some (deliverSection alloc d p size)
        | .err e => some ⟨.of e, none, none, none⟩
        | .panic => some ⟨.panics, none, none, none⟩

/-- What `fv_get_next_file` writes: key, name, attributes, size and type. -/
structure NextOut where
  key : Nat
  name : Nat
  attrs : Nat
  size : Nat
  type : UInt8
deriving DecidableEq, Repr

/-- `fv_get_next_file`, lines 542-631. In the outer function `fv_attributes` are those of the file, which never have the bit of line 572. -/
def nextFile (m : Mem) (info : Info) (fuel this : Nat) (args : Bool) (key : Nat) (t : UInt8) : Option (Status × Option NextOut) :=
  if !args then some (.invalidParameter, none)
  else if t ≥ 0xF1 then some (.notFound, none)
  else
    match readable m info this with
    | .err e => some (e, none)
    | .panic => some (.panics, none)
    | .ok (v, it) =>
      match oneFile (nth (ofType t) fuel key it) with
      | none => none
      | some (.err e) => some (e, none)
      | some .panic => some (.panics, none)
      | some (.ok f) =>
        some (.success, some ⟨key + 1, f.name,
          fileAttributes f.attrs ||| (if v.attributes &&& 0x400 = 0x400 then 0x200 else 0), f.data.length, f.fileType⟩)

/-! ### Installing volumes -/

/-- `FvPiWgDevicePath::new_worker`, lines 720-744: a media node with a GUID, then the end node. -/
def guidPath (sub : UInt8) (name : Nat) : List UInt8 := [4, sub, 20, 0] ++ leBytes 16 name ++ [0x7f, 0xff, 4, 0]

/-- Lines 763-787: a memory mapped node with the first address and the sum of base and size, then the end node. -/
def mmapPath (base size : Nat) : List UInt8 :=
  [1, 3, 24, 0] ++ leBytes 4 11 ++ leBytes 8 base ++ leBytes 8 ((base + size) % 2 ^ 64) ++ [0x7f, 0xff, 4, 0]

/-- Lines 755-789: the device path of a volume. Media sub type 7 is a firmware volume. -/
def volumePath (dbg : Bool) (m : Mem) (base : Nat) : Outcome Status (List UInt8) :=
  match openVolume m base with
  | .err e => .err (.of e)
  | .panic => .panic
  | .ok v =>
    match v.extHeader with
    | .ok (some (h, _)) => .ok (guidPath 7 h.name)
    | .ok none => if dbg && decide (2 ^ 64 ≤ base + v.length) then .panic else .ok (mmapPath base v.length)
    | _ => .panic

/-- What changes besides the protocol database: the interfaces of volumes, device paths that have been allocated, and everything else. -/
structure Rest (β : Type) where
  info : Info
  paths : BMap (List UInt8)
  other : β

variable {β : Type}

/-- `firmware_volume_block::PROTOCOL_GUID`, `/repo/sdk/patina_pi/src/protocols/firmware_volume_block.rs` line 21, as the number of its bytes (like
`Services.PATH`). -/
def BLOCK : Nat := 0xa94f648f50e8b14d9ce20b44698e8da4

/-- `firmware_volume::PROTOCOL_GUID`, `/repo/sdk/patina_pi/src/protocols/firmware_volume.rs` line 27. -/
def VOLUME : Nat := 0xb6730e22db6b13448405b974b108619a

/-- The status of a failed call of the protocol database. -/
def Status.ofDb : Protocol.Err → Status
  | .invalidParameter => .invalidParameter
  | .notFound => .notFound
  | .unsupported => .unsupported
  | .accessDenied => .accessDenied
  | .alreadyStarted => .alreadyStarted

/-- `core_install_protocol_interface` with the status of this module. -/
def installOn (w : Services.World (Rest β)) (quiet : Bool) (s : Services.St (Rest β)) (h : Option Nat) (g i : Nat) :
    Outcome Status Nat × Services.St (Rest β) :=
  match Services.coreInstall w quiet s h g i with
  | (.ok h, s) => (.ok h, s)
  | (.err e, s) => (.err (.ofDb e), s)
  | (.panic, s) => (.panic, s)

/-- The addresses of the three allocations of one installation: the device path and the two interfaces. -/
structure Boxes where
  path : Nat
  block : Nat
  volume : Nat

/-- `install_fv_device_path_protocol`, lines 748-794. -/
def installPath (dbg : Bool) (w : Services.World (Rest β)) (quiet : Bool) (m : Mem) (s : Services.St (Rest β)) (base p : Nat) :
    Outcome Status Nat × Services.St (Rest β) :=
  match volumePath dbg m base with
  | .err e => (.err e, s)
  | .panic => (.panic, s)
  | .ok b => installOn w quiet { s with rest := { s.rest with paths := s.rest.paths.insert p b } } none Services.PATH p

/-- `install_fvb_protocol`, lines 264-290, and `install_fv_protocol`, lines 651-683. The parent handle, which is only stored in the interface, is left
out. -/
def installKind (w : Services.World (Rest β)) (quiet : Bool) (s : Services.St (Rest β)) (h : Nat) (k : Kind) (base p : Nat) :
    Outcome Status Nat × Services.St (Rest β) :=
  installOn w quiet { s with rest := { s.rest with info := s.rest.info.insert p (k, base) } } (some h)
    (match k with | .block => BLOCK | .volume => VOLUME) p

/-- `core_install_firmware_volume`, lines 797-806. -/
def installVolume (dbg : Bool) (w : Services.World (Rest β)) (quiet : Bool) (m : Mem) (s : Services.St (Rest β)) (base : Nat) (b : Boxes) :
    Outcome Status Nat × Services.St (Rest β) :=
  match installPath dbg w quiet m s base b.path with
  | (.ok h, s) =>
    match installKind w quiet s h .block base b.block with
    | (.ok _, s) =>
      match installKind w quiet s h .volume base b.volume with
      | (.ok _, s) => (.ok h, s)
      | r => r
    | r => r
  | r => r

/-- `parse_hob_fvs`, lines 820-834. For each volume HOB: base address, length and the allocations its installation makes. The result is the status. -/
def installHobs (dbg : Bool) (w : Services.World (Rest β)) (quiet : Bool) (m : Mem) : List (Nat × Nat × Boxes) → Services.St (Rest β) →
    Outcome Status Unit × Services.St (Rest β)
  | [], s => (.ok (), s)
  | (base, len, b) :: l, s =>
    match VolumeRef.new (bytesAt m base len) with
    | .err e => (.err (.of e), s)
    | .panic => (.panic, s)
    | .ok _ =>
      match installVolume dbg w quiet m s base b with
      | (.ok _, s) => installHobs dbg w quiet m l s
      | (.err e, s) => (.err e, s)
      | (.panic, s) => (.panic, s)

/-- What `device_path_bytes_for_fv_file` answers. -/
inductive PathOut where
  | ok (bytes : List UInt8)
  | err (s : Status)
  | other (r : DevicePath.Res (List UInt8))
deriving DecidableEq

/-- `device_path_bytes_for_fv_file`, lines 809-817. `at_` is the memory a pointer points at, see `Verif/DevicePath/Model`. -/
def filePath (db : Protocol.Db) (at_ : Nat → List UInt8) (fuel h name : Nat) : PathOut :=
  match db.getInterface h Services.PATH with
  | .ok p =>
    match DevicePath.concat fuel (some (at_ p)) (some (guidPath 6 name)) with
    | .ok b => .ok b
    | r => .other r
  | .err e => .err (.ofDb e)
  | .panic => .err .panics

end Verif.Fv
