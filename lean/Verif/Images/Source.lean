import Verif.DevicePath.Model
/-!
Model of where the bytes of an image come from and who is asked whether it may be loaded: `/repo/patina_dxe_core/src/image.rs` lines 762-1073 and 1160-1205, with
`/repo/patina_dxe_core/src/filesystems.rs`.

The protocols that are called (firmware volume, file system, file, load file, security) are arbitrary functions of an arbitrary state (`Env`): they may be stateful and answer what they like. All
calls are kept, in order, with what they are given (`St.calls`). An error is its status code; `EfiError::status_to_result` keeps the code (`Verif/Status`). A path is the memory it is in, as in
`Verif/DevicePath`.

Left out: logging, performance records; the search for a device (`core_locate_device_path`, modelled in `Verif/Services/Locate`) and the loader (`core_load_pe_image` and the installation of the
interfaces, modelled in `Verif/Pecoff`, `Verif/ImageMem` and `Verif/Images/Interfaces`) are functions of `Env`.
-/
namespace Verif.Images.Source
open Verif.DevicePath (readHeader nodeNew isEnd NodeBuf)

/-- Status codes of r-efi. -/
def SUCCESS : Nat := 0
def LOAD_ERROR : Nat := 0x8000000000000001
def INVALID_PARAMETER : Nat := 0x8000000000000002
def UNSUPPORTED : Nat := 0x8000000000000003
def BAD_BUFFER_SIZE : Nat := 0x8000000000000004
def BUFFER_TOO_SMALL : Nat := 0x8000000000000005
def DEVICE_ERROR : Nat := 0x8000000000000007
def NOT_FOUND : Nat := 0x800000000000000e
def ACCESS_DENIED : Nat := 0x800000000000000f

/-- What a call comes to. -/
inductive Res (α : Type) where
  | ok (a : α)
  | err (status : Nat)
  | panic
  /-- memory is read or written that is not the call's -/
  | fault
  /-- a loop over a device path did not end -/
  | running
deriving DecidableEq, Repr

/-- The protocols by which bytes are found. -/
inductive Proto where
  | firmwareVolume | simpleFileSystem | loadFile2 | loadFile | devicePath
deriving DecidableEq, Repr

/-- A path: the memory it is in. -/
abbrev Path := List UInt8

/-- The calls that are made, with their arguments. -/
inductive Call where
  | readSection (fv : Nat) (name : List UInt8) (type inst : Nat)
  | openVolume (sfs : Nat)
  | openFile (file : Nat) (name : List Nat) (mode attributes : Nat)
  | getInfo (file size : Nat)
  | setPosition (file pos : Nat)
  | readFile (file size : Nat)
  | loadFile (lf : Nat) (path : Path) (policy : Bool) (size : Nat) (null : Bool)
  | fileAuthentication (path : Option Path) (bytes : List UInt8) (policy : Bool)
  | authenticationState (status : Nat) (path : Option Path)
  | loadPe (bytes : List UInt8) (path : Option Path) (device : Option Nat)
deriving DecidableEq, Repr

/-- What is outside: the protocol database, the drivers and the loader, with a state of their own. -/
structure Env (σ : Type) where
  /-- `core_locate_device_path`: what remains of the path, and the handle -/
  locate : σ → Proto → Path → Except Nat (Path × Nat)
  /-- `get_interface_for_handle`; 0 is the null pointer -/
  iface : σ → Nat → Proto → Except Nat Nat
  /-- the device path interface of a handle -/
  devicePath : σ → Nat → Option Path
  /-- status and the section; `none` is a null pointer; authentication status -/
  readSection : σ → Nat → List UInt8 → Nat → Nat → (Nat × Option (List UInt8) × Nat) × σ
  /-- status, root file (0: null) -/
  openVolume : σ → Nat → (Nat × Nat) × σ
  openFile : σ → Nat → List Nat → Nat → Nat → (Nat × Nat) × σ
  /-- size of the buffer (0 with a null pointer); status, size, bytes written -/
  getInfo : σ → Nat → Nat → (Nat × Nat × List UInt8) × σ
  setPosition : σ → Nat → Nat → Nat × σ
  readFile : σ → Nat → Nat → (Nat × Nat × List UInt8) × σ
  /-- size of the buffer, whether it is null; status, size, bytes written -/
  loadFile : σ → Nat → Path → Bool → Nat → Bool → (Nat × Nat × List UInt8) × σ
  /-- `locate_protocol` gives Security2 (not null) -/
  hasSecurity2 : σ → Bool
  hasSecurity : σ → Bool
  fileAuthentication : σ → Option Path → List UInt8 → Bool → Nat × σ
  authenticationState : σ → Nat → Option Path → Nat × σ
  /-- `core_load_pe_image` and what follows, to the handle -/
  loadPe : σ → List UInt8 → Option Path → Option Nat → Except Nat Nat × σ
  /-- is a handle valid; has it the loaded image protocol -/
  valid : σ → Nat → Bool
  isImage : σ → Nat → Bool
  /-- the largest buffer that can be allocated -/
  room : Nat

structure St (σ : Type) where
  ext : σ
  calls : List Call

/-- A call with its result and the state after it. -/
def M (σ α : Type) : Type := St σ → Res α × St σ

namespace M
variable {σ α β : Type}
def bind (x : M σ α) (f : α → M σ β) : M σ β := fun s =>
  match x s with
  | (.ok a, s) => f a s
  | (.err e, s) => (.err e, s)
  | (.panic, s) => (.panic, s)
  | (.fault, s) => (.fault, s)
  | (.running, s) => (.running, s)
def ret (a : α) : M σ α := fun s => (.ok a, s)
def fail (e : Nat) : M σ α := fun s => (.err e, s)
def panic : M σ α := fun s => (.panic, s)
def fault : M σ α := fun s => (.fault, s)
def running : M σ α := fun s => (.running, s)
instance : Monad (M σ) where
  pure := ret
  bind := bind
/-- One of the functions of `Env`, noted. -/
def call (c : Call) (f : σ → α × σ) : M σ α := fun s => (.ok (f s.ext).1, ⟨(f s.ext).2, s.calls ++ [c]⟩)
/-- A question that changes nothing. -/
def ask (f : σ → α) : M σ α := fun s => (.ok (f s.ext), s)
/-- `EfiError::status_to_result(status)?` -/
def check (status : Nat) : M σ Unit := if status = SUCCESS then ret () else fail status
/-- `?` on a result that is there. -/
def ofExcept (r : Except Nat α) : M σ α :=
  match r with
  | .ok a => ret a
  | .error e => fail e
/-- `vec![0u8; n]`. -/
def alloc (room n : Nat) : M σ Unit := if n ≤ room then ret () else panic
/-- The buffer of `n` zero bytes after `d` was written to it. -/
def fill (n : Nat) (d : List UInt8) : M σ (List UInt8) :=
  if d.length ≤ n then ret (d ++ List.replicate (n - d.length) 0) else fault
/-- `let Ok(a) = x`: an error is dropped. -/
def attempt (x : M σ α) : M σ (Option α) := fun s =>
  match x s with
  | (.ok a, s) => (.ok (some a), s)
  | (.err _, s) => (.ok none, s)
  | (.panic, s) => (.panic, s)
  | (.fault, s) => (.fault, s)
  | (.running, s) => (.running, s)
end M

variable {σ : Type} (env : Env σ)

/-- `EFI_SECTION_PE32`, `TYPE_MEDIA`, `SUBTYPE_PIWG_FIRMWARE_FILE`, `SUBTYPE_FILE_PATH`, `MODE_READ`, `DIRECTORY`. -/
def PE32 : Nat := 0x10
def TYPE_MEDIA : UInt8 := 4
def SUB_FIRMWARE_FILE : UInt8 := 6
def SUB_FILE_PATH : UInt8 := 4
def MODE_READ : Nat := 1
def DIRECTORY : Nat := 0x10

/-- A step of `DevicePathWalker`: see `Verif/DevicePath`. -/
def node (p : Path) : M σ (Option NodeBuf) :=
  match nodeNew p with
  | .ok n => M.ret n
  | .err _ => M.fault
  | .panic => M.panic
  | .fault => M.fault
  | .running => M.running

/-- `get_file_guid_from_device_path`, image.rs lines 797-806: the 16 bytes. -/
def fileGuid (p : Path) : M σ (List UInt8) := do
  match ← node p with
  | none => M.fail INVALID_PARAMETER
  | some n =>
    if n.header.type ≠ TYPE_MEDIA ∨ n.header.sub ≠ SUB_FIRMWARE_FILE then M.fail INVALID_PARAMETER
    else if n.data.length ≠ 16 then M.fail BAD_BUFFER_SIZE
    else M.ret n.data

/-- `get_file_buffer_from_fw`, lines 808-846. `dbg`: the debug assertion of line 822. -/
def fromFv (dbg : Bool) (path : Path) : M σ (List UInt8 × Nat) := do
  let r ← M.ask (env.locate · .firmwareVolume path)
  let (rest, h) ← M.ofExcept r
  let name ← fileGuid rest
  let r ← M.ask (env.iface · h .firmwareVolume)
  let fv ← M.ofExcept r
  if fv = 0 then (if dbg then M.panic else M.fail INVALID_PARAMETER)
  else do
    let (status, section_, _auth) ← M.call (.readSection fv name PE32 0) (env.readSection · fv name PE32 0)
    M.check status
    match section_ with
    | none => M.fault
    | some b => M.ret (b, h)

/-- `data().chunks_exact(2)`: the words of a name, an odd byte dropped; image.rs lines 866-876. -/
def words : List UInt8 → List Nat
  | a :: b :: rest => leVal [a, b] :: words rest
  | _ => []

/-- What the other side sees of a name: all to the first zero. Without one it reads on behind the buffer. -/
def name (ws : List Nat) : Option (List Nat) := if 0 ∈ ws then some (ws.takeWhile (· ≠ 0)) else none

/-- `SimpleFile::open`, filesystems.rs lines 23-37. -/
def openFile (file : Nat) (ws : List Nat) : M σ Nat :=
  match name ws with
  | none => M.fault
  | some nm => do
    let (status, f) ← M.call (.openFile file nm MODE_READ 0) (env.openFile · file nm MODE_READ 0)
    M.check status
    if f = 0 then M.fail NOT_FOUND else M.ret f

/-- `SimpleFile::open_volume`, filesystems.rs lines 40-56. -/
def openVolume (h : Nat) : M σ Nat := do
  let r ← M.ask (env.iface · h .simpleFileSystem)
  let sfs ← M.ofExcept r
  if sfs = 0 then M.fail NOT_FOUND
  else do
    let (status, f) ← M.call (.openVolume sfs) (env.openVolume · sfs)
    M.check status
    if f = 0 then M.fail NOT_FOUND else M.ret f

/-- `SimpleFile::get_info`, filesystems.rs lines 59-82. -/
def getInfo (file : Nat) : M σ (List UInt8) := do
  let (status, size, _) ← M.call (.getInfo file 0) (env.getInfo · file 0)
  if status = BUFFER_TOO_SMALL then do
    M.alloc env.room size
    let (status, _, d) ← M.call (.getInfo file size) (env.getInfo · file size)
    let buf ← M.fill size d
    M.check status
    M.ret buf
  else if status = SUCCESS then M.fail DEVICE_ERROR
  else M.fail status

/-- `chunks_exact(8).nth(n)`, read as a number. -/
def word64 (b : List UInt8) (n : Nat) : Option Nat := if 8 * (n + 1) ≤ b.length then some (leVal ((b.drop (8 * n)).take 8)) else none

/-- `SimpleFile::get_size`, filesystems.rs lines 85-94. -/
def getSize (file : Nat) : M σ Nat := do
  let b ← getInfo env file
  match word64 b 1 with
  | none => M.fail NOT_FOUND
  | some n => M.ret n

/-- `SimpleFile::get_attribute`, filesystems.rs lines 97-106. -/
def getAttribute (file : Nat) : M σ Nat := do
  let b ← getInfo env file
  match word64 b 9 with
  | none => M.fail NOT_FOUND
  | some n => M.ret n

/-- `SimpleFile::read`, filesystems.rs lines 109-130. -/
def readFile (file : Nat) : M σ (List UInt8) := do
  let a ← getAttribute env file
  if a &&& DIRECTORY ≠ 0 then M.fail NOT_FOUND
  else do
    let size ← getSize env file
    M.alloc env.room size
    let status ← M.call (.setPosition file 0) (env.setPosition · file 0)
    M.check status
    let (status, got, d) ← M.call (.readFile file size) (env.readFile · file size)
    let buf ← M.fill size d
    M.check status
    if size < got then M.panic else M.ret (buf.take got)

/-- The loop of `get_file_buffer_from_sfs`, image.rs lines 857-879. A step of the walker goes on by 4 bytes at least, so that as many steps as there are bytes are enough. -/
def openAll : Nat → Path → Nat → M σ Nat
  | 0, _, _ => M.fault
  | fuel + 1, p, file => do
    match ← node p with
    | none => M.ret file
    | some n =>
      if n.header.type = TYPE_MEDIA ∧ n.header.sub = SUB_FILE_PATH then do
        let f ← openFile env file (words n.data)
        openAll fuel (p.drop n.header.length) f
      else if n.header.type = 0x7f then M.ret file
      else M.fail UNSUPPORTED

/-- `get_file_buffer_from_sfs`, image.rs lines 848-884. -/
def fromSfs (path : Path) : M σ (List UInt8 × Nat) := do
  let r ← M.ask (env.locate · .simpleFileSystem path)
  let (rest, h) ← M.ofExcept r
  let root ← openVolume env h
  let file ← openAll env (rest.length + 1) rest root
  let b ← readFile env file
  M.ret (b, h)

/-- `get_file_buffer_from_load_protocol`, image.rs lines 886-931. -/
def fromLoadFile (g : Proto) (policy : Bool) (path : Path) : M σ (List UInt8 × Nat) :=
  if ¬ (g = .loadFile ∨ g = .loadFile2) then M.fail INVALID_PARAMETER
  else if g = .loadFile2 ∧ policy then M.fail INVALID_PARAMETER
  else do
    let r ← M.ask (env.locate · g path)
    let (rest, h) ← M.ofExcept r
    let r ← M.ask (env.iface · h g)
    let lf ← M.ofExcept r
    if lf = 0 then M.fail UNSUPPORTED
    else do
      let (status, size, _) ← M.call (.loadFile lf rest policy 0 true) (env.loadFile · lf rest policy 0 true)
      if status = BUFFER_TOO_SMALL then do
        M.alloc env.room size
        let (status, _, d) ← M.call (.loadFile lf rest policy size false) (env.loadFile · lf rest policy size false)
        let buf ← M.fill size d
        M.check status
        M.ret (buf, h)
      else if status = SUCCESS then M.fail DEVICE_ERROR
      else M.fail status

/-- The bytes, whether they are from a firmware volume, the device (`none`: `INVALID_HANDLE`), the authentication status. -/
structure Found where
  bytes : List UInt8
  fromFv : Bool
  device : Option Nat
  auth : Nat
deriving DecidableEq, Repr

/-- `get_buffer_by_file_path`, image.rs lines 762-795. -/
def byPath (dbg policy : Bool) (path : Option Path) : M σ Found :=
  match path with
  | none => M.fail INVALID_PARAMETER
  | some p => do
    match ← M.attempt (fromFv env dbg p) with
    | some (b, h) => M.ret ⟨b, true, some h, 0⟩
    | none =>
    match ← M.attempt (fromSfs env p) with
    | some (b, h) => M.ret ⟨b, false, some h, 0⟩
    | none =>
    match ← (if policy then M.ret none else M.attempt (fromLoadFile env .loadFile2 false p)) with
    | some (b, h) => M.ret ⟨b, false, some h, 0⟩
    | none =>
    match ← M.attempt (fromLoadFile env .loadFile policy p) with
    | some (b, h) => M.ret ⟨b, false, some h, 0⟩
    | none => M.fail NOT_FOUND

/-- `authenticate_image`, image.rs lines 934-983: the status. -/
def authenticate (path : Option Path) (image : List UInt8) (policy fromFv : Bool) (status : Nat) : M σ Nat := do
  let s2 ← M.ask env.hasSecurity2
  let s1 ← M.ask env.hasSecurity
  if s2 then do
    let st ← M.call (.fileAuthentication path image policy) (env.fileAuthentication · path image policy)
    if st = SUCCESS ∧ fromFv then
      if s1 then M.call (.authenticationState status path) (env.authenticationState · status path)
      else M.panic
    else M.ret st
  else if s1 then M.call (.authenticationState status path) (env.authenticationState · status path)
  else M.ret SUCCESS

/-- `?` on a result of the functions on device paths. -/
def lift {α : Type} (r : DevicePath.Res α) : M σ α :=
  match r with
  | .ok a => M.ret a
  | .err _ => M.fail INVALID_PARAMETER
  | .panic => M.panic
  | .fault => M.fault
  | .running => M.running

/-- `fixed_file_path`, image.rs lines 1042-1062: what follows the path of the device. -/
def fixedPath (fuel : Nat) (path : Option Path) (device : Option Nat) : M σ (Option Path) :=
  match device, path with
  | none, p => M.ret p
  | some _, none => M.ret none
  | some h, some p => do
    match ← M.ask (env.devicePath · h) with
    | none => M.ret (some p)
    | some dp => do
      let (_, size) ← lift (DevicePath.nodeCount fuel (some dp))
      M.ret (some (p.drop (size - 4)))

/-- The path kept with the image, image.rs lines 1042-1071: a copy of it. -/
def keptPath (fuel : Nat) (path : Option Path) (device : Option Nat) : M σ (Option Path) := do
  match ← fixedPath env fuel path device with
  | none => M.ret none
  | some p => do
    let c ← lift (DevicePath.copy fuel (some p))
    M.ret (some c)

/-- The bytes, image.rs lines 1016-1031. -/
def fetch (dbg policy : Bool) (path : Option Path) (image : Option (List UInt8)) : M σ Found :=
  match image with
  | some b => fun s =>
    match path.map fun p => env.locate s.ext .devicePath p with
    | some (.ok (_, h)) => (.ok ⟨b, false, some h, 0⟩, s)
    | _ => (.ok ⟨b, false, none, 0⟩, s)
  | none => byPath env dbg policy path

/-- Image.rs lines 1016-1153, after the checks. -/
def loadChecked (dbg : Bool) (fuel : Nat) (policy : Bool) (path : Option Path) (image : Option (List UInt8)) : M σ (Nat × Nat) := do
  let found ← fetch env dbg policy path image
  let security ← authenticate env path found.bytes policy found.fromFv found.auth
  let kept ← keptPath env fuel path found.device
  let r ← M.call (.loadPe found.bytes kept found.device) (env.loadPe · found.bytes kept found.device)
  let h ← M.ofExcept r
  M.ret (h, security)

/-- `core_load_image`, image.rs lines 993-1153: the handle and the security status. -/
def coreLoad (dbg : Bool) (fuel : Nat) (policy : Bool) (parent : Nat) (path : Option Path) (image : Option (List UInt8)) : M σ (Nat × Nat) := fun s =>
  if image = none ∧ path = none then (.err INVALID_PARAMETER, s)
  else if ¬ env.valid s.ext parent then (.err INVALID_PARAMETER, s)
  else if ¬ env.isImage s.ext parent then (.err INVALID_PARAMETER, s)
  else loadChecked env dbg fuel policy path image s

/-- `load_image`, image.rs lines 1170-1205: the status, and the handle if one is written. `source` is `none` for a null pointer. -/
def loadImage (dbg : Bool) (fuel : Nat) (policy : Bool) (parent : Nat) (path : Option Path) (source : Option (List UInt8)) (out : Bool) :
    M σ (Nat × Option Nat) := fun s =>
  if ¬ out then (.ok (INVALID_PARAMETER, none), s)
  else if source = some [] then (.ok (LOAD_ERROR, none), s)
  else
    match coreLoad env dbg fuel policy parent path source s with
    | (.ok (h, security), s) => (.ok (security, some h), s)
    | (.err e, s) => (.ok (e, none), s)
    | (.panic, s) => (.panic, s)
    | (.fault, s) => (.fault, s)
    | (.running, s) => (.running, s)

end Verif.Images.Source
