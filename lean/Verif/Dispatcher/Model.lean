import Verif.Depex.Model
/-!
Model of the UEFI driver dispatcher, `/repo/patina_dxe_core/src/dispatcher.rs`.

What runs outside the dispatcher (loading an image, the entry point of a driver, event notifications
delivered when the dispatcher lowers the TPL, the core's own main loop) is arbitrary code. It is
modelled as a tree `Code` of calls back into the dispatcher's API. The rest of the machine is an
arbitrary type `W`, seen by the dispatcher only through the functions of `Env`.

Simplifications:
* Handles are numbers. A driver's device path and the text of log messages are not modelled.
* Every discovered driver and volume image carries a serial number `uid`, which the Rust code does not
  have. Nothing is decided on it; it only names the driver in the log.
* `log` records what the dispatcher did. The Rust code has no such state.
* A volume is given by the outcome of parsing it (`FileEntry`); parsing itself is `Verif/Ffs`.
* A pending `BTreeMap<OrdGuid, Vec<PendingDriver>>` is a list of pairs in order of insertion. The code
  only appends to the vector of a key and removes a whole key, which are `++ [(g, d)]` and the two
  filters in `take`/`leave`.
* The field `executing` (line 134) is initialised to `false` and never written outside tests, so the
  checks in lines 167-169 and 490-492 never fire and are not modelled.
-/
namespace Verif.Dispatcher
open Verif.Depex (Guid Opcode)

/-- `ALL_ARCH_DEPEX`, lines 46-71: the twelve architectural protocols, in order of appearance. -/
def archGuids : List Guid :=
  [
   -- BDS
   ⟨[0xf6, 0x3f, 0x5e, 0x66, 0xcc, 0x46, 0xd4, 0x11, 0x9a, 0x38, 0x00, 0x90, 0x27, 0x3f, 0xc1, 0x4d], rfl⟩,
   -- CPU
   ⟨[0xb1, 0xcc, 0xba, 0x26, 0x42, 0x6f, 0xd4, 0x11, 0xbc, 0xe7, 0x00, 0x80, 0xc7, 0x3c, 0x88, 0x81], rfl⟩,
   -- Metronome
   ⟨[0xb2, 0xcc, 0xba, 0x26, 0x42, 0x6f, 0xd4, 0x11, 0xbc, 0xe7, 0x00, 0x80, 0xc7, 0x3c, 0x88, 0x81], rfl⟩,
   -- Monotonic counter
   ⟨[0x72, 0x70, 0xa9, 0x1d, 0xdc, 0xbd, 0x30, 0x4b, 0x99, 0xf1, 0x72, 0xa0, 0xb5, 0x6f, 0xff, 0x2a], rfl⟩,
   -- Real time clock
   ⟨[0x87, 0xac, 0xcf, 0x27, 0xcc, 0x46, 0xd4, 0x11, 0x9a, 0x38, 0x00, 0x90, 0x27, 0x3f, 0xc1, 0x4d], rfl⟩,
   -- Reset
   ⟨[0x88, 0xac, 0xcf, 0x27, 0xcc, 0x46, 0xd4, 0x11, 0x9a, 0x38, 0x00, 0x90, 0x27, 0x3f, 0xc1, 0x4d], rfl⟩,
   -- Runtime
   ⟨[0xe1, 0xb4, 0xdf, 0xb7, 0x2f, 0x05, 0x9f, 0x44, 0x87, 0xbe, 0x98, 0x18, 0xfc, 0x91, 0xb7, 0x33], rfl⟩,
   -- Security
   ⟨[0xe3, 0x23, 0x64, 0xa4, 0x17, 0x46, 0xf1, 0x49, 0xb9, 0xff, 0xd1, 0xbf, 0xa9, 0x11, 0x58, 0x39], rfl⟩,
   -- Timer
   ⟨[0xb3, 0xcc, 0xba, 0x26, 0x42, 0x6f, 0xd4, 0x11, 0xbc, 0xe7, 0x00, 0x80, 0xc7, 0x3c, 0x88, 0x81], rfl⟩,
   -- Variable write
   ⟨[0x18, 0xf8, 0x41, 0x64, 0x62, 0x63, 0x44, 0x4e, 0xb5, 0x70, 0x7d, 0xba, 0x31, 0xdd, 0x24, 0x53], rfl⟩,
   -- Variable
   ⟨[0xe2, 0x68, 0x56, 0x1e, 0x81, 0x84, 0xd4, 0x11, 0xbc, 0xf1, 0x00, 0x80, 0xc7, 0x3c, 0x88, 0x81], rfl⟩,
   -- Watchdog
   ⟨[0xf5, 0x3f, 0x5e, 0x66, 0xcc, 0x46, 0xd4, 0x11, 0x9a, 0x38, 0x00, 0x90, 0x27, 0x3f, 0xc1, 0x4d], rfl⟩]

/-- `ALL_ARCH_DEPEX`, lines 46-71. -/
def allArchDepex : List Opcode :=
  archGuids.map (fun g => .push g false) ++ List.replicate 11 .and ++ [.fin]

/-- `PendingDriver`, lines 73-81. `readable`: the PE32 section yields its contents
(`try_content_as_slice`). `sec = none` is `SUCCESS`. -/
structure Drv where
  uid : Nat
  fv : Nat
  name : Guid
  depex : Option (List Opcode)
  readable : Bool
  image : Option Nat
  sec : Option EfiError
deriving DecidableEq

/-- `PendingFirmwareVolumeImage`, lines 83-88. Each section is represented by whether it yields its
contents. -/
structure FvImg where
  uid : Nat
  fv : Nat
  name : Guid
  depex : Option (List Opcode)
  sections : List Bool
deriving DecidableEq

/-- `DispatcherContext`, lines 133-143. `next` numbers discovered files. -/
structure Ctx where
  arch : Bool
  pending : List Drv
  images : List FvImg
  before : List (Guid × Drv)
  after : List (Guid × Drv)
  processed : List Nat
  next : Nat

/-- `DispatcherContext::new`, lines 145-158. -/
def Ctx.new : Ctx := ⟨false, [], [], [], [], [], 0⟩

/-- How the dispatcher dealt with a scheduled driver. -/
inductive Verdict where
  /-- `core_start_image` was called. -/
  | started
  /-- Put back because of `SECURITY_VIOLATION`. -/
  | deferred
  /-- Dropped because of another security status. -/
  | refused
  /-- Dropped because it could not be loaded. -/
  | failed
deriving DecidableEq

/-- What the dispatcher did, in order. -/
inductive Ev where
  /-- A volume was searched for files. -/
  | scanned (fv : Nat)
  /-- A driver file was found. -/
  | found (u : Nat) (fv : Nat) (name : Guid) (depex : Option (List UInt8))
  /-- A pass began, with these protocols registered. -/
  | pass (protos : List Guid)
  /-- A pending driver's dependency was evaluated against these protocols. -/
  | judged (u : Nat) (protos : List Guid) (verdict : Bool)
  /-- `core_schedule` found this driver. -/
  | requested (u : Nat)
  /-- `core_trust` found this driver. -/
  | trusted (u : Nat)
  /-- The driver's image was loaded, with this security status. -/
  | loaded (u : Nat) (sec : Option EfiError)
  /-- The dispatcher is done with a scheduled driver. -/
  | handled (u : Nat) (v : Verdict)
  /-- A firmware volume image was installed from this file. -/
  | installed (u : Nat)
deriving DecidableEq

/-- The machine: everything else, the dispatcher's context, and what happened. -/
structure St (W : Type) where
  w : W
  ctx : Ctx
  log : List Ev

variable {W α : Type}

def St.note (s : St W) (e : Ev) : St W := { s with log := s.log ++ [e] }

/-- What parsing yields for one file of a volume. -/
inductive FileEntry where
  /-- `file?`, `sections_with_extractor(..)?` or the depex section's `?` fails. -/
  | bad
  /-- A DRIVER file with a PE32 section. -/
  | driver (name : Guid) (depex : Option (List UInt8)) (readable : Bool)
  /-- A FIRMWARE_VOLUME_IMAGE file. -/
  | image (name : Guid) (depex : Option (List UInt8)) (sections : List Bool)
  /-- Anything else, and DRIVER files without PE32 section. -/
  | other

/-- Code outside the dispatcher: a finite run that may call the dispatcher. -/
inductive Code (W α : Type) where
  /-- Returns `a`, leaving the rest of the machine as `w`. -/
  | ret (w : W) (a : α)
  /-- `core_fw_vol_event_protocol_notify` runs while the located volumes are these; a volume is
  `none` when lines 313-346 skip it. -/
  | volumes (fvs : List (Nat × Option (List FileEntry))) (k : Code W α)
  /-- `core_schedule(fv, name)`. -/
  | schedule (fv : Nat) (name : Guid) (k : Bool → Code W α)
  /-- `core_trust(fv, name)`. -/
  | trust (fv : Nat) (name : Guid) (k : Bool → Code W α)
  /-- `dispatch()` (`one`) or `core_dispatcher()`, called when the rest of the machine is `w`. -/
  | dispatch (one : Bool) (w : W) (k : W → Outcome EfiError Bool → Code W α)

/-- The dispatcher's view of the rest of the machine. -/
structure Env (W : Type) where
  /-- Debug assertions are enabled. -/
  dbg : Bool
  /-- `PROTOCOL_DB.registered_protocols()`. -/
  protos : W → List Guid
  /-- `core_load_image`: `none` is an error; otherwise the handle and the security status. -/
  load : W → Drv → Code W (Option (Nat × Option EfiError))
  /-- `core_start_image`; the result is ignored. -/
  start : W → Nat → Code W Unit
  /-- Notifications delivered when the lock on the context is released. -/
  tick : W → Code W Unit
  /-- `evaluate_auth`, lines 92-115, called with the context locked. -/
  auth : W → FvImg → W × Bool
  /-- `core_install_firmware_volume`, called with the context locked. -/
  install : W → FvImg → Nat → W × Bool

/-- The result of a call: `none` while it has not returned within the fuel. -/
abbrev Res (W α : Type) := Option (Outcome EfiError α × St W)

/-- The record pushed in lines 395-403 for a driver file. -/
def newDriver (u h : Nat) (name : Guid) (depex : Option (List UInt8)) (readable : Bool) : Drv :=
  ⟨u, h, name, depex.map Depex.parse, readable, none, some .notReady⟩

/-- One file of a volume, lines 348-457. -/
def addFile (h : Nat) (f : FileEntry) (s : St W) : St W :=
  match f with
  | .driver name depex readable =>
    { s with
      ctx := { s.ctx with
        pending := s.ctx.pending ++ [newDriver s.ctx.next h name depex readable]
        next := s.ctx.next + 1 }
      log := s.log ++ [.found s.ctx.next h name depex] }
  | .image name depex sections =>
    if sections = [] then s
    else { s with ctx := { s.ctx with
        images := s.ctx.images ++ [⟨s.ctx.next, h, name, depex.map Depex.parse, sections⟩]
        next := s.ctx.next + 1 } }
  | _ => s

/-- The files of a volume, lines 348-457; `false` when `?` returns early. -/
def addFiles (h : Nat) : List FileEntry → St W → Bool × St W
  | [], s => (true, s)
  | .bad :: _, s => (false, s)
  | f :: fs, s => addFiles h fs (addFile h f s)

/-- `processed_fvs.insert(handle)`, line 303. -/
def markProcessed (h : Nat) (s : St W) : St W :=
  { s with ctx := { s.ctx with processed := h :: s.ctx.processed }, log := s.log ++ [.scanned h] }

/-- One handle of `add_fv_handles`, lines 302-458. -/
def addFv (h : Nat) (files : Option (List FileEntry)) (s : St W) : Bool × St W :=
  if h ∈ s.ctx.processed then (true, s)
  else match files with
    | none => (true, markProcessed h s)
    | some fs => addFiles h fs (markProcessed h s)

/-- `add_fv_handles`, lines 300-461; `false` when it returns an error. -/
def addFvs : List (Nat × Option (List FileEntry)) → St W → Bool × St W
  | [], s => (true, s)
  | (h, files) :: rest, s =>
    match addFv h files s with
    | (true, s') => addFvs rest s'
    | (false, s') => (false, s')

/-- The condition in lines 466-469. -/
def wantsSchedule (h : Nat) (name : Guid) (d : Drv) : Bool :=
  d.fv == h && d.name == name && (match d.depex with | some ops => Depex.isSor ops | none => false)

/-- The first element that satisfies `p`, changed by `f` (the loops of lines 465-474 and 480-485). -/
def updateFirst (p : Drv → Bool) (f : Drv → Drv) : List Drv → Option Nat × List Drv
  | [] => (none, [])
  | d :: ds =>
    if p d then (some d.uid, f d :: ds)
    else ((updateFirst p f ds).1, d :: (updateFirst p f ds).2)

/-- Stores the updated drivers and notes which one was hit. -/
def noteUpdate (ev : Nat → Ev) (s : St W) (r : Option Nat × List Drv) : Bool × St W :=
  match r.1 with
  | some u => (true, { s with ctx := { s.ctx with pending := r.2 }, log := s.log ++ [ev u] })
  | none => (false, s)

/-- `core_schedule`, lines 463-476. -/
def schedule (h : Nat) (name : Guid) (s : St W) : Bool × St W :=
  noteUpdate .requested s (updateFirst (wantsSchedule h name)
    (fun d => { d with depex := d.depex.map Depex.schedule }) s.ctx.pending)

/-- `core_trust`, lines 478-487. -/
def trust (h : Nat) (name : Guid) (s : St W) : Bool × St W :=
  noteUpdate .trusted s (updateFirst (fun d => d.fv == h && d.name == name)
    (fun d => { d with sec := none }) s.ctx.pending)

/-- Running outside code. `api` runs the two dispatch entry points. `expect` in line 530 turns an
error of `add_fv_handles` into a panic. -/
def run (api : Bool → St W → Res W Bool) : Code W α → St W → Res W α
  | .ret w a, s => some (.ok a, { s with w := w })
  | .volumes fvs k, s =>
    match addFvs fvs s with
    | (true, s') => run api k s'
    | (false, s') => some (.panic, s')
  | .schedule h f k, s => run api (k (schedule h f s).1) (schedule h f s).2
  | .trust h f k, s => run api (k (trust h f s).1) (trust h f s).2
  | .dispatch one w k, s =>
    match api one { s with w := w } with
    | none => none
    | some (.panic, s') => some (.panic, s')
    | some (.ok b, s') => run api (k s'.w (.ok b)) s'
    | some (.err e, s') => run api (k s'.w (.err e)) s'

/-- The evaluation of one candidate, lines 180-183. -/
def judge (dbg : Bool) (protos : List Guid) (arch : Bool) (d : Drv) : Outcome EfiError (Bool × Drv) :=
  match d.depex with
  | none => .ok (arch, d)
  | some ops =>
    match Depex.eval dbg protos ops with
    | (.ok b, ops') => .ok (b, { d with depex := some ops' })
    | (_, _) => .panic

/-- Where an unsatisfied candidate goes, lines 187-195. -/
def shelve (d : Drv) (c : Ctx) : Ctx :=
  match d.depex.bind Depex.isAssociated with
  | some (.before g) => { c with before := c.before ++ [(g, d)] }
  | some (.after g) => { c with after := c.after ++ [(g, d)] }
  | none => { c with pending := c.pending ++ [d] }

/-- The loop of lines 177-197: the eligible drivers in order, and the state after shelving the rest. -/
def sift (dbg : Bool) (protos : List Guid) : List Drv → St W → Outcome EfiError (List Drv × St W)
  | [], s => .ok ([], s)
  | d :: ds, s =>
    match judge dbg protos s.ctx.arch d with
    | .ok (true, d') =>
      match sift dbg protos ds (s.note (.judged d.uid protos true)) with
      | .ok (es, s') => .ok (d' :: es, s')
      | .err e => .err e
      | .panic => .panic
    | .ok (false, d') =>
      sift dbg protos ds { s with ctx := shelve d' s.ctx, log := s.log ++ [.judged d.uid protos false] }
    | .err e => .err e
    | .panic => .panic

/-- `associated.remove(&filename).unwrap_or_default()`: the removed drivers. -/
def take (name : Guid) (m : List (Guid × Drv)) : List Drv := (m.filter (·.1 == name)).map (·.2)

/-- `associated.remove(&filename)`: what is left. -/
def leave (name : Guid) (m : List (Guid × Drv)) : List (Guid × Drv) := m.filter (fun p => !(p.1 == name))

/-- The `flat_map` of lines 200-210. -/
def expand : List Drv → Ctx → List Drv × Ctx
  | [], c => ([], c)
  | d :: ds, c =>
    let r := expand ds { c with before := leave d.name c.before, after := leave d.name c.after }
    (take d.name c.before ++ d :: take d.name c.after ++ r.1, r.2)

/-- Line 175: evaluating the built-in expression for the architectural protocols. -/
def archNow (dbg : Bool) (protos : List Guid) : Outcome EfiError Bool :=
  match (Depex.eval dbg protos allArchDepex).1 with
  | .ok b => .ok b
  | _ => .panic

/-- Lines 174-176. -/
def latchArch (dbg : Bool) (protos : List Guid) (c : Ctx) : Outcome EfiError Ctx :=
  if c.arch then .ok c
  else match archNow dbg protos with
    | .ok b => .ok { c with arch := b }
    | .err e => .err e
    | .panic => .panic

/-- The first locked block of `dispatch`, lines 171-211: the schedule of this pass. -/
def plan (dbg : Bool) (protos : List Guid) (s : St W) : Outcome EfiError (List Drv × St W) :=
  match latchArch dbg protos s.ctx with
  | .ok c =>
    match sift dbg protos c.pending
        { s with ctx := { c with pending := [] }, log := s.log ++ [.pass protos] } with
    | .ok (es, s') => .ok ((expand es s'.ctx).1, { s' with ctx := (expand es s'.ctx).2 })
    | .err e => .err e
    | .panic => .panic
  | .err e => .err e
  | .panic => .panic

/-- Lines 223-226: the loaded driver. -/
def withImage (d : Drv) (h : Nat) (sec : Option EfiError) : Drv :=
  { d with image := some h, sec := sec }

/-- Lines 240-247: the driver goes back to the pending list. -/
def putBack (d : Drv) (s : St W) : St W :=
  { s with ctx := { s.ctx with pending := s.ctx.pending ++ [d] }, log := s.log ++ [.handled d.uid .deferred] }

/-- A call whose result is replaced by `b` if it returns. -/
def Res.as (b : Bool) (r : Res W Unit) : Res W Bool :=
  match r with
  | none => none
  | some (.ok _, s) => some (.ok b, s)
  | some (.err e, s) => some (.err e, s)
  | some (.panic, s) => some (.panic, s)

/-- Lines 233-256, for a loaded driver: the result says whether a start was attempted. -/
def settle (env : Env W) (api : Bool → St W → Res W Bool) (d : Drv) (h : Nat) (s : St W) : Res W Bool :=
  match d.sec with
  | none => Res.as true (run api (env.start s.w h) (s.note (.handled d.uid .started)))
  | some .securityViolation => Res.as false (run api (env.tick s.w) (putBack d s))
  | some _ => some (.ok false, s.note (.handled d.uid .refused))

/-- Lines 220-231, after `core_load_image` returned. -/
def afterLoad (env : Env W) (api : Bool → St W → Res W Bool) (d : Drv)
    (r : Option (Nat × Option EfiError)) (s : St W) : Res W Bool :=
  match r with
  | none => some (.ok false, s.note (.handled d.uid .failed))
  | some (h, sec) => settle env api (withImage d h sec) h (s.note (.loaded d.uid sec))

/-- One iteration of the loop of lines 215-257. -/
def handle (env : Env W) (api : Bool → St W → Res W Bool) (d : Drv) (s : St W) : Res W Bool :=
  match d.image with
  | some h => settle env api d h s
  | none =>
    if d.readable then
      match run api (env.load s.w d) s with
      | none => none
      | some (.ok r, s') => afterLoad env api d r s'
      | some (.err e, s') => some (.err e, s')
      | some (.panic, s') => some (.panic, s')
    else some (.err .invalidParameter, s)

/-- The loop of lines 214-257. `b` is `dispatch_attempted`. -/
def handleAll (env : Env W) (api : Bool → St W → Res W Bool) : List Drv → Bool → St W → Res W Bool
  | [], b, s => some (.ok b, s)
  | d :: ds, b, s =>
    match handle env api d s with
    | none => none
    | some (.ok a, s') => handleAll env api ds (b || a) s'
    | some (.err e, s') => some (.err e, s')
    | some (.panic, s') => some (.panic, s')

/-- The sections of one eligible volume image, lines 270-288: index of the section, result so far. -/
def installAll (env : Env W) (c : FvImg) : List Bool → Nat → Bool → St W → Outcome EfiError Bool × St W
  | [], _, b, s => (.ok b, s)
  | readable :: rest, i, b, s =>
    if readable then
      let r := env.install s.w c i
      installAll env c rest (i + 1) (b || r.2)
        { s with w := r.1, log := if r.2 then s.log ++ [.installed c.uid] else s.log }
    else (.err .invalidParameter, s)

/-- Lines 264-267. -/
def judgeImage (dbg : Bool) (protos : List Guid) (c : FvImg) : Outcome EfiError (Bool × FvImg) :=
  match c.depex with
  | none => .ok (true, c)
  | some ops =>
    match Depex.eval dbg protos ops with
    | (.ok b, ops') => .ok (b, { c with depex := some ops' })
    | (_, _) => .panic

/-- `pending_firmware_volume_images.push`, line 291. -/
def keepImage (c : FvImg) (s : St W) : St W :=
  { s with ctx := { s.ctx with images := s.ctx.images ++ [c] } }

/-- The loop of lines 263-293. -/
def imagesLoop (env : Env W) : List FvImg → Bool → St W → Outcome EfiError Bool × St W
  | [], b, s => (.ok b, s)
  | c :: cs, b, s =>
    match judgeImage env.dbg (env.protos s.w) c with
    | .ok (true, c') =>
      let a := env.auth s.w c'
      if a.2 then
        match installAll env c' c'.sections 0 b { s with w := a.1 } with
        | (.ok b', s') => imagesLoop env cs b' s'
        | (.err e, s') => (.err e, s')
        | (.panic, s') => (.panic, s')
      else imagesLoop env cs b (keepImage c' { s with w := a.1 })
    | .ok (false, c') => imagesLoop env cs b (keepImage c' s)
    | .err e => (.err e, s)
    | .panic => (.panic, s)

/-- The second locked block, lines 259-294. -/
def imagePhase (env : Env W) (b : Bool) (s : St W) : Outcome EfiError Bool × St W :=
  imagesLoop env s.ctx.images b { s with ctx := { s.ctx with images := [] } }

/-- Lines 259-298: the second locked block and the release of the lock. -/
def finish (env : Env W) (api : Bool → St W → Res W Bool) (b : Bool) (s : St W) : Res W Bool :=
  match imagePhase env b s with
  | (.ok b', s') => Res.as b' (run api (env.tick s'.w) s')
  | (.err e, s') => some (.err e, s')
  | (.panic, s') => some (.panic, s')

/-- Lines 213-298: the unlocked part of a pass, for a given schedule. -/
def perform (env : Env W) (api : Bool → St W → Res W Bool) (ds : List Drv) (s : St W) : Res W Bool :=
  match run api (env.tick s.w) s with
  | none => none
  | some (.ok _, s') =>
    match handleAll env api ds false s' with
    | none => none
    | some (.ok b, s'') => finish env api b s''
    | some (.err e, s'') => some (.err e, s'')
    | some (.panic, s'') => some (.panic, s'')
  | some (.err e, s') => some (.err e, s')
  | some (.panic, s') => some (.panic, s')

/-- `dispatch`, lines 166-298. `api` runs calls that outside code makes back into the dispatcher. -/
def pass (env : Env W) (api : Bool → St W → Res W Bool) (s : St W) : Res W Bool :=
  match plan env.dbg (env.protos s.w) s with
  | .ok (ds, s') => perform env api ds s'
  | .err e => some (.err e, s)
  | .panic => some (.panic, s)

/-- The loop and the result of `core_dispatcher`, lines 496-503; `b` is `something_dispatched`. At most
`n` passes. -/
def passes (once : St W → Res W Bool) : Nat → Bool → St W → Res W Bool
  | 0, _, _ => none
  | n + 1, b, s =>
    match once s with
    | none => none
    | some (.ok true, s') => passes once n true s'
    | some (.ok false, s') => some (if b then .ok true else .err .notFound, s')
    | some (.err e, s') => some (.err e, s')
    | some (.panic, s') => some (.panic, s')

/-- The two entry points, `dispatch` (`true`) and `core_dispatcher` (`false`, lines 489-504), with at
most `n` nested calls and passes. -/
def entry (env : Env W) : Nat → Bool → St W → Res W Bool
  | 0, _, _ => none
  | n + 1, true, s => pass env (entry env n) s
  | n + 1, false, s => passes (pass env (entry env n)) n false s

/-- A whole boot: the core's main program, run from the initial context. -/
def boot (env : Env W) (n : Nat) (main : Code W α) (w : W) : Res W α :=
  run (entry env n) main ⟨w, .new, []⟩

end Verif.Dispatcher
