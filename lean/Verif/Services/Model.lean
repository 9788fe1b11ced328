import Verif.Protocol.Model
/-!
Model of the protocol services: `/repo/patina_dxe_core/src/protocols.rs`, lines 29-772, on top of the protocol database (`Verif/Protocol`).

* The state is the database and everything else (`rest : α`, any type). Drivers that are disconnected or connected, and functions of events that are
  signalled, are arbitrary functions on this state, so they may call any service themselves, as long as they return.
* `core_disconnect_controller` and `core_connect_controller` are modelled in `Verif/Connect`; here they are functions of the world.
* Pointers are numbers, null is 0. Reading a GUID or writing a result through a pointer that is not null succeeds.
* A function that may call drivers without end has fuel; `none` stands for a call that has not returned yet.
* Within `install_multiple_protocol_interfaces` the task priority level is `TPL_NOTIFY`, so events that are signalled wait (`quiet`).
-/
namespace Verif.Services
open Verif.Protocol

/-- The statuses of these services; `panics` for a call that does not return because the core panics. -/
inductive Status where
  | success
  | invalidParameter
  | notFound
  | unsupported
  | accessDenied
  | alreadyStarted
  | bufferTooSmall
  | outOfResources
  | panics
deriving DecidableEq, Repr

/-- `EfiError` into `efi::Status`. -/
def Status.of : Err → Status
  | .invalidParameter => .invalidParameter
  | .notFound => .notFound
  | .unsupported => .unsupported
  | .accessDenied => .accessDenied
  | .alreadyStarted => .alreadyStarted

/-- The status of a result. -/
def Status.from {β : Type} : Outcome Err β → Status
  | .ok _ => .success
  | .err e => .of e
  | .panic => .panics

structure St (α : Type) where
  db : Db
  rest : α

/-- The rest of the machine. -/
structure World (α : Type) where
  /-- The handle hasher, see `Verif/Protocol/Model`. -/
  hash : Nat → Nat → Nat
  lim : Nat
  /-- `core_disconnect_controller(handle, driver, None)`; the result says whether it succeeded. -/
  disconnect : St α → Nat → Option Nat → Bool × St α
  /-- `core_connect_controller(handle, [], None, true)`, whose result is ignored. -/
  connect : St α → Nat → St α
  /-- `signal_event` with its consequences; the result says whether the event exists. -/
  signal : St α → Nat → Bool × St α
  /-- `signal_event` at `TPL_NOTIFY`: the event is queued. -/
  queue : α → Nat → Bool × α
  /-- `core_allocate_pool(BOOT_SERVICES_DATA, size)`. -/
  pool : α → Nat → Option Nat × α
  /-- `remaining_device_path(a, b)` (C31): what remains of `b` after `a`, and the number of nodes of `a`. -/
  remaining : α → Nat → Nat → Option (Nat × Nat)
  /-- `is_device_path_end`. -/
  isEnd : α → Nat → Bool

/-- r_efi `device_path::PROTOCOL_GUID`, `09576e91-6d3f-11d2-8e39-00a0c969723b`, as the number of its bytes. -/
def PATH : Nat := 0x916e57093f6dd2118e3900a0c969723b

/-- `PRIVATE_DUMMY_INTERFACE_GUID`, line 163. -/
def DUMMY : Nat := 0x57cbd62e783a394c9a2aca037841d286

/-- `DXE_CORE_HANDLE`, `protocol_db.rs` line 28. -/
def CORE : Nat := 1

variable {α : Type}

/-- Lines 37-44: the events that do not exist. -/
def signalAll (w : World α) (quiet : Bool) (s : St α) : List Nat → List Nat × St α
  | [] => ([], s)
  | e :: l =>
    let r := if quiet then let q := w.queue s.rest e; (q.1, { s with rest := q.2 }) else w.signal s e
    let t := signalAll w quiet r.2 l
    (if r.1 then t.1 else e :: t.1, t.2)

/-- `core_install_protocol_interface`, lines 29-49. -/
def coreInstall (w : World α) (quiet : Bool) (s : St α) (handle : Option Nat) (g i : Nat) : Outcome Err Nat × St α :=
  match s.db.install w.hash w.lim handle g i with
  | (.ok (h, ns), db) =>
    let r := signalAll w quiet { s with db := db } (ns.map (·.event))
    (.ok h, { r.2 with db := r.1.foldl Db.unregister r.2.db })
  | (.err e, db) => (.err e, { s with db := db })
  | (.panic, db) => (.panic, { s with db := db })

/-- `handle.is_null()` -/
def nonNull (h : Nat) : Option Nat := if h = 0 then none else some h

/-- `install_protocol_interface`, lines 51-72: the status and what `*handle` is afterwards. `args`: the pointers are not null and the type is native. -/
def install (w : World α) (quiet : Bool) (s : St α) (args : Bool) (handle g i : Nat) : Status × Nat × St α :=
  if !args then (.invalidParameter, handle, s)
  else
    match coreInstall w quiet s (nonNull handle) g i with
    | (.ok h, s) => (.success, h, s)
    | (.err e, s) => (.of e, handle, s)
    | (.panic, s) => (.panics, handle, s)

/-- Lines 99-103, 125-129, 372-376: a protocol that is not there has no usages. -/
def usagesOf (db : Db) (h g : Nat) : Outcome Err (List Usage) :=
  match db.usages h g with
  | .err .notFound => .ok []
  | r => r

/-- Lines 94-120: disconnect drivers, one by one, until there is none left, or one does not give up the interface (`.ok false`). -/
def closeDrivers (w : World α) (h g : Nat) : Nat → St α → Option (Outcome Err Bool × St α)
  | 0, _ => none
  | n + 1, s =>
    match usagesOf s.db h g with
    | .err e => some (.err e, s)
    | .panic => some (.panic, s)
    | .ok us =>
      match us.find? (fun u => isDriver u.attrs) with
      | none => some (.ok true, s)
      | some u =>
        match w.disconnect s h u.agent with
        | (true, s) => closeDrivers w h g n s
        | (false, s) => some (.ok false, s)

/-- `attributes & (BY_HANDLE_PROTOCOL | GET_PROTOCOL | TEST_PROTOCOL) != 0` -/
def isLight (a : Nat) : Bool := a &&& 7 != 0

/-- Lines 131-150: the usages that need no driver are removed. Is one left? -/
def dropLight (h g : Nat) : List Usage → Db → Bool × Db
  | [], db => (false, db)
  | u :: l, db =>
    if isLight u.attrs then
      let r := db.removeUsage h g u.agent u.controller (some u.attrs)
      let t := dropLight h g l r.2
      (t.1 || r.1 ≠ .ok (), t.2)
    else
      let t := dropLight h g l db
      (true, t.2)

/-- Lines 122-160, after the drivers are gone. -/
def finish (w : World α) (s : St α) (h g i : Nat) : Outcome Err Unit × St α :=
  match usagesOf s.db h g with
  | .err e => (.err e, s)
  | .panic => (.panic, s)
  | .ok us =>
    let r := dropLight h g us s.db
    if r.1 then (.err .accessDenied, w.connect { s with db := r.2 } h)
    else
      let u := r.2.uninstall h g i
      (u.1, { s with db := u.2 })

/-- `core_uninstall_protocol_interface`, lines 74-160. -/
def uninstall (w : World α) (fuel : Nat) (s : St α) (h g i : Nat) : Option (Outcome Err Unit × St α) :=
  match s.db.getInterface h g with
  | .err e => some (.err e, s)
  | .panic => some (.panic, s)
  | .ok found =>
    if found ≠ i then some (.err .notFound, s)
    else
      match closeDrivers w h g fuel s with
      | none => none
      | some (.err e, s) => some (.err e, s)
      | some (.panic, s) => some (.panic, s)
      | some (.ok false, s) => some (.err .accessDenied, w.connect s h)
      | some (.ok true, s) => some (finish w s h g i)

/-- `reinstall_protocol_interface`, lines 181-240. The `debug_assert`s on removing the dummy interface panic in debug builds (`dbg`). -/
def reinstall (w : World α) (dbg : Bool) (fuel : Nat) (s : St α) (h g old new : Nat) : Option (Status × St α) :=
  match s.db.install w.hash w.lim (some h) DUMMY 0 with
  | (.err e, db) => some (.of e, { s with db := db })
  | (.panic, db) => some (.panics, { s with db := db })
  | (.ok _, db) =>
    match uninstall w fuel { s with db := db } h g old with
    | none => none
    | some (.ok (), s) =>
      match coreInstall w false s (some h) g new with
      | (.ok _, s) =>
        let r := s.db.uninstall h DUMMY 0
        if dbg ∧ r.1 ≠ .ok () then some (.panics, { s with db := r.2 })
        else some (.success, w.connect { s with db := r.2 } h)
      | (.err e, s) =>
        let r := s.db.uninstall h DUMMY 0
        some (if dbg ∧ r.1 ≠ .ok () then .panics else .of e, { s with db := r.2 })
      | (.panic, s) => some (.panics, s)
    | some (.err e, s) =>
      let r := s.db.uninstall h DUMMY 0
      some (if dbg ∧ r.1 ≠ .ok () then .panics else .of e, { s with db := r.2 })
    | some (.panic, s) => some (.panics, s)

/-- `validate_handle(..).map_or_else(..)`, lines 364-367. -/
def known (db : Db) (h : Nat) : Option Nat := if db.valid h then some h else none

/-- Lines 398-424: `add_protocol_usage` has answered. `null`: no place for the interface. The status, what is written to `*interface`, and the database. -/
def opened (db : Db) (h g : Nat) (null : Bool) (agent controller : Option Nat) (attrs : Nat) : Status × Option Nat × Db :=
  let r := db.addUsage h g agent controller attrs
  let answer : Status × Option Nat :=
    match r.2.getInterface h g with
    | .err e => (.of e, none)
    | .panic => (.panics, none)
    | .ok i => (.success, if attrs = TEST_PROTOCOL then none else some i)
  match r.1 with
  | .err .unsupported => (.unsupported, if null then none else some 0, r.2)
  | .err .alreadyStarted =>
    if isDriver attrs then
      match r.2.getInterface h g with
      | .ok i => (.alreadyStarted, if null then none else some i, r.2)
      | _ => (.panics, none, r.2)
    else (answer.1, answer.2, r.2)
  | .err e => (.of e, none, r.2)
  | .panic => (.panics, none, r.2)
  | .ok () => (answer.1, answer.2, r.2)

/-- The other driver that has the interface open without exclusion (lines 377-381). -/
def rival (us : List Usage) (agent : Option Nat) : Option Usage :=
  us.find? fun u => isDriver u.attrs && !isExclusive u.attrs && !(u.agent == agent)

/-- `open_protocol`, lines 345-425. -/
def openProtocol (w : World α) (s : St α) (h g : Nat) (null : Bool) (agent controller attrs : Nat) : Status × Option Nat × St α :=
  if null && attrs != TEST_PROTOCOL then (.invalidParameter, none, s)
  else
    let a := known s.db agent
    let c := known s.db controller
    let go (s : St α) : Status × Option Nat × St α :=
      let r := opened s.db h g null a c attrs
      (r.1, r.2.1, { s with db := r.2.2 })
    if isExclusive attrs then
      match usagesOf s.db h g with
      | .err e => (.of e, none, s)
      | .panic => (.panics, none, s)
      | .ok us =>
        match rival us a with
        | none => go s
        | some u =>
          match w.disconnect s h u.agent with
          | (true, s) => go s
          | (false, s) => (.accessDenied, none, s)
    else go s

/-- `handle_protocol`, lines 330-343. -/
def handleProtocol (w : World α) (s : St α) (h g : Nat) (null : Bool) : Status × Option Nat × St α :=
  openProtocol w s h g null CORE 0 BY_HANDLE_PROTOCOL

/-- `close_protocol`, lines 427-463. -/
def closeProtocol (db : Db) (h g agent controller : Nat) : Status × Db :=
  if !db.valid agent then (.invalidParameter, db)
  else if controller ≠ 0 ∧ db.valid controller = false then (.invalidParameter, db)
  else
    let r := db.removeUsage h g (some agent) (nonNull controller) none
    (.from r.1, r.2)

/-- The loop of lines 745-764: the best handle so far, with the remaining path and the number of nodes. -/
def locateLoop (w : World α) (path : Nat) : List Nat → Option (Nat × Nat × Nat) → St α → Option (Nat × Nat × Nat) × St α
  | [], best, s => (best, s)
  | h :: l, best, s =>
    match handleProtocol w s h PATH false with
    | (.success, p, s) =>
      match w.remaining s.rest (p.getD 0) path with
      | none => locateLoop w path l best s
      | some (r, n) =>
        if best.all (fun b => b.2.2 < n) then locateLoop w path l (some (h, r, n)) s
        else locateLoop w path l best s
    | (_, _, s) => locateLoop w path l best s

/-- `core_locate_device_path`, lines 730-772: what remains of the path, and the handle. -/
def coreLocatePath (w : World α) (s : St α) (g path : Nat) : Outcome Err (Nat × Nat) × St α :=
  if path = 0 then (.err .invalidParameter, s)
  else
    match s.db.locateHandles (some g) with
    | .err e => (.err e, s)
    | .panic => (.panic, s)
    | .ok hs =>
      match locateLoop w path hs none s with
      | (none, s) => (.err .notFound, s)
      | (some (h, r, _), s) => (.ok (r, h), s)

/-- `locate_device_path`, lines 774-800: the status, what is written to `*device_path` and `*device`. `null`: no place for the handle. -/
def locatePath (w : World α) (s : St α) (g path : Nat) (null : Bool) : Status × Option (Nat × Nat) × St α :=
  if path = 0 then (.invalidParameter, none, s)
  else
    match coreLocatePath w s g path with
    | (.err e, s) => (.of e, none, s)
    | (.panic, s) => (.panics, none, s)
    | (.ok r, s) => if null then (.invalidParameter, none, s) else (.success, some r, s)

/-- Lines 515-536: is there a handle already with one of the device paths that are to be installed? -/
def pathTaken (w : World α) : List (Nat × Nat) → St α → Bool × St α
  | [], s => (false, s)
  | (g, i) :: l, s =>
    if g = PATH then
      match coreLocatePath w s PATH i with
      | (.ok (r, h), s) => if s.db.valid h && w.isEnd s.rest r then (true, s) else pathTaken w l s
      | (_, s) => pathTaken w l s
    else pathTaken w l s

/-- Lines 543-545: what was installed is uninstalled, errors are ignored. -/
def rollback (w : World α) (fuel : Nat) (h : Nat) : List (Nat × Nat) → St α → Option (St α)
  | [], s => some s
  | (g, i) :: l, s =>
    match uninstall w fuel s h g i with
    | none => none
    | some (_, s) => rollback w fuel h l s

/-- Lines 538-550: `done` is what was installed already. -/
def installEach (w : World α) (fuel : Nat) : List (Nat × Nat) → List (Nat × Nat) → Nat → St α → Option (Status × Nat × St α)
  | [], _, handle, s => some (.success, handle, s)
  | (g, i) :: l, done, handle, s =>
    match install w true s true handle g i with
    | (.success, handle, s) => installEach w fuel l (done ++ [(g, i)]) handle s
    | (.panics, handle, s) => some (.panics, handle, s)
    | (e, handle, s) =>
      match rollback w fuel handle done s with
      | none => none
      | some s => some (e, handle, s)

/-- `install_multiple_protocol_interfaces`, lines 502-553: the status, and what `*handle` is afterwards. What waits for the task priority level to be lowered
happens after that. -/
def installMultiple (w : World α) (fuel : Nat) (s : St α) (handle : Nat) (l : List (Nat × Nat)) : Option (Status × Nat × St α) :=
  match pathTaken w l s with
  | (true, s) => some (.alreadyStarted, handle, s)
  | (false, s) => installEach w fuel l [] handle s

/-- Lines 576-579: what was uninstalled is installed again, errors are ignored. -/
def restore (w : World α) (h : Nat) : List (Nat × Nat) → St α → St α
  | [], s => s
  | (g, i) :: l, s => restore w h l (coreInstall w false s (some h) g i).2

/-- Lines 570-585. -/
def uninstallEach (w : World α) (fuel : Nat) (h : Nat) : List (Nat × Nat) → List (Nat × Nat) → St α → Option (Status × St α)
  | [], _, s => some (.success, s)
  | (g, i) :: l, done, s =>
    match uninstall w fuel s h g i with
    | none => none
    | some (.ok (), s) => uninstallEach w fuel h l (done ++ [(g, i)]) s
    | some (.err _, s) => some (.invalidParameter, restore w h done s)
    | some (.panic, s) => some (.panics, s)

/-- `uninstall_multiple_protocol_interfaces`, lines 555-588. -/
def uninstallMultiple (w : World α) (fuel : Nat) (s : St α) (h : Nat) (l : List (Nat × Nat)) : Option (Status × St α) :=
  if h = 0 then some (.invalidParameter, s) else uninstallEach w fuel h l [] s

/-- What to search for: `search_type`, with the arguments it uses (`none` for null). -/
inductive Search where
  | all
  | notify (key : Option Nat)
  | protocol (g : Option Nat)
  | other
deriving DecidableEq, Repr

/-- Lines 265-285, 642-662. -/
def search (db : Db) : Search → Outcome Err (List Nat) × Db
  | .all => (db.locateHandles none, db)
  | .notify none => (.err .invalidParameter, db)
  | .notify (some r) =>
    match db.nextFresh r with
    | (some h, db) => (.ok [h], db)
    | (none, db) => (.err .notFound, db)
  | .protocol none => (.err .invalidParameter, db)
  | .protocol (some g) => (db.locateHandles (some g), db)
  | .other => (.err .invalidParameter, db)

/-- `locate_handle`, lines 258-328: the status, what is written to `*buffer_size` and to the buffer. `size`: `*buffer_size`; `null`: no buffer. -/
def locateHandle (db : Db) (q : Search) (size : Option Nat) (null : Bool) : Status × Option Nat × Option (List Nat) × Db :=
  match search db q with
  | (.err e, db) => (.of e, none, none, db)
  | (.panic, db) => (.panics, none, none, db)
  | (.ok l, db) =>
    if l = [] then (.notFound, none, none, db)
    else
      match size with
      | none => (.invalidParameter, none, none, db)
      | some n =>
        if n < l.length * 8 then (.bufferTooSmall, some (l.length * 8), none, db)
        else if null then (.invalidParameter, some (l.length * 8), none, db)
        else (.success, some (l.length * 8), some l, db)

/-- `locate_handle_buffer`, lines 628-684: the status, `*no_handles`, `*buffer` and what is written there. -/
def locateHandleBuffer (w : World α) (s : St α) (q : Search) : Status × Nat × Nat × List Nat × St α :=
  match search s.db q with
  | (.err e, db) => (.of e, 0, 0, [], { s with db := db })
  | (.panic, db) => (.panics, 0, 0, [], { s with db := db })
  | (.ok l, db) =>
    if l = [] then (.notFound, 0, 0, [], { s with db := db })
    else
      match w.pool s.rest (l.length * 8) with
      | (none, r) => (.outOfResources, 0, 0, [], ⟨db, r⟩)
      | (some a, r) => (.success, l.length, a, l, ⟨db, r⟩)

/-- `locate_protocol`, lines 686-728: the status and what is written to `*interface`. `key`: the registration, if there is one. -/
def locateProtocol (db : Db) (g : Nat) (key : Option Nat) : Status × Option Nat × Db :=
  match key with
  | some r =>
    match db.nextFresh r with
    | (some h, db) =>
      match db.getInterface h g with
      | .ok i => (.success, some i, db)
      | _ => (.panics, none, db)
    | (none, db) => (.notFound, none, db)
  | none =>
    match db.locateProtocol g with
    | .ok i => (.success, some i, db)
    | .err e => (.of e, some 0, db)
    | .panic => (.panics, none, db)

/-- `protocols_per_handle`, lines 590-626: the status, the buffer, and the GUIDs its entries point to. -/
def protocolsPerHandle (w : World α) (s : St α) (h : Nat) : Status × Nat × List Nat × St α :=
  if !s.db.valid h then (.invalidParameter, 0, [], s)
  else
    match s.db.protocolsOn h with
    | .err e => (.of e, 0, [], s)
    | .panic => (.panics, 0, [], s)
    | .ok l =>
      match w.pool s.rest (l.length * 8 + l.length * 16) with
      | (none, r) => (.outOfResources, 0, [], { s with rest := r })
      | (some a, r) => (.success, a, l, { s with rest := r })

/-- `open_protocol_information`, lines 465-500: the status, the buffer, and its entries. -/
def openInformation (w : World α) (s : St α) (h g : Nat) : Status × Nat × List Usage × St α :=
  match s.db.usages h g with
  | .err e => (.of e, 0, [], s)
  | .panic => (.panics, 0, [], s)
  | .ok l =>
    match w.pool s.rest (l.length * 24) with
    | (none, r) => (.outOfResources, 0, [], { s with rest := r })
    | (some a, r) => (.success, a, l, { s with rest := r })

end Verif.Services
