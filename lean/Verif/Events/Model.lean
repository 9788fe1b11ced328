import Verif.Prelude
/-!
Model of the event database, `/repo/patina_dxe_core/src/event_db.rs` (struct `EventDb`).

Simplifications:
* Notify functions and contexts are opaque numbers, GUIDs of event groups are opaque numbers.
* `u64`/`usize` counters (`notify_tags`, times) do not overflow; the id counter is checked as in the code.
* `BTreeMap<usize, Event>` is a list in increasing id order (new ids are always the largest, so insertion
  appends). `BTreeSet<TaggedEventNotification>` is a list in the order of `cmp`.
* `TaggedEventNotification::cmp` (lines 166-181) calls two notifications of the same event equal although their
  positions differ. Whether inserting a second notification of an event finds the first one
  therefore depends on the internal shape of the tree. The oracle `miss` decides it, per
  insertion (insertions have unique tags): all theorems hold for every oracle.
* Logging and the debugger poll (line 487) are left out.
-/
namespace Verif.Events

/-- r-efi constants. -/
def EVT_TIMER : Nat := 0x80000000
def EVT_RUNTIME : Nat := 0x40000000
def EVT_NOTIFY_WAIT : Nat := 0x100
def EVT_NOTIFY_SIGNAL : Nat := 0x200
def EVT_SIGNAL_EXIT_BOOT_SERVICES : Nat := 0x201
def EVT_SIGNAL_VIRTUAL_ADDRESS_CHANGE : Nat := 0x60000202
def TPL_APPLICATION : Nat := 4
def TPL_HIGH_LEVEL : Nat := 31
/-- Opaque names for the predefined groups. -/
def GROUP_EXIT_BOOT_SERVICES : Nat := 0
def GROUP_VIRTUAL_ADDRESS_CHANGE : Nat := 1
def GROUP_MEMORY_MAP_CHANGE : Nat := 2

/-- `EventType` and `is_notify_signal`, `is_notify_wait`, `is_timer` (lines 28-103): the type is its
numeric code. -/
def isNotifySignal (ty : Nat) : Bool := ty &&& EVT_NOTIFY_SIGNAL != 0
def isNotifyWait (ty : Nat) : Bool := ty &&& EVT_NOTIFY_WAIT != 0
def isTimer (ty : Nat) : Bool := ty &&& EVT_TIMER != 0

/-- `EventType::try_from`, lines 69-86: the accepted codes. -/
def validType (ty : Nat) : Bool :=
  ty == EVT_TIMER + EVT_NOTIFY_SIGNAL || ty == EVT_TIMER || ty == EVT_NOTIFY_WAIT || ty == EVT_NOTIFY_SIGNAL ||
  ty == 0 || ty == EVT_TIMER + EVT_NOTIFY_WAIT

/-- `Event`, lines 195-210. -/
structure Event where
  id : Nat
  type : Nat
  group : Option Nat
  signaled : Bool
  tpl : Nat
  fn : Option Nat
  ctx : Option Nat
  trigger : Option Nat
  period : Option Nat
deriving DecidableEq, Repr

/-- `TaggedEventNotification(EventNotification, u64)`, lines 132-158. -/
structure Note where
  event : Nat
  tpl : Nat
  fn : Option Nat
  ctx : Option Nat
  tag : Nat
deriving DecidableEq, Repr

/-- `EventDb`, lines 285-294, plus the ids of runtime events (kept by `runtime.rs`, lines 101-137) and the
oracle for duplicate insertion. -/
structure Db where
  events : List Event
  nextId : Nat
  pending : List Note
  tags : Nat
  runtime : List Nat
  miss : Nat → Bool

/-- `RT_EVENT`, line 298. -/
def RT_EVENT : Nat := 2 ^ 63

/-- `EventDb::new`, lines 300-302. -/
def Db.init (miss : Nat → Bool) : Db := ⟨[], 1, [], 0, [], miss⟩

/-- `self.events.get(&id)`. -/
def Db.get (db : Db) (id : Nat) : Option Event := db.events.find? (fun e => e.id == id)

/-- `self.events.get_mut(&id)` followed by an update. -/
def Db.modify (db : Db) (id : Nat) (f : Event → Event) : Db :=
  { db with events := db.events.map (fun e => if e.id = id then f e else e) }

/-- `Event::new`, lines 240-278. -/
def Event.new (id ty tpl : Nat) (fn ctx group : Option Nat) : Outcome EfiError Event :=
  let notifiable := ty &&& (EVT_NOTIFY_SIGNAL + EVT_NOTIFY_WAIT) != 0
  if ¬ validType ty then .err .invalidParameter
  else if notifiable && fn.isNone then .err .invalidParameter
  else if notifiable && !(TPL_APPLICATION + 1 ≤ tpl && tpl ≤ TPL_HIGH_LEVEL) then .err .invalidParameter
  else .ok ⟨id, ty, group, false, tpl, fn, ctx, none, none⟩

/-- `EventDb::create_event`, lines 304-340 (release profile for line 313).
A runtime event without notify function is refused by `add_runtime_event` (runtime.rs line 118). -/
def Db.create (db : Db) (ty tpl : Nat) (fn ctx group : Option Nat) : Outcome EfiError Nat × Db :=
  if db.nextId = RT_EVENT then (.err .outOfResources, db)
  else
    let runtime := ty &&& EVT_RUNTIME != 0 || group == some GROUP_VIRTUAL_ADDRESS_CHANGE
    let id := if runtime then db.nextId + RT_EVENT else db.nextId
    let db := { db with nextId := db.nextId + 1 }
    if runtime then
      match fn with
      | none => (.err .invalidParameter, db)
      | some _ => (.ok id, { db with runtime := db.runtime ++ [id] })
    else
      match Event.new id ty tpl fn ctx group with
      | .ok e => (.ok id, { db with events := db.events ++ [e] })
      | .err e => (.err e, db)
      | .panic => (.panic, db)

/-- `EventDb::close_event`, lines 342-351 (`remove_runtime_event` always succeeds, runtime.rs lines 131-137). -/
def Db.close (db : Db) (id : Nat) : Outcome EfiError Unit × Db :=
  if RT_EVENT ≤ id then (.ok (), { db with runtime := db.runtime.filter (· ≠ id) })
  else match db.get id with
    | none => (.err .invalidParameter, db)
    | some _ => (.ok (), { db with events := db.events.filter (fun e => e.id ≠ id) })

/-- `a` comes before `b` in `pending_notifies` (`cmp` on different events, lines 171-178). -/
def Note.before (a b : Note) : Bool := decide (b.tpl < a.tpl) || (a.tpl == b.tpl && decide (a.tag < b.tag))

/-- Ordered insertion. -/
def insertNote (n : Note) : List Note → List Note
  | [] => [n]
  | m :: ms => if n.before m then n :: m :: ms else m :: insertNote n ms

/-- `BTreeSet::insert`, with the oracle's answer on whether an existing notification of the same event is
overlooked. -/
def insertPending (missed : Bool) (n : Note) (ps : List Note) : List Note :=
  if ps.any (fun m => m.event == n.event) && !missed then ps else insertNote n ps

/-- `queue_notify_event`, lines 354-366. -/
def queueNote (miss : Nat → Bool) (ps : List Note) (e : Event) (tag : Nat) : List Note :=
  if isNotifySignal e.type || isNotifyWait e.type then insertPending (miss tag) ⟨e.id, e.tpl, e.fn, e.ctx, tag⟩ ps
  else ps

/-- Mark the event signalled and queue it if it is NOTIFY_SIGNAL (lines 382-386 and 394-398). -/
def Db.signalOne (db : Db) (e : Event) : Db :=
  let db := db.modify e.id (fun e => { e with signaled := true })
  if isNotifySignal e.type then
    { db with pending := queueNote db.miss db.pending e db.tags, tags := db.tags + 1 }
  else db

/-- One member visit of `signal_group`, lines 392-398. -/
def Db.signalMember (db : Db) (g id : Nat) : Db :=
  match db.get id with
  | none => db
  | some e => if e.group = some g ∧ e.signaled = false then db.signalOne e else db

/-- `signal_group`, lines 391-400: the events from the highest id down. -/
def Db.signalGroup (db : Db) (g : Nat) : Db :=
  (db.events.map (·.id)).reverse.foldl (fun db id => db.signalMember g id) db

/-- `signal_event`, lines 368-389. -/
def Db.signal (db : Db) (id : Nat) : Outcome EfiError Unit × Db :=
  match db.get id with
  | none => (.err .invalidParameter, db)
  | some e =>
    if e.signaled then (.ok (), db)
    else match e.group with
      | some g => (.ok (), db.signalGroup g)
      | none => (.ok (), db.signalOne e)

/-- `clear_signal`, lines 402-407. -/
def Db.clearSignal (db : Db) (id : Nat) : Outcome EfiError Unit × Db :=
  match db.get id with
  | none => (.err .invalidParameter, db)
  | some _ => (.ok (), db.modify id (fun e => { e with signaled := false }))

/-- `is_signaled`, lines 409-412. -/
def Db.isSignaled (db : Db) (id : Nat) : Bool :=
  match db.get id with
  | some e => e.signaled
  | none => false

/-- `read_and_clear_signaled`, lines 653-660. -/
def Db.readAndClear (db : Db) (id : Nat) : Outcome EfiError Bool × Db :=
  if db.isSignaled id then
    match db.clearSignal id with
    | (.ok _, db) => (.ok true, db)
    | (.err e, db) => (.err e, db)
    | (.panic, db) => (.panic, db)
  else (.ok false, db)

/-- `queue_event_notify`, lines 414-422. -/
def Db.queueNotify (db : Db) (id : Nat) : Outcome EfiError Unit × Db :=
  match db.get id with
  | none => (.err .invalidParameter, db)
  | some e => (.ok (), { db with pending := queueNote db.miss db.pending e db.tags, tags := db.tags + 1 })

/-- `get_event_type`, lines 424-427. -/
def Db.getType (db : Db) (id : Nat) : Outcome EfiError Nat :=
  match db.get id with
  | none => .err .invalidParameter
  | some e => .ok e.type

/-- `is_valid`, lines 538-540. -/
def Db.isValid (db : Db) (id : Nat) : Bool := (db.get id).isSome

/-- `TimerDelay`, lines 106-127. -/
inductive Delay where
  | cancel | periodic | relative
deriving DecidableEq, Repr

/-- The parameter check of `set_timer`, lines 459-475. -/
def delayOk (d : Delay) (trigger period : Option Nat) : Bool :=
  match d with
  | .cancel => !(trigger.isSome || period.isSome)
  | .periodic => !(trigger.isNone || period.isNone)
  | .relative => !(trigger.isNone || period.isSome)

/-- `set_timer`, lines 447-482. -/
def Db.setTimer (db : Db) (id : Nat) (d : Delay) (trigger period : Option Nat) : Outcome EfiError Unit × Db :=
  match db.get id with
  | none => (.err .invalidParameter, db)
  | some e =>
    if ¬ isTimer e.type then (.err .invalidParameter, db)
    else if ¬ delayOk d trigger period then (.err .invalidParameter, db)
    else (.ok (), db.modify id (fun e => { e with trigger := trigger, period := period }))

/-- The event is an armed timer whose time has come (lines 497-500). -/
def Event.due (e : Event) (now : Nat) : Bool :=
  isTimer e.type && (match e.trigger with | some t => decide (t ≤ now) | none => false)

/-- One iteration of the loop of `timer_tick`, lines 490-512. -/
def Db.tickOne (db : Db) (now id : Nat) : Db :=
  match db.get id with
  | none => db
  | some e =>
    if e.due now then
      let db := db.modify id (fun e => { e with trigger := e.period.map (now + ·) })
      (db.signal id).2
    else db

/-- `timer_tick`, lines 484-513: highest id first. -/
def Db.tick (db : Db) (now : Nat) : Db :=
  (db.events.map (·.id)).reverse.foldl (fun db id => db.tickOne now id) db

/-- `consume_next_event_notify`, lines 515-536. -/
def Db.consume (db : Db) (level : Nat) : Option Note × Db :=
  let ps := db.pending.dropWhile (fun n => !db.isValid n.event)
  match ps with
  | [] => (none, { db with pending := [] })
  | n :: rest =>
    if n.tpl ≤ level then (none, { db with pending := n :: rest })
    else (some n, { db with pending := rest })

end Verif.Events
