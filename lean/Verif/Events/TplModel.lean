import Verif.Events.Lemmas
/-!
Model of `/repo/patina_dxe_core/src/events.rs` lines 27-296: TPL raise/restore, the notification dispatch loop, and
the boot services that go through the event database lock (`TplMutex` at TPL_HIGH_LEVEL,
event_db.rs lines 549-570, tpl_lock.rs lines 68-139).

* User code: the `k`-th notify function call performs the actions `beh k`. Every terminating behaviour of the callbacks
  in a run is some such `beh`.
* Interrupts: between any two statements at which interrupts are enabled, the `j`-th such point delivers the timer ticks
  `irq j`. The CPU masks interrupts on entry and unmasks on return. "No interrupts" is `irq = fun _ => []`.
* Fuel bounds the depth of the interpreter; a run that uses up its fuel gives `.fuel` and no claim is made about it.
* `inflight` (inside `HState`) is ghost: notifications taken from the queue and not yet cleared.
* `log` is ghost: the notify calls made, with the TPL at the call and whether the event still existed.
* `wait_for_event` (lines 119-152) only repeats `check_event` and is not modelled separately.
* `SYSTEM_TIME` and trigger times do not overflow.
-/
namespace Verif.Events

/-- Why the core panicked. -/
inductive Cause where
  /-- a caller outside the core raised to a lower/invalid or restored to a higher TPL -/
  | misuse
  /-- the core itself did -/
  | coreTpl
  /-- `TplMutex::lock` on a locked mutex (tpl_lock.rs line 74) -/
  | reentrantLock
  /-- `get_event_type(..).unwrap()` (events.rs line 268) -/
  | unwrapType
deriving DecidableEq, Repr

inductive Res (α : Type) where
  | fuel
  | panic (c : Cause)
  | ok (a : α)

def Res.bind {α β : Type} (x : Res α) (f : α → Res β) : Res β :=
  match x with
  | .fuel => .fuel
  | .panic c => .panic c
  | .ok a => f a

/-- A notify function call. -/
structure Call where
  note : Note
  tpl : Nat
  alive : Bool
deriving DecidableEq, Repr

structure Sys where
  h : HState
  /-- `CURRENT_TPL` -/
  tpl : Nat
  /-- `EVENT_NOTIFIES_IN_PROGRESS` -/
  busy : Bool
  /-- the lock flag of `EVENT_DB` -/
  locked : Bool
  /-- interrupts enabled -/
  ints : Bool
  /-- `SYSTEM_TIME` -/
  now : Nat
  calls : Nat
  polls : Nat
  log : List Call

/-- What code outside the core may do. -/
inductive Act where
  | raise (t : Nat)
  | restore (t : Nat)
  | signal (id : Nat)
  | check (id : Nat)
  | create (ty tpl : Nat) (fn ctx group : Option Nat)
  | close (id : Nat)
  | setTimer (id : Nat) (d : Delay) (time : Nat)
  | signalGroup (g : Nat)
  | tick (dt : Nat)
deriving DecidableEq, Repr

/-- `raise_tpl`, lines 212-226. `cause` says who is to blame when an assertion fails. -/
def Sys.raise (cause : Cause) (t : Nat) (s : Sys) : Res (Nat × Sys) :=
  if TPL_HIGH_LEVEL < t then .panic cause
  else if t < s.tpl then .panic cause
  else .ok (s.tpl, { s with tpl := t, ints := if t = TPL_HIGH_LEVEL ∧ s.tpl < TPL_HIGH_LEVEL then false else s.ints })

/-- A call on the locked event database: `TplMutex::lock` (tpl_lock.rs lines 73-91), the operation, and the guard's
drop (lines 130-138), which restores the TPL with `rest`. -/
def withDb {α : Type} (rest : Nat → Sys → Res Sys) (g : HState → α × HState) (s : Sys) : Res (α × Sys) :=
  (s.raise .coreTpl TPL_HIGH_LEVEL).bind fun (prev, s) =>
    if s.locked then .panic .reentrantLock
    else
      let r := g s.h
      (rest prev { s with h := r.2, locked := false }).bind fun s => .ok (r.1, s)

/-- `consume_next_event_notify`; ghost: the event is in flight. -/
def takeNote (t : Nat) (h : HState) : Option Note × HState :=
  ((h.db.consume t).1,
    ⟨(h.db.consume t).2, match (h.db.consume t).1 with | some n => n.event :: h.inflight | none => h.inflight⟩)

/-- Lines 268-270: clear the signalled state of a NOTIFY_SIGNAL event; ghost: no longer in flight. -/
def clearNote (id : Nat) (h : HState) : Unit × HState := ((), ⟨(h.db.clearSignal id).2, h.inflight.erase id⟩)

/-- Pieces of the interpreter. -/
inductive Cmd where
  | restore (t : Nat)
  | loop (t : Nat)
  | poll
  | ticks (l : List Nat)
  | tick (dt : Nat)
  | acts (l : List Act)
  | act (a : Act)

/-- Trigger time and period passed to the database by `set_timer`, lines 200-204. -/
def timerArgs (now : Nat) (d : Delay) (time : Nat) : Option Nat × Option Nat :=
  match d with
  | .cancel => (none, none)
  | .relative => (some (now + time), none)
  | .periodic => (some (now + time), some time)

def exec (beh : Nat → List Act) (irq : Nat → List Nat) : Nat → Cmd → Sys → Res Sys
  | 0, _, _ => .fuel
  -- a point between two statements
  | f + 1, .poll, s =>
    let k := s.polls
    let s := { s with polls := k + 1 }
    if s.ints then exec beh irq f (.ticks (irq k)) s else .ok s
  | _ + 1, .ticks [], s => .ok s
  | f + 1, .ticks (dt :: l), s =>
    (exec beh irq f (.tick dt) { s with ints := false }).bind fun s => exec beh irq f (.ticks l) { s with ints := true }
  -- timer_tick, lines 290-296
  | f + 1, .tick dt, s =>
    (s.raise .coreTpl TPL_HIGH_LEVEL).bind fun (old, s) =>
    let s := { s with now := s.now + dt }
    (withDb (fun t => exec beh irq f (.restore t)) (fun h => ((), h.step (.tick s.now))) s).bind fun (_, s) =>
    exec beh irq f (.restore old) s
  -- restore_tpl, lines 228-288
  | f + 1, .restore t, s =>
    if s.tpl < t then .panic .coreTpl
    else
      let prev := s.tpl
      let s := { s with tpl := t }
      (exec beh irq f .poll s).bind fun s =>
      (if t < prev then exec beh irq f (.loop t) s else .ok s).bind fun s =>
      let s := if t < TPL_HIGH_LEVEL then { s with ints := true } else s
      (exec beh irq f .poll s).bind fun s =>
      let s := { s with tpl := t }
      exec beh irq f .poll s
  -- the dispatch loop, lines 240-281
  | f + 1, .loop t, s =>
    if s.busy then .ok s
    else
      let s := { s with busy := true }
      (exec beh irq f .poll s).bind fun s =>
      (withDb (fun t => exec beh irq f (.restore t)) (takeNote t) s).bind fun (ev, s) =>
      (exec beh irq f .poll s).bind fun s =>
      let s := { s with busy := false }
      (exec beh irq f .poll s).bind fun s =>
      match ev with
      | none => .ok s
      | some n =>
        let s := { s with ints := decide (n.tpl < TPL_HIGH_LEVEL) }
        (exec beh irq f .poll s).bind fun s =>
        let s := { s with tpl := n.tpl }
        (exec beh irq f .poll s).bind fun s =>
        (withDb (fun t => exec beh irq f (.restore t)) (fun h => (h.db.getType n.event, h)) s).bind fun (ty, s) =>
        match ty with
        | .ok ty =>
          (exec beh irq f .poll s).bind fun s =>
          (if isNotifySignal ty then withDb (fun t => exec beh irq f (.restore t)) (clearNote n.event) s
            else .ok ((), { s with h := ⟨s.h.db, s.h.inflight.erase n.event⟩ })).bind fun (_, s) =>
          (exec beh irq f .poll s).bind fun s =>
          (if n.fn.isSome then
            exec beh irq f (.acts (beh s.calls))
              { s with calls := s.calls + 1, log := s.log ++ [⟨n, s.tpl, s.h.db.isValid n.event⟩] }
            else .ok s).bind fun s =>
          exec beh irq f (.loop t) s
        | _ => .panic .unwrapType
  | _ + 1, .acts [], s => .ok s
  | f + 1, .acts (a :: l), s =>
    (exec beh irq f (.act a) s).bind fun s =>
    (exec beh irq f .poll s).bind fun s =>
    exec beh irq f (.acts l) s
  -- raise_tpl and restore_tpl called from outside the core: their assertions are the caller's fault
  | _ + 1, .act (.raise t), s => (s.raise .misuse t).bind fun (_, s) => .ok s
  | f + 1, .act (.restore t), s => if s.tpl < t then .panic .misuse else exec beh irq f (.restore t) s
  -- signal_event, lines 103-117
  | f + 1, .act (.signal id), s =>
    (withDb (fun t => exec beh irq f (.restore t)) (fun h => ((), h.step (.signal id))) s).bind fun (_, s) =>
    (exec beh irq f .poll s).bind fun s =>
    (s.raise .coreTpl TPL_HIGH_LEVEL).bind fun (old, s) =>
    exec beh irq f (.restore old) s
  -- check_event, lines 154-192
  | f + 1, .act (.check id), s =>
    (withDb (fun t => exec beh irq f (.restore t)) (fun h => (h.db.getType id, h)) s).bind fun (ty, s) =>
    match ty with
    | .ok ty =>
      if isNotifySignal ty then .ok s
      else
        (exec beh irq f .poll s).bind fun s =>
        (withDb (fun t => exec beh irq f (.restore t))
          (fun h => ((h.db.readAndClear id).1, ⟨(h.db.readAndClear id).2, h.inflight⟩)) s).bind fun (r, s) =>
        if r = .ok false then
          (exec beh irq f .poll s).bind fun s =>
          (withDb (fun t => exec beh irq f (.restore t))
            (fun h => ((h.db.queueNotify id).1, ⟨(h.db.queueNotify id).2, h.inflight⟩)) s).bind fun (r, s) =>
          if r = .ok () then
            (exec beh irq f .poll s).bind fun s =>
            (s.raise .coreTpl TPL_HIGH_LEVEL).bind fun (old, s) =>
            (exec beh irq f (.restore old) s).bind fun s =>
            (withDb (fun t => exec beh irq f (.restore t))
              (fun h => ((h.db.readAndClear id).1, ⟨(h.db.readAndClear id).2, h.inflight⟩)) s).bind fun (_, s) =>
            .ok s
          else .ok s
        else .ok s
    | _ => .ok s
  -- create_event(_ex), lines 31-94 (the translation of the two special types is left to the caller)
  | f + 1, .act (.create ty tpl fn ctx g), s =>
    (withDb (fun t => exec beh irq f (.restore t)) (fun h => ((), h.step (.create ty tpl fn ctx g))) s).bind
      fun (_, s) => .ok s
  | f + 1, .act (.close id), s =>
    (withDb (fun t => exec beh irq f (.restore t)) (fun h => ((), h.step (.close id))) s).bind fun (_, s) => .ok s
  | f + 1, .act (.setTimer id d time), s =>
    (withDb (fun t => exec beh irq f (.restore t))
      (fun h => ((), h.step (.setTimer id d (timerArgs s.now d time).1 (timerArgs s.now d time).2))) s).bind
      fun (_, s) => .ok s
  -- gcd_map_change, lines 316-326
  | f + 1, .act (.signalGroup g), s =>
    (withDb (fun t => exec beh irq f (.restore t)) (fun h => ((), h.step (.signalGroup g))) s).bind fun (_, s) => .ok s
  | f + 1, .act (.tick dt), s => exec beh irq f (.tick dt) s

/-- The state before any event exists: `CURRENT_TPL` is TPL_APPLICATION (line 28). -/
def Sys.init (miss : Nat → Bool) : Sys := ⟨⟨Db.init miss, []⟩, TPL_APPLICATION, false, false, true, 0, 0, 0, []⟩

end Verif.Events
