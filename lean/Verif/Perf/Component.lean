import Verif.Perf.Logging
import Verif.Perf.Static
import Verif.Perf.Exchange
/-!
Model of the performance component: `/repo/components/patina_performance/src/component/performance.rs`, with the events that it registers (`event_callback` of
`/repo/sdk/patina/src/performance/measurement.rs`), the measurement functions and the static state.

The boot services' answers are parameters. The locks of the table are left out, as are log messages. `none` is a panic.
-/
namespace Verif.Perf.Component

open Exchange (Region Mm)

/-- What is registered with the boot services. -/
inductive Effect where
  /-- The event for the end of DXE, with `report_fbpt_record_buffer`. -/
  | endOfDxe
  /-- The measurement protocol. -/
  | protocol
  /-- The event for ready to boot, with `fetch_and_add_mm_performance_records`. -/
  | readyToBoot (r : Region)
  /-- The configuration table with the performance property. -/
  | property
deriving DecidableEq, Repr

/-- The static state, the mask, the table with its counters, what has been registered; the address that was reported with the status code and the one in the configuration tables. The
table is there from the beginning; without static state nobody reaches it. -/
structure Boot where
  static : Static.Cells
  mask : Nat
  perf : Perf
  effects : List Effect
  reported : Option Nat
  published : Option Nat

/-- Before the component. -/
def Boot.init (mem : Nat → Bytes) : Boot := ⟨.uninit, 0, ⟨Fbpt.new mem, 0, 0⟩, [], none, none⟩

/-- The configuration, `config.rs`. -/
structure Config where
  enabled : Bool
  mask : Nat

/-- What the boot services answer to the four calls of the entry point: `none` is success. -/
structure Answers where
  endEvent : Option Nat
  protocol : Option Nat
  readyEvent : Option Nat
  property : Option Nat

/-- `extract_hob_perf_data` with `unwrap_or_default`, lines 111-124. -/
def hobData (dbg : Bool) (hobs : List (Nat × Bytes)) : Option (Nat × Bytes) :=
  match merge dbg 0 [] hobs with
  | .ok x => some x
  | .err _ => some (0, [])
  | .panic => none

/-- `_entry_point`, lines 83-168; the error, if there is one. -/
def inner (dbg : Bool) (hobs : Option (List (Nat × Bytes))) (region : Option Region) (a : Answers) (s : Boot) : Option (Boot × Option Nat) :=
  match a.endEvent with
  | some e => some (s, some e)
  | none =>
    let s := { s with effects := s.effects ++ [.endOfDxe] }
    let next (s : Boot) : Option (Boot × Option Nat) :=
      match a.protocol with
      | some e => some (s, some e)
      | none =>
        let s := { s with effects := s.effects ++ [.protocol] }
        let last (s : Boot) : Option (Boot × Option Nat) :=
          match a.property with
          | some e => some (s, some e)
          | none => some ({ s with effects := s.effects ++ [.property] }, none)
        match region with
        | none => last s
        | some r =>
          match a.readyEvent with
          | some e => some (s, some e)
          | none => last { s with effects := s.effects ++ [.readyToBoot r] }
    match hobs with
    | none => next s
    | some hobs =>
      match hobData dbg hobs with
      | none => none
      | some (n, b) => next { s with perf := { s.perf with loads := n, table := s.perf.table.setRecords b } }

/-- The error that `entry_point` returns itself. -/
def ABORTED : Nat := 21

/-- `get_static_state`. -/
def Boot.ready (s : Boot) : Bool :=
  match (Static.alone s.static .inner).2 with
  | .done (.both _ _) => true
  | _ => false

/-- `entry_point`, lines 44-80. -/
def entry (dbg : Bool) (c : Config) (services : Nat) (hobs : Option (List (Nat × Bytes))) (regions : Option (List Region)) (a : Answers) (s : Boot) : Option (Boot × Option Nat) :=
  if ¬ c.enabled then some (s, none)
  else
    let s := { s with mask := c.mask, static := (Static.alone s.static (.init services)).1 }
    if ¬ s.ready then some (s, some ABORTED)
    else
      match regions with
      | none => inner dbg hobs none a s
      | some rs =>
        match rs.find? Region.user with
        | none => some (s, none)
        | some r => inner dbg hobs (some r) a s

/-- A measurement function is called, with `create_performance_measurement`, `measurement.rs` lines 198-210: without static state it succeeds and does nothing, but the function has allocated its string. -/
def call (dbg : Bool) (e : Env) (f : Fn) (s : Boot) : Option Boot :=
  let e := { e with mask := s.mask }
  if s.ready then (f.run dbg e s.perf).map fun p => { s with perf := p }
  else
    match f.made s.mask with
    | none => none
    | some (_, n) => some { s with perf := { s.perf with leaked := s.perf.leaked + n } }

def calls (dbg : Bool) : Boot → List (Env × Fn) → Option Boot
  | s, [] => some s
  | s, (e, f) :: fs =>
    match call dbg e f s with
    | none => none
    | some s => calls dbg s fs

/-- `report_fbpt_record_buffer`, `measurement.rs` lines 58-107: the table is published in the memory at `a`, if any was allocated; then its address is reported with the status code protocol, if
there is one (`code`: whether that worked), and installed as a configuration table (`install`: whether that worked). It runs at the end of DXE if it was registered. -/
def endOfDxe (dbg : Bool) (a : Option Nat) (code : Option Bool) (install : Bool) (s : Boot) : Option Boot :=
  if Effect.endOfDxe ∉ s.effects then some s
  else
    match s.perf.table.report dbg a with
    | (_, .panic) => none
    | (t, .err _) => some { s with perf := { s.perf with table := t } }
    | (t, .ok x) =>
      let s := { s with perf := { s.perf with table := t } }
      match code with
      | none => some s
      | some c =>
        let s := { s with reported := if c then some x else s.reported }
        some { s with published := if install then some x else s.published }

/-- The region of the event for ready to boot, if it was registered. -/
def Boot.region (s : Boot) : Option Region := s.effects.findSome? fun e => match e with | .readyToBoot r => some r | _ => none

/-- `fetch_and_add_mm_performance_records`, if it was registered; the outer `none`: it does not end. -/
def readyToBoot (dbg : Bool) (mm : Option ((mm : Mm) × mm.State)) (fuel : Nat) (b : Bytes) (s : Boot) : Option (Option Boot) :=
  match s.region with
  | none => some (some s)
  | some r => (Exchange.fetchAndAdd dbg mm r fuel b s.perf.table).map fun t => t.map fun t => { s with perf := { s.perf with table := t } }

end Verif.Perf.Component
