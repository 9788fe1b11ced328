import Verif.Perf.Measure
/-!
Model of the functions that modules call to measure: `/repo/sdk/patina/src/performance/logging.rs`, with the mask of `globals.rs`. Each calls the measurement function it is given;
this is `create_performance_measurement` of `Verif.Perf.Measure`.

A handle and the address of a GUID are numbers. A string is its bytes; a C string that may be null is an option. What the boot services and the timer answer is an environment.
-/
namespace Verif.Perf

/-- What a call finds: the mask of enabled measurements, the GUID of the module that a handle leads to, the GUID at an address, and the time for a ticker (0 for now). -/
structure Env where
  mask : Nat
  module : Nat → Option Nat
  there : Nat → Nat
  time : Nat → Nat

/-- The arguments of one call of `CreateMeasurement`, `performance_measurement.rs` lines 43-51. -/
structure Sent where
  caller : Nat
  guid : Option Nat
  string : Option Bytes
  ticker : Nat
  address : Nat
  identifier : Nat
  attr : Attr
deriving DecidableEq, Repr

/-- What the call is for the measurement function. -/
def Sent.call (e : Env) (s : Sent) : Call := ⟨s.caller, e.module s.caller, e.there s.caller, s.guid, s.string, e.time s.ticker, s.address, s.identifier, s.attr⟩

/-- `Measurement`, `measurement.rs` lines 387-398. -/
inductive Measurement where
  | startImage | loadImage | dbSupport | dbStart | dbStop
deriving DecidableEq, Repr

/-- Their values. -/
def Measurement.bit : Measurement → Nat
  | .startImage => 1
  | .loadImage => 1 <<< 1
  | .dbSupport => 1 <<< 2
  | .dbStart => 1 <<< 3
  | .dbStop => 1 <<< 4

/-- The calls a function makes, and the bytes that it allocates and never frees; `none` is a panic. -/
abbrev Made := Option (List Sent × Nat)

/-- `log_perf_measurement`, lines 24-50. A string becomes a C string, which is given away with `into_raw`; nobody takes it back. -/
def logMeasurement (caller : Nat) (guid : Option Nat) (string : Option Bytes) (address identifier : Nat) : Made :=
  match string with
  | some s => if 0 ∈ s then none else some ([⟨caller, guid, some s, 0, address, identifier, .entry⟩], s.length + 1)
  | none => some ([⟨caller, guid, none, 0, address, identifier, .entry⟩], 0)

/-- `start_perf_measurement`, lines 53-72, and `end_perf_measurement`, lines 75-94. -/
def markMeasurement (handle : Nat) (token mod : Option Bytes) (ticker identifier : Nat) (a : Attr) : Made :=
  some ([⟨handle, none, if token.isSome then token else if mod.isSome then mod else none, ticker, 0, identifier, a⟩], 0)

/-- The functions: begin or end (`stop`), and their arguments. -/
inductive Fn where
  | image (stop : Bool) (handle : Nat)
  | load (stop : Bool) (handle : Nat)
  | support (stop : Bool) (driver controller : Nat)
  | start (stop : Bool) (driver controller : Nat)
  | stop (stop : Bool) (driver controller : Nat)
  | event (s : Bytes) (caller : Nat)
  | signal (stop : Bool) (guid : Nat) (s : Bytes) (caller : Nat)
  | callback (stop : Bool) (guid : Nat) (s : Bytes) (caller : Nat)
  | function (stop : Bool) (s : Bytes) (caller : Nat)
  | inModule (stop : Bool) (s : Bytes) (caller : Nat)
  | crossModule (stop : Bool) (s : Bytes) (caller : Nat)
  | mark (stop : Bool) (handle : Nat) (token mod : Option Bytes) (ticker : Nat)
  | markEx (stop : Bool) (handle : Nat) (token mod : Option Bytes) (ticker identifier : Nat)
deriving DecidableEq, Repr

/-- The check of the mask, for example lines 98-100. -/
def masked (mask : Nat) (m : Measurement) (made : Made) : Made := if mask &&& m.bit = 0 then some ([], 0) else made

/-- `perf_image_start_begin`, lines 97-109. -/
def imageStartBegin (mask h : Nat) : Made := masked mask .startImage (logMeasurement h none none 0 0x01)
/-- `perf_image_start_end`, lines 112-117. -/
def imageStartEnd (mask h : Nat) : Made := masked mask .startImage (logMeasurement h none none 0 0x02)
/-- `perf_load_image_begin`, lines 120-132. -/
def loadImageBegin (mask h : Nat) : Made := masked mask .loadImage (logMeasurement h none none 0 0x03)
/-- `perf_load_image_end`, lines 135-147. -/
def loadImageEnd (mask h : Nat) : Made := masked mask .loadImage (logMeasurement h none none 0 0x04)
/-- `perf_driver_binding_support_begin`, lines 150-166. -/
def supportBegin (mask d c : Nat) : Made := masked mask .dbSupport (logMeasurement d none none c 0x07)
/-- `perf_driver_binding_support_end`, lines 169-185. -/
def supportEnd (mask d c : Nat) : Made := masked mask .dbSupport (logMeasurement d none none c 0x08)
/-- `perf_driver_binding_start_begin`, lines 188-204. -/
def startBegin (mask d c : Nat) : Made := masked mask .dbStart (logMeasurement d none none c 0x05)
/-- `perf_driver_binding_start_end`, lines 207-223. -/
def startEnd (mask d c : Nat) : Made := masked mask .dbStart (logMeasurement d none none c 0x06)
/-- `perf_driver_binding_stop_begin`, lines 226-242. -/
def stopBegin (mask d c : Nat) : Made := masked mask .dbStop (logMeasurement d none none c 0x09)
/-- `perf_driver_binding_stop_end`, lines 245-261. -/
def stopEnd (mask d c : Nat) : Made := masked mask .dbStop (logMeasurement d none none c 0x0A)
/-- `perf_event`, lines 264-273. -/
def perfEvent (s : Bytes) (caller : Nat) : Made := logMeasurement caller none (some s) 0 0x00
/-- `perf_event_signal_begin`, lines 276-290. -/
def signalBegin (g : Nat) (s : Bytes) (caller : Nat) : Made := logMeasurement caller (some g) (some s) 0 0x10
/-- `perf_event_signal_end`, lines 293-307. -/
def signalEnd (g : Nat) (s : Bytes) (caller : Nat) : Made := logMeasurement caller (some g) (some s) 0 0x11
/-- `perf_callback_begin`, lines 310-324. -/
def callbackBegin (g : Nat) (s : Bytes) (caller : Nat) : Made := logMeasurement caller (some g) (some s) 0 0x20
/-- `perf_callback_end`, lines 327-341. -/
def callbackEnd (g : Nat) (s : Bytes) (caller : Nat) : Made := logMeasurement caller (some g) (some s) 0 0x21
/-- `perf_function_begin`, lines 344-353. -/
def functionBegin (s : Bytes) (caller : Nat) : Made := logMeasurement caller none (some s) 0 0x30
/-- `perf_function_end`, lines 356-365. -/
def functionEnd (s : Bytes) (caller : Nat) : Made := logMeasurement caller none (some s) 0 0x31
/-- `perf_in_module_begin`, lines 368-381. -/
def inModuleBegin (s : Bytes) (caller : Nat) : Made := logMeasurement caller none (some s) 0 0x40
/-- `perf_in_module_end`, lines 384-397. -/
def inModuleEnd (s : Bytes) (caller : Nat) : Made := logMeasurement caller none (some s) 0 0x41
/-- `perf_cross_module_begin`, lines 400-413. -/
def crossModuleBegin (s : Bytes) (caller : Nat) : Made := logMeasurement caller none (some s) 0 0x50
/-- `perf_cross_module_end`, lines 416-429. -/
def crossModuleEnd (s : Bytes) (caller : Nat) : Made := logMeasurement caller none (some s) 0 0x51
/-- `perf_start`, lines 432-440. -/
def perfStart (h : Nat) (token mod : Option Bytes) (ticker : Nat) : Made := markMeasurement h token mod ticker 0 .start
/-- `perf_end`, lines 443-451. -/
def perfEnd (h : Nat) (token mod : Option Bytes) (ticker : Nat) : Made := markMeasurement h token mod ticker 0 .stop
/-- `perf_start_ex`, lines 454-463. -/
def perfStartEx (h : Nat) (token mod : Option Bytes) (ticker id : Nat) : Made := markMeasurement h token mod ticker id .start
/-- `perf_end_ex`, lines 466-475. -/
def perfEndEx (h : Nat) (token mod : Option Bytes) (ticker id : Nat) : Made := markMeasurement h token mod ticker id .stop

/-- What the function does. -/
def Fn.made (mask : Nat) : Fn → Made
  | .image false h => imageStartBegin mask h
  | .image true h => imageStartEnd mask h
  | .load false h => loadImageBegin mask h
  | .load true h => loadImageEnd mask h
  | .support false d c => supportBegin mask d c
  | .support true d c => supportEnd mask d c
  | .start false d c => startBegin mask d c
  | .start true d c => startEnd mask d c
  | .stop false d c => stopBegin mask d c
  | .stop true d c => stopEnd mask d c
  | .event s c => perfEvent s c
  | .signal false g s c => signalBegin g s c
  | .signal true g s c => signalEnd g s c
  | .callback false g s c => callbackBegin g s c
  | .callback true g s c => callbackEnd g s c
  | .function false s c => functionBegin s c
  | .function true s c => functionEnd s c
  | .inModule false s c => inModuleBegin s c
  | .inModule true s c => inModuleEnd s c
  | .crossModule false s c => crossModuleBegin s c
  | .crossModule true s c => crossModuleEnd s c
  | .mark false h t m k => perfStart h t m k
  | .mark true h t m k => perfEnd h t m k
  | .markEx false h t m k i => perfStartEx h t m k i
  | .markEx true h t m k i => perfEndEx h t m k i

/-- The table, the number of loaded images, and the bytes that were allocated for strings and never freed. -/
structure Perf where
  table : Fbpt
  loads : Nat
  leaked : Nat

/-- The calls, one after the other; the functions do not look at the status. -/
def measureAll (dbg : Bool) (e : Env) (p : Perf) : List Sent → Option Perf
  | [] => some p
  | s :: ss =>
    match measure dbg p.table p.loads (s.call e) with
    | ((_, _), none) => none
    | ((t, n), some _) => measureAll dbg e { p with table := t, loads := n } ss

/-- Calling a function, with `create_performance_measurement`; `none` is a panic. -/
def Fn.run (dbg : Bool) (e : Env) (p : Perf) (f : Fn) : Option Perf :=
  match f.made e.mask with
  | none => none
  | some (ss, n) => measureAll dbg e { p with leaked := p.leaked + n } ss

/-- Calling functions, each in its environment. -/
def runAll (dbg : Bool) : Perf → List (Env × Fn) → Option Perf
  | p, [] => some p
  | p, (e, f) :: fs =>
    match f.run dbg e p with
    | none => none
    | some p => runAll dbg p fs

end Verif.Perf
