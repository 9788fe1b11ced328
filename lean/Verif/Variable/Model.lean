import Verif.Prelude
/-!
Model of the variable services of the SDK: `sdk/patina/src/runtime_services.rs` and
`sdk/patina/src/runtime_services/variable_services.rs`.

The firmware the wrappers call is a parameter (`Firmware`): functions of a state, which get what the
wrapper passes and answer with a status and what they write through the pointers. An entry of the
runtime services table that is null is `none`. What else may change the state between two calls of
one wrapper is a parameter too. `dbg` says whether `debug_assert!` is on. Statuses are the numbers of
`efi::Status`; names are lists of 16 bit units; a GUID is a number.
-/
namespace Verif.Variable

abbrev Status := Nat
abbrev Str := List Nat

def SUCCESS : Status := 0
def INVALID_PARAMETER : Status := 2 ^ 63 + 2
def BUFFER_TOO_SMALL : Status := 2 ^ 63 + 5
def NOT_FOUND : Status := 2 ^ 63 + 14

/-- `efi::Status::is_error` (r-efi): the top bit. -/
def isError (s : Status) : Bool := 2 ^ 63 ≤ s

/-- What `GetVariable` answers: the status, `*Attributes`, `*DataSize` and the bytes written from the
start of the buffer. -/
structure GetReply where
  status : Status
  attrs : Nat
  size : Nat
  written : List UInt8
deriving DecidableEq, Repr

/-- What `GetNextVariableName` answers: the status, `*VariableNameSize`, the units written from the
start of the name buffer and `*VendorGuid`. -/
structure NextReply where
  status : Status
  size : Nat
  written : Str
  ns : Nat
deriving DecidableEq, Repr

/-- The entries of the runtime services table that the wrappers use. `get s name ns size`,
`next s size buffer ns`, `set s name ns attrs data`, `query s attrs`. -/
structure Firmware (σ : Type) where
  get : Option (σ → Str → Nat → Nat → GetReply)
  next : Option (σ → Nat → Str → Nat → NextReply)
  set : Option (σ → Str → Nat → Nat → List UInt8 → Status × σ)
  query : Option (σ → Nat → Status × Nat × Nat × Nat)

/-- `GetVariableStatus` (`variable_services.rs` L11-29). -/
inductive GetStatus where
  | error (e : Status)
  | tooSmall (size attrs : Nat)
  | success (size attrs : Nat)
deriving DecidableEq, Repr

section
variable {σ T : Type}

/-- What `resize` makes of a vector (`alloc::vec::Vec::resize`). -/
def resize {α : Type} (l : List α) (n : Nat) (x : α) : List α :=
  l.take n ++ List.replicate (n - l.length) x

/-- A buffer after something was written from its start. -/
def overwrite {α : Type} (buf w : List α) : List α := w ++ buf.drop w.length

/-- `set_variable_unchecked` (`runtime_services.rs` L301-323). -/
def setUnchecked (dbg : Bool) (fw : Firmware σ) (s : σ) (name : Str) (ns attrs : Nat) (data : List UInt8) :
    Outcome Status Unit × σ :=
  match fw.set with
  | none => (if dbg then .panic else .err NOT_FOUND, s)
  | some f =>
    match f s name ns attrs data with
    | (st, s') => (if isError st then .err st else .ok (), s')

/-- `set_variable` (`runtime_services.rs` L117-130). -/
def setVariable (dbg : Bool) (fw : Firmware σ) (s : σ) (name : Str) (ns attrs : Nat) (data : List UInt8) :
    Outcome Status Unit × σ :=
  if 0 ∈ name then setUnchecked dbg fw s name ns attrs data
  else (if dbg then .panic else .err INVALID_PARAMETER, s)

/-- The size of a buffer that may be absent (`runtime_services.rs` L337-340). -/
def bufLen : Option (List UInt8) → Nat
  | some d => d.length
  | none => 0

/-- `get_variable_unchecked` (`runtime_services.rs` L325-361). `data` is the caller's buffer; `none`
is no buffer. The second component is the buffer afterwards. -/
def getUnchecked (dbg : Bool) (fw : Firmware σ) (s : σ) (name : Str) (ns : Nat) (data : Option (List UInt8)) :
    Outcome Status (GetStatus × List UInt8) :=
  match fw.get with
  | none => if dbg then .panic else .ok (.error NOT_FOUND, data.getD [])
  | some f =>
    let r := f s name ns (bufLen data)
    .ok (if r.status = BUFFER_TOO_SMALL then .tooSmall r.size r.attrs
         else if isError r.status then .error r.status
         else .success r.size r.attrs,
         match data with | some d => overwrite d r.written | none => [])

/-- The buffer `get_variable` passes: none while it is empty (`runtime_services.rs` L163-171). -/
def bufferOf (data : List UInt8) : Option (List UInt8) := if data = [] then none else some data

/-- What `get_variable` does after the last call (`runtime_services.rs` L173-192). -/
def finish (conv : List UInt8 → Option T) : Outcome Status (GetStatus × List UInt8) → Outcome Status (T × Nat)
  | .ok (.success _ attrs, data) => match conv data with
    | some t => .ok (t, attrs)
    | none => .err INVALID_PARAMETER
  | .ok (.tooSmall _ _, _) => .err BUFFER_TOO_SMALL
  | .ok (.error e, _) => .err e
  | .err e => .err e
  | .panic => .panic

/-- `get_variable` (`runtime_services.rs` L138-195). `conv` is `T::try_from`, `later` what happens to
the variables between the two calls. -/
def getVariable (dbg : Bool) (fw : Firmware σ) (later : σ → σ) (s : σ) (name : Str) (ns : Nat) (hint : Option Nat)
    (conv : List UInt8 → Option T) : Outcome Status (T × Nat) :=
  if 0 ∈ name then
    let data := resize ([] : List UInt8) (hint.getD 0) 0
    match getUnchecked dbg fw s name ns (bufferOf data) with
    | .ok (.tooSmall size _, data') =>
      let data := resize data' size 10
      finish conv (getUnchecked dbg fw (later s) name ns (bufferOf data))
    | r => finish conv r
  else if dbg then .panic else .err INVALID_PARAMETER

/-- `get_variable_size_and_attributes` (`runtime_services.rs` L198-221). -/
def sizeAndAttributes (dbg : Bool) (fw : Firmware σ) (s : σ) (name : Str) (ns : Nat) : Outcome Status (Nat × Nat) :=
  if 0 ∈ name then
    match getUnchecked dbg fw s name ns none with
    | .ok (.tooSmall size attrs, _) => .ok (size, attrs)
    | .ok (.error e, _) => .err e
    | .ok (.success size attrs, _) => if dbg then .panic else .ok (size, attrs)
    | .err e => .err e
    | .panic => .panic
  else if dbg then .panic else .err INVALID_PARAMETER

/-- The caller's name copied to the start of the buffer (`runtime_services.rs` L376-381): the buffer
is made as long as the name if it is shorter. -/
def startName (prev next : Str) : Str :=
  overwrite (if next.length < prev.length then resize next prev.length 0 else next) prev

/-- The second and last call of the firmware (`runtime_services.rs` L389-412 with `first_try` off). -/
def secondTry (f : σ → Nat → Str → Nat → NextReply) (s : σ) (size : Nat) (buf : Str) (ns : Nat) :
    Outcome Status Unit × Str × Nat :=
  let r := f s size buf ns
  (if isError r.status then .err r.status else .ok (), overwrite buf r.written, r.ns)

/-- `get_next_variable_name_unchecked` (`runtime_services.rs` L363-413): the result, `next_name` and
`next_namespace` afterwards. The size passed is the number of units of the buffer. -/
def nextUnchecked (dbg : Bool) (fw : Firmware σ) (s : σ) (prev : Str) (prevNs : Nat) (next : Str) (nextNs : Nat) :
    Outcome Status Unit × Str × Nat :=
  match fw.next with
  | none => (if dbg then .panic else .err NOT_FOUND, next, nextNs)
  | some f =>
    let buf := startName prev next
    let r := f s buf.length buf prevNs
    let after := overwrite buf r.written
    if r.status = BUFFER_TOO_SMALL then
      if buf.length < r.size then
        secondTry f s r.size (overwrite (resize after r.size 0) prev) prevNs
      else (.panic, after, r.ns)
    else (if isError r.status then .err r.status else .ok (), after, r.ns)

/-- `get_next_variable_name` (`runtime_services.rs` L231-249). -/
def getNextVariableName (dbg : Bool) (fw : Firmware σ) (s : σ) (prev : Str) (prevNs : Nat) : Outcome Status (Str × Nat) :=
  if prev = [] then (if dbg then .panic else .err INVALID_PARAMETER)
  else match nextUnchecked dbg fw s prev prevNs [] 0 with
    | (.ok _, name, ns) => .ok (name, ns)
    | (.err e, _) => .err e
    | (.panic, _) => .panic

/-- `query_variable_info` (`runtime_services.rs` L415-436). -/
def queryInfo (dbg : Bool) (fw : Firmware σ) (s : σ) (attrs : Nat) : Outcome Status (Nat × Nat × Nat) :=
  match fw.query with
  | none => if dbg then .panic else .err NOT_FOUND
  | some f =>
    match f s attrs with
    | (st, info) => if isError st then .err st else .ok info

/-- `VariableNameIterator` (`variable_services.rs` L79-86) without the services. -/
structure Iter where
  current : Str × Nat
  next : Str × Nat
  finished : Bool
deriving DecidableEq, Repr

/-- `new_from_first` (`variable_services.rs` L89-106). -/
def Iter.first : Iter := ⟨([0], 0), ([], 0), false⟩

/-- `new_from_variable` (`variable_services.rs` L109-116). -/
def Iter.fromVariable (name : Str) (ns : Nat) : Iter := ⟨(name, ns), ([], 0), false⟩

/-- `advance` (`variable_services.rs` L123-146). -/
def Iter.advance (dbg : Bool) (fw : Firmware σ) (s : σ) (it : Iter) : Outcome Status Unit × Iter :=
  if it.finished then (.ok (), it)
  else match nextUnchecked dbg fw s it.current.1 it.current.2 it.next.1 it.next.2 with
    | (.panic, _) => (.panic, it)
    | (.ok _, n) => (.ok (), ⟨n, it.current, false⟩)
    | (.err e, n) => if e = NOT_FOUND then (.ok (), ⟨n, it.current, true⟩) else (.err e, ⟨n, it.current, false⟩)

/-- `get` (`variable_services.rs` L148-150). -/
def Iter.get (it : Iter) : Option (Str × Nat) := if it.finished then none else some it.current

/-- `next` of `FallibleStreamingIterator`: `advance`, then `get`. -/
def Iter.step (dbg : Bool) (fw : Firmware σ) (s : σ) (it : Iter) : Outcome Status (Option (Str × Nat)) × Iter :=
  match it.advance dbg fw s with
  | (.ok _, it') => (.ok it'.get, it')
  | (.err e, it') => (.err e, it')
  | (.panic, it') => (.panic, it')

end
end Verif.Variable
