import Verif.Protocol.Model
/-!
Model of `/repo/patina_dxe_core/src/driver_services.rs`: connecting drivers to controllers and disconnecting them.

* The rest of the machine is an arbitrary type `W`. The protocol database is part of it (`Env.db`, the model of
  `Verif/Protocol`). Drivers and override protocols are arbitrary functions on `W`, so they may change the
  database, and may themselves connect and disconnect controllers, as long as they return.
* A driver binding, or any other interface, is the number of its address. Interfaces of driver bindings are valid
  pointers.
* Notifications delivered when the lock on the protocol database is released, and performance records, count as
  part of the next call of a driver.
* The functions return, besides their result, a record of the calls they made. The Rust code has no such record.
-/
namespace Verif.Connect
open Verif.Protocol (Db Usage isDriver isChild)

/-- The functions' view of the rest of the machine. -/
structure Env (W : Type) where
  /-- The protocol database. -/
  db : W → Db
  /-- The GUIDs of the protocols involved. -/
  bindingGuid : Nat
  platformGuid : Nat
  familyGuid : Nat
  busGuid : Nat
  pathGuid : Nat
  securityGuid : Nat
  /-- The field `version` of a driver binding. -/
  version : W → Nat → Nat
  /-- The sort of line 133. It is unstable, so drivers of equal version may come in any order. -/
  sort : W → List Nat → List Nat
  /-- `get_driver` of a platform override: interface, controller, previous driver; `none` is any error. -/
  platform : W → Nat → Nat → Nat → W × Option Nat
  /-- `get_version` of a family override. -/
  family : W → Nat → W × Nat
  /-- `get_driver` of a bus-specific override: interface, previous driver. -/
  bus : W → Nat → Nat → W × Option Nat
  /-- The device path of the controller (with the remaining one appended) is well formed. -/
  pathOk : W → Nat → Option Nat → Bool
  /-- The remaining device path is an end node. -/
  isEnd : W → Nat → Bool
  /-- `file_authentication` of the Security2 protocol, on that device path; `none` is success. -/
  authenticate : W → Nat → Nat → Option Nat → W × Option EfiError
  /-- `supported`, `start` and `stop` of a driver binding; the result says whether it returned `SUCCESS`. -/
  supported : W → Nat → Nat → Option Nat → W × Bool
  start : W → Nat → Nat → Option Nat → W × Bool
  stop : W → Nat → Nat → List Nat → W × Bool

variable {W : Type}

/-- A result that may not have returned within the fuel (`none`). -/
abbrev Res (W α : Type) := Option (Outcome EfiError α × W)

/-- `get_bindings_for_handles`, lines 27-37. -/
def bindings (env : Env W) (w : W) (hs : List Nat) : List Nat :=
  hs.filterMap fun h =>
    match (env.db w).getInterface h env.bindingGuid with
    | .ok i => some i
    | _ => none

/-- The loops of lines 53-63 and 111-120: ask for drivers until there is none. -/
def drain (get : W → Nat → W × Option Nat) : Nat → W → Nat → List Nat → Option (List Nat × W)
  | 0, _, _, _ => none
  | n + 1, w, prev, acc =>
    match get w prev with
    | (w', none) => some (acc, w')
    | (w', some h) => drain get n w' h (acc ++ [h])

/-- The handles found, turned into bindings (lines 65 and 122). -/
def drained (env : Env W) (r : Option (List Nat × W)) : Res W (List Nat) :=
  match r with
  | none => none
  | some (hs, w) => some (.ok (bindings env w hs), w)

/-- `get_platform_driver_override_bindings`, lines 39-66. `.panic` is the `expect` on a null interface. -/
def platformBindings (env : Env W) (n : Nat) (c : Nat) (w : W) : Res W (List Nat) :=
  match (env.db w).locateProtocol env.platformGuid with
  | .ok i => if i = 0 then some (.panic, w) else drained env (drain (fun w prev => env.platform w i c prev) n w 0 [])
  | _ => some (.ok [], w)

/-- The loop of lines 77-90. -/
def familyMap (env : Env W) : List Nat → BMap Nat → W → Outcome EfiError (BMap Nat) × W
  | [], m, w => (.ok m, w)
  | h :: hs, m, w =>
    match (env.db w).getInterface h env.familyGuid with
    | .ok i => if i = 0 then (.panic, w) else familyMap env hs (m.insert (env.family w i).2 h) (env.family w i).1
    | _ => familyMap env hs m w

/-- Line 93: the values in reverse order. -/
def familyResult (env : Env W) (r : Outcome EfiError (BMap Nat) × W) : Res W (List Nat) :=
  match r with
  | (.ok m, w) => some (.ok (bindings env w (m.map (·.2)).reverse), w)
  | (.err e, w) => some (.err e, w)
  | (.panic, w) => some (.panic, w)

/-- `get_family_override_bindings`, lines 68-94. -/
def familyBindings (env : Env W) (w : W) : Res W (List Nat) :=
  match (env.db w).locateHandles (some env.bindingGuid) with
  | .ok hs => familyResult env (familyMap env hs [] w)
  | _ => some (.ok [], w)

/-- `get_bus_specific_override_bindings`, lines 96-123. -/
def busBindings (env : Env W) (n : Nat) (c : Nat) (w : W) : Res W (List Nat) :=
  match (env.db w).getInterface c env.busGuid with
  | .ok i => if i = 0 then some (.panic, w) else drained env (drain (fun w prev => env.bus w i prev) n w 0 [])
  | _ => some (.ok [], w)

/-- `get_all_driver_bindings`, lines 125-136. -/
def allBindings (env : Env W) (w : W) : List Nat :=
  match (env.db w).locateHandles (some env.bindingGuid) with
  | .ok hs => env.sort w (bindings env w hs)
  | _ => []

/-- `retain(|x| !driver_candidates.contains(x))` and `append`, lines 199-215. -/
def extend (cs new : List Nat) : List Nat := cs ++ new.filter (fun x => !cs.contains x)

/-- Continue with the value of a call that returned. -/
def Res.then {α β : Type} (r : Res W α) (f : α → W → Res W β) : Res W β :=
  match r with
  | none => none
  | some (.ok a, w) => f a w
  | some (.err e, w) => some (.err e, w)
  | some (.panic, w) => some (.panic, w)

/-- Lines 192-215: the drivers to try, in order. -/
def candidates (env : Env W) (n : Nat) (c : Nat) (drivers : List Nat) (w : W) : Res W (List Nat) :=
  (platformBindings env n c w).then fun s2 w2 =>
    (familyBindings env w2).then fun s3 w3 =>
      (busBindings env n c w3).then fun s4 w4 =>
        some (.ok (extend (extend (extend (extend (bindings env w drivers) s2) s3) s4) (allBindings env w4)), w4)

/-- One driver asked to manage the controller: `none` when it declined, otherwise whether it started. -/
structure Try where
  binding : Nat
  answer : Option Bool
deriving DecidableEq

/-- The body of the loop of lines 221-269. -/
def tryOne (env : Env W) (c : Nat) (path : Option Nat) (b : Nat) (w : W) : Try × W :=
  match env.supported w b c path with
  | (w', false) => (⟨b, none⟩, w')
  | (w', true) => (⟨b, some (env.start w' b c path).2⟩, (env.start w' b c path).1)

/-- The loop of lines 221-269. -/
def tryAll (env : Env W) (c : Nat) (path : Option Nat) : List Nat → W → List Try × W
  | [], w => ([], w)
  | b :: bs, w =>
    ((tryOne env c path b w).1 :: (tryAll env c path bs (tryOne env c path b w).2).1,
      (tryAll env c path bs (tryOne env c path b w).2).2)

/-- `started_drivers` of a round. -/
def accepted (ts : List Try) : List Nat := (ts.filter (fun t => t.answer.isSome)).map (·.binding)

/-- The rounds of lines 219-274, at most `n`. -/
def rounds (env : Env W) (c : Nat) (path : Option Nat) : Nat → List Nat → W → Option (List (List Try) × W)
  | 0, _, _ => none
  | n + 1, cs, w =>
    let r := tryAll env c path cs w
    if accepted r.1 = [] then some ([r.1], r.2)
    else
      match rounds env c path n (cs.filter (fun x => !(accepted r.1).contains x)) r.2 with
      | none => none
      | some (l, w') => some (r.1 :: l, w')

/-- `one_started`. -/
def oneStarted (l : List (List Try)) : Bool := l.any (·.any (fun t => t.answer == some true))

/-- The remaining path is given and an end node (lines 280-285). -/
def pathEnds (env : Env W) (w : W) (path : Option Nat) : Bool :=
  match path with
  | none => false
  | some p => env.isEnd w p

/-- Lines 276-287. -/
def verdict (env : Env W) (path : Option Nat) (r : Option (List (List Try) × W)) :
    Option (Outcome EfiError Unit × List (List Try) × W) :=
  match r with
  | none => none
  | some (l, w) => some (if oneStarted l || pathEnds env w path then .ok () else .err .notFound, l, w)

/-- `core_connect_single_controller`, lines 185-288, with the rounds of tries. -/
def connectSingle (env : Env W) (n : Nat) (c : Nat) (drivers : List Nat) (path : Option Nat) (w : W) :
    Option (Outcome EfiError Unit × List (List Try) × W) :=
  if (env.db w).valid c then
    match candidates env n c drivers w with
    | none => none
    | some (.ok cs, w') => verdict env path (rounds env c path (cs.length + 1) cs w')
    | some (.err e, w') => some (.err e, [], w')
    | some (.panic, w') => some (.panic, [], w')
  else some (.err .invalidParameter, [], w)

/-- The path given to `file_authentication` includes the remaining path only without `recursive`
(lines 150-160). -/
def authPath (path : Option Nat) (recursive : Bool) : Option Nat := if recursive then none else path

/-- `authenticate_connect`, lines 139-183; `none` means the connection may go ahead. -/
def authenticateConnect (env : Env W) (c : Nat) (path : Option Nat) (recursive : Bool) (w : W) : W × Option EfiError :=
  match (env.db w).getInterface c env.pathGuid, (env.db w).locateProtocol env.securityGuid with
  | .ok dp, .ok sec =>
    if env.pathOk w dp (authPath path recursive) then env.authenticate w sec dp (authPath path recursive)
    else (w, none)
  | _, _ => (w, none)

/-- What connecting did, in order: for each controller, the rounds of tries (none if authentication failed). -/
structure Connected where
  controller : Nat
  refused : Bool
  rounds : List (List Try)

/-- A finished call of `core_connect_controller`. -/
abbrev ConnRes (W : Type) := Option (Outcome EfiError Unit × List Connected × W)

/-- The loop over the children, lines 321-325: results are ignored, but a panic is not. -/
def connectChildren (f : Nat → W → ConnRes W) : List Nat → W → ConnRes W
  | [], w => some (.ok (), [], w)
  | c :: cs, w =>
    match f c w with
    | none => none
    | some (.panic, l, w') => some (.panic, l, w')
    | some (_, l, w') =>
      match connectChildren f cs w' with
      | none => none
      | some (r, l', w'') => some (r, l ++ l', w'')

/-- Lines 320-328: the children are looked up after the controller was connected; `r` is the result for the
controller. -/
def thenChildren (env : Env W) (f : Nat → W → ConnRes W) (c : Nat) (r : Outcome EfiError Unit) (l : List Connected)
    (w : W) : ConnRes W :=
  match (env.db w).children c with
  | .ok cs =>
    match connectChildren f cs w with
    | none => none
    | some (.panic, l', w') => some (.panic, l ++ l', w')
    | some (_, l', w') => some (r, l ++ l', w')
  | _ => some (.panic, l, w)

/-- `core_connect_controller`, lines 311-329, with at most `n` nested calls and answers of override protocols. -/
def connect (env : Env W) : Nat → Nat → List Nat → Option Nat → Bool → W → ConnRes W
  | 0, _, _, _, _, _ => none
  | n + 1, c, drivers, path, recursive, w =>
    match authenticateConnect env c path recursive w with
    | (w1, some e) => some (.err e, [⟨c, true, []⟩], w1)
    | (w1, none) =>
      match connectSingle env n c drivers path w1 with
      | none => none
      | some (.panic, l, w2) => some (.panic, [⟨c, false, l⟩], w2)
      | some (r, l, w2) =>
        if recursive then thenChildren env (fun k w => connect env n k [] none true w) c r [⟨c, false, l⟩] w2
        else some (r, [⟨c, false, l⟩], w2)

/-! ### Disconnecting -/

/-- `get_open_protocol_information` of the database (`protocol_db.rs`, lines 504-514): all usages on a handle. -/
def usagesOn (db : Db) (h : Nat) : Option (List Usage) :=
  (db.handles.get h).map fun hd => hd.protocols.flatMap (fun p => p.2.usage)

/-- Keeps the first occurrence of each element (lines 424-425 and 466-467). -/
def dedup : List Nat → List Nat
  | [] => []
  | x :: l => x :: (dedup l).filter (fun y => !(y == x))

/-- Lines 405-421; `.panic` is the `expect` of line 412. -/
def managing (db : Db) (c : Nat) : Outcome EfiError (List Nat) :=
  match usagesOn db c with
  | none => .ok []
  | some us =>
    let ds := us.filter (fun u => isDriver u.attrs)
    if ds.all (fun u => u.agent.isSome) then .ok (ds.filterMap (·.agent)) else .panic

/-- Lines 424-430. -/
def selected (driver : Option Nat) (l : List Nat) : List Nat :=
  match driver with
  | none => dedup l
  | some d => (dedup l).filter (· == d)

/-- `driver_valid`, lines 442-457. -/
def stillManages (us : List Usage) (d : Nat) : Bool := us.any (fun u => u.agent == some d && isDriver u.attrs)

/-- `child_handles`, lines 443-457 and 466-467. -/
def childrenOf (us : List Usage) (d : Nat) : List Nat :=
  dedup ((us.filter (fun u => u.agent == some d && isChild u.attrs)).filterMap (·.controller))

/-- The children to stop, lines 471-476. -/
def toStop (child : Option Nat) (l : List Nat) : List Nat :=
  match child with
  | none => l
  | some k => l.filter (· == k)

/-- `child_handle.is_none() || is_only_child`, lines 470-476 and 503. -/
def stopsController (child : Option Nat) (l : List Nat) : Bool :=
  match child with
  | none => true
  | some _ => l.length == (toStop child l).length

/-- One call of `stop`: the children given and whether it succeeded. -/
structure Stop where
  children : List Nat
  ok : Bool
deriving DecidableEq

/-- What was done about one driver: when its turn came (`before`), the calls made. -/
structure Turn (W : Type) where
  driver : Nat
  before : W
  calls : List Stop

/-- Lines 503-505: `stop` for the controller itself. -/
def stopSelf (env : Env W) (b c : Nat) (go : Bool) (w : W) : List Stop × W :=
  if go then ([⟨[], (env.stop w b c []).2⟩], (env.stop w b c []).1) else ([], w)

/-- Lines 493-505: `stop` for the children, then for the controller. -/
def stopBoth (env : Env W) (b c : Nat) (kids : List Nat) (self : Bool) (w : W) : List Stop × W :=
  if kids = [] then stopSelf env b c self w
  else
    match env.stop w b c kids with
    | (w', false) => ([⟨kids, false⟩], w')
    | (w', true) => (⟨kids, true⟩ :: (stopSelf env b c self w').1, (stopSelf env b c self w').2)

/-- The body of the loop of lines 434-509. The result says whether `status` was `SUCCESS` (`none`: skipped). -/
def turn (env : Env W) (c d : Nat) (child : Option Nat) (w : W) : Outcome EfiError (Option Bool) × Turn W × W :=
  match usagesOn (env.db w) c with
  | none => (.ok none, ⟨d, w, []⟩, w)
  | some us =>
    if stillManages us d then
      match (env.db w).getInterface d env.bindingGuid with
      | .ok b =>
        let r := stopBoth env b c (toStop child (childrenOf us d)) (stopsController child (childrenOf us d)) w
        (.ok (some (r.1.all (·.ok))), ⟨d, w, r.1⟩, r.2)
      | _ => (.err .invalidParameter, ⟨d, w, []⟩, w)
    else (.ok none, ⟨d, w, []⟩, w)

/-- The loop of lines 434-509; the result is `one_or_more_drivers_disconnected`. -/
def turns (env : Env W) (c : Nat) (child : Option Nat) :
    List Nat → Bool → W → Outcome EfiError Bool × List (Turn W) × W
  | [], one, w => (.ok one, [], w)
  | d :: ds, one, w =>
    match turn env c d child w with
    | (.ok s, t, w') =>
      let r := turns env c child ds (one || s == some true) w'
      (r.1, t :: r.2.1, r.2.2)
    | (.err e, t, w') => (.err e, [t], w')
    | (.panic, t, w') => (.panic, [t], w')

/-- The result, line 511. -/
def disconnectResult (none_ : Bool) (r : Outcome EfiError Bool × List (Turn W) × W) :
    Outcome EfiError Unit × List (Turn W) × W :=
  match r with
  | (.ok one, l, w) => (if one || none_ then .ok () else .err .notFound, l, w)
  | (.err e, l, w) => (.err e, l, w)
  | (.panic, l, w) => (.panic, l, w)

/-- `validate_handle` on an optional handle. -/
def validOpt (db : Db) (h : Option Nat) : Bool :=
  match h with
  | none => true
  | some h => db.valid h

/-- `core_disconnect_controller`, lines 389-512. -/
def disconnect (env : Env W) (c : Nat) (driver child : Option Nat) (w : W) :
    Outcome EfiError Unit × List (Turn W) × W :=
  if (env.db w).valid c && validOpt (env.db w) driver && validOpt (env.db w) child then
    match managing (env.db w) c with
    | .ok l => disconnectResult (selected driver l).isEmpty (turns env c child (selected driver l) false w)
    | .err e => (.err e, [], w)
    | .panic => (.panic, [], w)
  else (.err .invalidParameter, [], w)

end Verif.Connect
