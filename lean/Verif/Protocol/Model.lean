import Verif.Prelude
import Verif.BMap
/-!
Model of `/repo/patina_dxe_core/src/protocol_db.rs` lines 25-588 (`ProtocolDb`; the `SpinLockedProtocolDb` wrapper only
takes the lock, see C11).

* Handles, interfaces, events and registrations are numbers. A GUID is the number whose base-256 digits are its bytes, so
  that `OrdGuid` order (lines 125-128) is number order.
* The Xorshift64* hasher (lines 862-908) is an arbitrary function: `hash n i` is the `i`-th key tried when the handle
  counter is `n`. All theorems hold for every such function. The search for an unused key (lines 239-244) gives up after `lim`
  keys; giving up (`.panic`) stands for a search that does not end.
* `open_count` and the counters do not overflow.
-/
namespace Verif.Protocol

inductive Err where
  | invalidParameter
  | notFound
  | unsupported
  | accessDenied
  | alreadyStarted
deriving DecidableEq, Repr

/-- r_efi `OPEN_PROTOCOL_*` (UEFI 7.3.9) -/
def BY_HANDLE_PROTOCOL : Nat := 1
def GET_PROTOCOL : Nat := 2
def TEST_PROTOCOL : Nat := 4
def BY_CHILD_CONTROLLER : Nat := 8
def BY_DRIVER : Nat := 0x10
def EXCLUSIVE : Nat := 0x20
def BY_DRIVER_EXCLUSIVE : Nat := 0x30

/-- `(attributes & OPEN_PROTOCOL_BY_DRIVER) != 0` and so on -/
def isDriver (a : Nat) : Bool := a &&& BY_DRIVER != 0
def isExclusive (a : Nat) : Bool := a &&& EXCLUSIVE != 0
def isChild (a : Nat) : Bool := a &&& BY_CHILD_CONTROLLER != 0

/-- lines 48-53 -/
structure Usage where
  agent : Option Nat
  controller : Option Nat
  attrs : Nat
  count : Nat
deriving DecidableEq, Repr

/-- `PartialEq`, lines 55-61: the open count is not compared. -/
def Usage.same (a b : Usage) : Bool := a.agent == b.agent && a.controller == b.controller && a.attrs == b.attrs

/-- lines 66-98 -/
def Usage.new (handle : Nat) (agent controller : Option Nat) (attrs : Nat) : Outcome Err Usage :=
  let u : Usage := ⟨agent, controller, attrs, 1⟩
  if attrs = BY_CHILD_CONTROLLER then
    match agent, controller with
    | some _, some c => if handle = c then .err .invalidParameter else .ok u
    | _, _ => .err .invalidParameter
  else if attrs = BY_DRIVER ∨ attrs = BY_DRIVER_EXCLUSIVE then
    if agent.isNone || controller.isNone then .err .invalidParameter else .ok u
  else if attrs = EXCLUSIVE then
    if agent.isNone then .err .invalidParameter else .ok u
  else if attrs = BY_HANDLE_PROTOCOL ∨ attrs = GET_PROTOCOL ∨ attrs = TEST_PROTOCOL then .ok u
  else .err .invalidParameter

/-- lines 111-116 -/
structure Inst where
  interface : Nat
  byDriver : Bool
  byExclusive : Bool
  usage : List Usage
deriving DecidableEq, Repr

/-- lines 138-143 -/
structure Notify where
  event : Nat
  registration : Nat
  fresh : BMap Unit
deriving DecidableEq, Repr

/-- lines 145-148 -/
structure Handle where
  order : Nat
  protocols : BMap Inst
deriving DecidableEq, Repr

/-- lines 190-196 -/
structure Db where
  handles : BMap Handle
  notifications : BMap (List Notify)
  hashing : Bool
  nextHandle : Nat
  nextRegistration : Nat
deriving DecidableEq, Repr

/-- lines 199-207 -/
def Db.new : Db := ⟨[], [], false, 1, 1⟩

/-- lines 366-373 -/
def Db.valid (db : Db) (h : Nat) : Bool := db.handles.has h

/-- Lines 239-244: the first usable key, and the number of keys tried. -/
def findKey (hash : Nat → Nat → Nat) (db : Db) : Nat → Nat → Option (Nat × Nat)
  | 0, _ => none
  | lim + 1, i =>
    let k := hash db.nextHandle i
    if k = 0 ∨ db.handles.has k = true then findKey hash db lim (i + 1) else some (k, i + 1)

/-- Lines 236-254: a new handle, without protocols. -/
def Db.newHandle (hash : Nat → Nat → Nat) (lim : Nat) (db : Db) : Outcome Err (Nat × Db) :=
  if db.hashing then
    match findKey hash db lim 0 with
    | none => .panic
    | some (k, tried) =>
      .ok (k, { db with nextHandle := db.nextHandle + tried, handles := db.handles.insert k ⟨db.nextHandle + tried, []⟩ })
  else
    .ok (db.nextHandle, { db with nextHandle := db.nextHandle + 1,
                                  handles := db.handles.insert db.nextHandle ⟨db.nextHandle + 1, []⟩ })

/-- Lines 257-287: the second half of `install_protocol_interface`. -/
def Db.installOn (db : Db) (h g iface : Nat) : Outcome Err (Nat × List Notify) × Db :=
  match db.handles.get h with
  | none => (.err .unsupported, db)
  | some hd =>
    if hd.protocols.has g then (.err .invalidParameter, db)
    else
      let db := { db with handles := db.handles.insert h { hd with protocols := hd.protocols.insert g ⟨iface, false, false, []⟩ },
                          notifications := db.notifications.modify g (·.map fun n => { n with fresh := n.fresh.insert h () }) }
      (.ok (h, (db.notifications.get g).getD []), db)

/-- `install_protocol_interface`, lines 221-287 -/
def Db.install (hash : Nat → Nat → Nat) (lim : Nat) (db : Db) (handle : Option Nat) (g iface : Nat) :
    Outcome Err (Nat × List Notify) × Db :=
  match handle with
  | some h => if db.valid h then db.installOn h g iface else (.err .invalidParameter, db)
  | none =>
    match db.newHandle hash lim with
    | .ok (h, db') => db'.installOn h g iface
    | .err e => (.err e, db)
    | .panic => (.panic, db)

/-- `uninstall_protocol_interface`, lines 289-321 -/
def Db.uninstall (db : Db) (h g iface : Nat) : Outcome Err Unit × Db :=
  match db.handles.get h with
  | none => (.err .invalidParameter, db)
  | some hd =>
    match hd.protocols.get g with
    | none => (.err .notFound, db)
    | some inst =>
      if inst.interface ≠ iface then (.err .notFound, db)
      else if inst.usage ≠ [] then (.err .accessDenied, db)
      else
        let ps := hd.protocols.erase g
        (.ok (), { db with handles := if ps = [] then db.handles.erase h else db.handles.insert h { hd with protocols := ps } })

/-- Stable sort by the second component (`sort_by`, line 341). -/
def insertBy : Nat × Nat → List (Nat × Nat) → List (Nat × Nat)
  | a, [] => [a]
  | a, b :: l => if a.2 < b.2 then a :: b :: l else b :: insertBy a l

def sortBy (l : List (Nat × Nat)) : List (Nat × Nat) := l.foldl (fun acc a => insertBy a acc) []

/-- `locate_handles`, lines 323-346 -/
def Db.locateHandles (db : Db) (g : Option Nat) : Outcome Err (List Nat) :=
  let found := db.handles.filterMap fun (k, hd) =>
    match g with
    | none => some (k, hd.order)
    | some g => if hd.protocols.has g then some (k, hd.order) else none
  if found = [] then .err .notFound else .ok ((sortBy found).map (·.1))

/-- `locate_protocol`, lines 348-355 -/
def Db.locateProtocol (db : Db) (g : Nat) : Outcome Err Nat :=
  match db.handles.findSome? (fun (_, hd) => hd.protocols.get g) with
  | some i => .ok i.interface
  | none => .err .notFound

/-- `get_interface_for_handle`, lines 357-364 -/
def Db.getInterface (db : Db) (h g : Nat) : Outcome Err Nat :=
  match db.handles.get h with
  | none => .err .invalidParameter
  | some hd =>
    match hd.protocols.get g with
    | none => .err .notFound
    | some i => .ok i.interface

/-- Is an optional handle absent or valid (lines 385-391, 455-461)? -/
def Db.okHandle (db : Db) (h : Option Nat) : Bool :=
  match h with
  | none => true
  | some h => db.valid h

/-- Lines 396-443: the new state of the protocol instance. -/
def Inst.open (handle : Nat) (agent controller : Option Nat) (attrs : Nat) (inst : Inst) : Outcome Err Inst :=
  match Usage.new handle agent controller attrs with
  | .err e => .err e
  | .panic => .panic
  | .ok u =>
    let matched := inst.usage.any (·.same u)
    if inst.byDriver && matched then .err .alreadyStarted
    else if !inst.byExclusive && matched then
      -- the first match is counted up
      .ok { inst with usage := (inst.usage.takeWhile (fun x => !x.same u)) ++
              (match inst.usage.dropWhile (fun x => !x.same u) with
               | [] => []
               | x :: l => { x with count := x.count + 1 } :: l) }
    else
      if (attrs = BY_DRIVER ∨ attrs = EXCLUSIVE ∨ attrs = BY_DRIVER_EXCLUSIVE) ∧ (inst.byExclusive = true ∨ inst.byDriver = true) then
        .err .accessDenied
      else if agent.isNone then .ok inst
      else .ok { inst with byDriver := inst.byDriver || isDriver attrs, byExclusive := inst.byExclusive || isExclusive attrs,
                           usage := inst.usage ++ [u] }

/-- Change one protocol instance in place. -/
def Db.setInst (db : Db) (h g : Nat) (i : Inst) : Db :=
  { db with handles := db.handles.modify h fun hd => { hd with protocols := hd.protocols.modify g fun _ => i } }

def Db.getInst (db : Db) (h g : Nat) : Option Inst :=
  match db.handles.get h with
  | none => none
  | some hd => hd.protocols.get g

/-- `add_protocol_usage`, lines 375-443 -/
def Db.addUsage (db : Db) (h g : Nat) (agent controller : Option Nat) (attrs : Nat) : Outcome Err Unit × Db :=
  if !db.valid h || !db.okHandle agent || !db.okHandle controller then (.err .invalidParameter, db)
  else
    match db.getInst h g with
    | none => (.err .unsupported, db)
    | some inst =>
      match inst.open h agent controller attrs with
      | .ok inst' => (.ok (), db.setInst h g inst')
      | .err e => (.err e, db)
      | .panic => (.panic, db)

/-- Does a close with these arguments remove this usage (lines 468-472)? -/
def Usage.closes (agent controller : Option Nat) (attrs : Option Nat) (u : Usage) : Bool :=
  u.agent == agent && u.controller == controller && (match attrs with | none => true | some a => u.attrs == a)

/-- Lines 467-485: remove matching usages, last first, until there is none. -/
def Inst.closeAll (agent controller attrs : Option Nat) : Nat → Bool → Inst → Bool × Inst
  | 0, st, inst => (st, inst)
  | n + 1, st, inst =>
    -- `rposition` and `remove`
    let rev := inst.usage.reverse
    match rev.dropWhile (fun u => !u.closes agent controller attrs) with
    | [] => (st, inst)
    | u :: before =>
      let after := rev.takeWhile (fun u => !u.closes agent controller attrs)
      closeAll agent controller attrs n true
        { inst with usage := (after ++ before).reverse,
                    byDriver := if isDriver u.attrs then false else inst.byDriver,
                    byExclusive := if isExclusive u.attrs then false else inst.byExclusive }

/-- `remove_protocol_usage`, lines 445-488 -/
def Db.removeUsage (db : Db) (h g : Nat) (agent controller : Option Nat) (attrs : Option Nat) : Outcome Err Unit × Db :=
  if !db.valid h || !db.okHandle agent || !db.okHandle controller then (.err .invalidParameter, db)
  else
    match db.getInst h g with
    | none => (.err .notFound, db)
    | some inst =>
      let r := inst.closeAll agent controller attrs (inst.usage.length + 1) false
      (if r.1 then .ok () else .err .notFound, db.setInst h g r.2)

/-- `get_open_protocol_information_by_protocol`, lines 490-502 -/
def Db.usages (db : Db) (h g : Nat) : Outcome Err (List Usage) :=
  if !db.valid h then .err .invalidParameter
  else
    match db.getInst h g with
    | none => .err .notFound
    | some i => .ok i.usage

/-- `get_protocols_on_handle`, lines 516-521 -/
def Db.protocolsOn (db : Db) (h : Nat) : Outcome Err (List Nat) :=
  match db.handles.get h with
  | none => .err .invalidParameter
  | some hd => .ok hd.protocols.keys

/-- `register_protocol_notify`, lines 523-535 -/
def Db.register (db : Db) (g event : Nat) : Nat × Db :=
  let n : Notify := ⟨event, db.nextRegistration, []⟩
  (db.nextRegistration,
    { db with nextRegistration := db.nextRegistration + 1,
              notifications := db.notifications.insert g ((db.notifications.get g).getD [] ++ [n]) })

/-- `unregister_protocol_notify_event`, lines 537-541 -/
def Db.unregister (db : Db) (event : Nat) : Db :=
  { db with notifications := db.notifications.map fun (g, l) => (g, l.filter fun n => !(n.event == event)) }

/-- In one GUID's list: the first entry with this registration; its lowest fresh handle is taken out (lines 551-555). -/
def popIn (reg : Nat) : List Notify → Option (Nat × List Notify)
  | [] => none
  | n :: l =>
    if n.registration = reg then
      match n.fresh with
      | [] => none
      | (h, _) :: rest => some (h, { n with fresh := rest } :: l)
    else (popIn reg l).map fun (h, l) => (h, n :: l)

/-- Lines 549-558, over the map. -/
def popAll (reg : Nat) : BMap (List Notify) → Option (Nat × BMap (List Notify))
  | [] => none
  | (g, l) :: m =>
    match popIn reg l with
    | some (h, l) => some (h, (g, l) :: m)
    | none => (popAll reg m).map fun (h, m) => (h, (g, l) :: m)

/-- `next_handle_for_registration`, lines 549-558 -/
def Db.nextFresh (db : Db) (reg : Nat) : Option Nat × Db :=
  match popAll reg db.notifications with
  | none => (none, db)
  | some (h, m) => (some h, { db with notifications := m })

/-- Sorted without repeats (`sort` and `dedup`, lines 584-585). -/
def sortDedup (l : List Nat) : List Nat := (l.foldl (fun (acc : BMap Unit) a => acc.insert a ()) []).keys

/-- `get_child_handles`, lines 560-587. `.panic` is the `expect` of line 576. -/
def Db.children (db : Db) (p : Nat) : Outcome Err (List Nat) :=
  match db.handles.get p with
  | none => .ok []
  | some hd =>
    let us := (hd.protocols.flatMap fun (_, i) => i.usage).filter fun u => isChild u.attrs
    if us.all fun u => u.controller.isSome then .ok (sortDedup (us.filterMap (·.controller))) else .panic

/-- `enable_handle_hashing`, line 209 -/
def Db.enableHashing (db : Db) : Db := { db with hashing := true }

/-- The calls that change the database. -/
inductive Op where
  | install (handle : Option Nat) (g iface : Nat)
  | uninstall (h g iface : Nat)
  | addUsage (h g : Nat) (agent controller : Option Nat) (attrs : Nat)
  | removeUsage (h g : Nat) (agent controller : Option Nat) (attrs : Option Nat)
  | register (g event : Nat)
  | unregister (event : Nat)
  | nextFresh (reg : Nat)
  | enableHashing
deriving DecidableEq, Repr

def Db.step (hash : Nat → Nat → Nat) (lim : Nat) (db : Db) : Op → Db
  | .install handle g iface => (db.install hash lim handle g iface).2
  | .uninstall h g iface => (db.uninstall h g iface).2
  | .addUsage h g a c at_ => (db.addUsage h g a c at_).2
  | .removeUsage h g a c at_ => (db.removeUsage h g a c at_).2
  | .register g e => (db.register g e).2
  | .unregister e => db.unregister e
  | .nextFresh r => (db.nextFresh r).2
  | .enableHashing => db.enableHashing

def Db.run (hash : Nat → Nat → Nat) (lim : Nat) (db : Db) (ops : List Op) : Db := ops.foldl (Db.step hash lim) db

/-- A database some history of calls leads to. -/
def Reachable (db : Db) : Prop := ∃ hash lim ops, db = Db.new.run hash lim ops

end Verif.Protocol
