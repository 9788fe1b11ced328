import Verif.Prelude
/-!
Model of `/repo/sdk/patina/src/component/storage.rs`: the container of everything components can ask for.

Simplifications:
* A Rust type (`TypeId`) is a natural number; a value of any type is an element of an arbitrary type `V`,
  stored together with the type it was boxed as (what `Any::downcast_ref` compares).
* `BTreeMap` is an association list; only `entry(..).or_insert(..)`, `get` and `len` are used on the index maps.
* `deferred: Option<Deferred>` is the queue, `None` and the empty queue cannot be told apart.
* A service implementation is what the derive macro makes of it
  (`/repo/sdk/patina_macro/src/service_macro.rs` lines 83-97): a list of traits it is registered as.
-/
namespace Verif.Component
variable {V : Type}

/-! ### SparseVec, lines 36-72 -/

/-- `SparseVec::get`, lines 54-57. -/
def sget {α : Type} (l : List (Option α)) (i : Nat) : Option α :=
  match l[i]? with
  | some o => o
  | none => none

/-- `SparseVec::contains`, lines 49-51. -/
def scontains {α : Type} (l : List (Option α)) (i : Nat) : Bool :=
  match l[i]? with
  | some o => o.isSome
  | none => false

/-- `SparseVec::insert`, lines 66-71. -/
def sinsert {α : Type} (l : List (Option α)) (i : Nat) (v : α) : List (Option α) :=
  (if i ≥ l.length then l ++ List.replicate (i + 1 - l.length) none else l).set i (some v)

/-- Write through `SparseVec::get_mut`, lines 60-62, or through the `RefCell` at `i`: nothing if there is none. -/
def smodify {α : Type} (l : List (Option α)) (i : Nat) (f : α → α) : List (Option α) :=
  match sget l i with
  | some v => l.set i (some (f v))
  | none => l

/-! ### The index maps -/

/-- `map.get(&t)`. -/
def mget (m : List (Nat × Nat)) (t : Nat) : Option Nat :=
  match m with
  | [] => none
  | p :: m => if p.1 = t then some p.2 else mget m t

/-- `let idx = map.len(); *map.entry(t).or_insert(idx)`: the index and the map afterwards;
lines 283-284, 351-352, 388-389. -/
def entry (m : List (Nat × Nat)) (t : Nat) : Nat × List (Nat × Nat) :=
  match mget m t with
  | some i => (i, m)
  | none => (m.length, (t, m.length) :: m)

/-- `ConfigRaw`, line 92: the lock and the boxed value with its type. -/
structure Cfg (V : Type) where
  locked : Bool
  ty : Nat
  val : V
deriving DecidableEq

/-- A value behind `dyn Any`. -/
structure Boxed (V : Type) where
  ty : Nat
  val : V
deriving DecidableEq

/-- What `Commands` can queue, params.rs lines 578-591: add a configuration, or register a service
implementation under a list of traits. -/
inductive Cmd (V : Type) where
  | addConfig (t : Nat) (v : V)
  | addService (ts : List Nat) (v : V)
deriving DecidableEq

/-- `Storage`, lines 192-220. A HOB parser is the type `T` it belongs to (one function per `FromHob` type). -/
structure Storage (V : Type) where
  configs : List (Option (Cfg V))
  configIdx : List (Nat × Nat)
  services : List (Option (Boxed V))
  serviceIdx : List (Nat × Nat)
  parsers : List (Nat × Nat)
  hobs : List (Option (List (Boxed V)))
  hobIdx : List (Nat × Nat)
  deferred : List (Cmd V)
  bootInit : Bool
  runtimeInit : Bool
deriving DecidableEq

namespace Storage

/-- `Storage::new`, lines 230-243. -/
def new : Storage V := ⟨[], [], [], [], [], [], [], [], false, false⟩

/-- `register_config`, lines 282-285. -/
def registerConfig (s : Storage V) (t : Nat) : Nat × Storage V :=
  ((entry s.configIdx t).1, { s with configIdx := (entry s.configIdx t).2 })

/-- `add_config_default_if_not_present`, lines 288-294; `dflt` is `Default::default` of every type. -/
def addConfigDefault (dflt : Nat → V) (s : Storage V) (t : Nat) : Nat × Storage V :=
  let r := s.registerConfig t
  if scontains r.2.configs r.1 then r
  else (r.1, { r.2 with configs := sinsert r.2.configs r.1 ⟨true, t, dflt t⟩ })

/-- `add_config`, lines 297-300. -/
def addConfig (s : Storage V) (t : Nat) (v : V) : Storage V :=
  let r := s.registerConfig t
  { r.2 with configs := sinsert r.2.configs r.1 ⟨true, t, v⟩ }

/-- `unlock_config`, lines 333-337. -/
def unlockConfig (s : Storage V) (id : Nat) : Storage V :=
  { s with configs := smodify s.configs id fun c => { c with locked := false } }

/-- `lock_configs`, lines 340-342. -/
def lockConfigs (s : Storage V) : Storage V :=
  { s with configs := s.configs.map fun o => o.map fun c => { c with locked := true } }

/-- `get_or_register_service` and `insert_service`, lines 350-358, as called by
`IntoService::register_service`, service.rs lines 169-172. -/
def registerService (s : Storage V) (t : Nat) (b : Boxed V) : Storage V :=
  { s with serviceIdx := (entry s.serviceIdx t).2
           services := sinsert s.services (entry s.serviceIdx t).1 b }

/-- `add_service`, lines 361-363, of an implementation registered under the traits `ts`. -/
def addService (s : Storage V) (ts : List Nat) (v : V) : Storage V :=
  ts.foldl (fun s t => s.registerService t ⟨t, v⟩) s

/-- A queued command, params.rs lines 578-591. -/
def exec (s : Storage V) : Cmd V → Storage V
  | .addConfig t v => s.addConfig t v
  | .addService ts v => s.addService ts v

/-- `apply_deferred`, lines 246-250. -/
def applyDeferred (s : Storage V) : Storage V := s.deferred.foldl exec { s with deferred := [] }

/-- `get_or_register_hob`, lines 390-392: an empty list if there is none. -/
def hobCell (hobs : List (Option (List (Boxed V)))) (i : Nat) : List (Option (List (Boxed V))) :=
  match sget hobs i with
  | some _ => hobs
  | none => sinsert hobs i []

/-- `get_or_register_hob`, lines 387-394. -/
def registerHob (s : Storage V) (t : Nat) : Nat × Storage V :=
  let r := entry s.hobIdx t
  (r.1, { s with hobIdx := r.2, hobs := hobCell s.hobs r.1 })

/-- `add_hob_parser`, lines 377-379: the guid and the type. -/
def addHobParser (s : Storage V) (guid t : Nat) : Storage V :=
  { s with parsers := if (guid, t) ∈ s.parsers then s.parsers else s.parsers ++ [(guid, t)] }

/-- `add_hob`, lines 397-400 (the index always exists, so `expect` is not reached). -/
def addHob (s : Storage V) (t : Nat) (v : V) : Storage V :=
  let r := s.registerHob t
  { r.2 with hobs := smodify r.2.hobs r.1 fun l => l ++ [⟨t, v⟩] }

/-- `get_hob_parsers`, lines 421-423: the types with a parser for this guid. The order is that of the
`TypeId`s in the program, of registration here. -/
def hobParsers (s : Storage V) (guid : Nat) : List Nat :=
  (s.parsers.filter fun p => p.1 = guid).map (·.2)

/-- `get_config`, lines 303-307; `get_raw_config` panics when there is no value. The value is what
dereferencing gives, `Config::deref`, params.rs lines 380-382. -/
def getConfig (s : Storage V) (t : Nat) : Outcome EfiError (Option V) :=
  match mget s.configIdx t with
  | none => .ok none
  | some i =>
    match sget s.configs i with
    | none => .panic
    | some c => if c.ty = t then .ok (some c.val) else .panic

/-- `get_service`, lines 372-375, dereferenced, service.rs lines 269-305 (the failing downcast is
undefined behaviour there). -/
def getService (s : Storage V) (t : Nat) : Outcome EfiError (Option V) :=
  match mget s.serviceIdx t with
  | none => .ok none
  | some i =>
    match sget s.services i with
    | none => .ok none
    | some b => if b.ty = t then .ok (some b.val) else .panic

/-- Dereferencing every element of a `Hob`, hob.rs lines 284-297. -/
def derefAll (t : Nat) : List (Boxed V) → Outcome EfiError (List V)
  | [] => .ok []
  | b :: bs => if b.ty = t then derefAll t bs >>= fun vs => .ok (b.val :: vs) else .panic

/-- `get_hob`, lines 410-418, iterated. -/
def getHob (s : Storage V) (t : Nat) : Outcome EfiError (Option (List V)) :=
  match mget s.hobIdx t with
  | none => .ok none
  | some i =>
    match sget s.hobs i with
    | none => .ok none
    | some [] => .ok none
    | some l => derefAll t l >>= fun vs => .ok (some vs)

/-- A write through `get_config_mut`, lines 310-314 (the lock is not looked at). -/
def writeConfig (s : Storage V) (id : Nat) (v : V) : Storage V :=
  { s with configs := smodify s.configs id fun c => { c with val := v } }

/-- `ConfigMut::lock`, params.rs lines 465-467. -/
def lockConfig (s : Storage V) (id : Nat) : Storage V :=
  { s with configs := smodify s.configs id fun c => { c with locked := true } }

end Storage
end Verif.Component
