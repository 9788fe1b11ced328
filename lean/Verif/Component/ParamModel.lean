import Verif.Component.StorageModel
/-!
Model of `/repo/sdk/patina/src/component/params.rs`, `metadata.rs` (`Access`), and of the `Param`
implementations in `storage.rs`, `service.rs` and `hob.rs`: what a component may ask for, how the request is
registered, when it is available, and what the component is handed.

`dbg` tells whether `debug_assert!` is compiled in.
-/
namespace Verif.Component
variable {V : Type}

/-- The types implementing `Param`. `hob g t` is `Hob<T>` for the type `t` whose `HOB_GUID` is `g`. -/
inductive Param where
  | config (t : Nat)
  | configMut (t : Nat)
  | service (t : Nat)
  | hob (g t : Nat)
  | commands
  | bootServices
  | runtimeServices
  | storage
  | storageMut
  | opt (p : Param)
  | tuple (ps : List Param)

/-- `Param::State` of a parameter: the index it was given. The type is kept beside it (it is static in Rust). -/
inductive PState where
  | config (t id : Nat)
  | configMut (t id : Nat)
  | service (t id : Nat)
  | hob (g t id : Nat)
  | commands
  | bootServices
  | runtimeServices
  | storage
  | storageMut
  | opt (p : PState)
  | tuple (ps : List PState)

/-- `Access`, metadata.rs lines 63-75. -/
structure Access where
  writes : List Nat
  readsWrites : List Nat
  readsAll : Bool
  writesAll : Bool
  deferred : Bool
deriving DecidableEq

namespace Access
/-- metadata.rs lines 79-87. -/
def new : Access := ⟨[], [], false, false, false⟩
/-- `add_config_write`, lines 92-95. -/
def addWrite (a : Access) (id : Nat) : Access :=
  { a with writes := id :: a.writes, readsWrites := id :: a.readsWrites }
/-- `add_config_read`, lines 98-100. -/
def addRead (a : Access) (id : Nat) : Access := { a with readsWrites := id :: a.readsWrites }
/-- `has_config_write`, lines 103-105. -/
def hasWrite (a : Access) (id : Nat) : Bool := a.writesAll || a.writes.contains id
/-- `has_config_read`, lines 108-110. -/
def hasRead (a : Access) (id : Nat) : Bool := a.readsAll || a.readsWrites.contains id
/-- `has_any_config_write`, lines 113-115. -/
def anyWrite (a : Access) : Bool := a.writesAll || !a.writes.isEmpty
/-- `has_any_config_read`, lines 118-120. -/
def anyRead (a : Access) : Bool := a.readsAll || !a.readsWrites.isEmpty
/-- `reads_all_configs`, lines 138-140. -/
def markReadsAll (a : Access) : Access := { a with readsAll := true }
/-- `writes_all_configs`, lines 143-146. -/
def markWritesAll (a : Access) : Access := { a with writesAll := true, readsAll := true }
/-- `deferred`, lines 149-151. -/
def markDeferred (a : Access) : Access := { a with deferred := true }

/-- The assertions of `Config::init_state`, params.rs lines 417-429. -/
def okConfig (a : Access) (id : Nat) : Bool := !a.writesAll && !a.hasWrite id
/-- The assertions of `ConfigMut::init_state`, params.rs lines 520-543. -/
def okConfigMut (a : Access) (id : Nat) : Bool :=
  !a.writesAll && !a.readsAll && !a.hasWrite id && !a.hasRead id
/-- `Commands::init_state`, params.rs lines 627-631. -/
def okCommands (a : Access) : Bool := !a.deferred
/-- `<&mut Storage>::init_state`, storage.rs lines 526-536. -/
def okStorageMut (a : Access) : Bool := !a.anyWrite && !a.anyRead
/-- `<&Storage>::init_state`, storage.rs lines 559-563. -/
def okStorage (a : Access) : Bool := !a.anyWrite
end Access

/-- Where `init_state` stands: the storage and the component's access record. -/
structure Init (V : Type) where
  s : Storage V
  a : Access

/-- `debug_assert!(cond)` and then go on. -/
def assertThen {α : Type} (dbg cond : Bool) (r : α) : Outcome EfiError α :=
  if dbg && !cond then .panic else .ok r

mutual
/-- `Param::init_state`. `Config` params.rs 414-432, `ConfigMut` 514-547, `Service` service.rs 338-340,
`Hob` hob.rs 228-231, `Commands` params.rs 626-632, services tables 650 and 670, `&mut Storage` storage.rs
522-538, `&Storage` 558-566, `Option` params.rs 340-342, tuples 709-711. -/
def Param.init (dbg : Bool) (dflt : Nat → V) (i : Init V) : Param → Outcome EfiError (PState × Init V)
  | .config t =>
    let r := i.s.addConfigDefault dflt t
    assertThen dbg (i.a.okConfig r.1) (.config t r.1, ⟨r.2, i.a.addRead r.1⟩)
  | .configMut t =>
    let r := i.s.addConfigDefault dflt t
    assertThen dbg (i.a.okConfigMut r.1) (.configMut t r.1, ⟨r.2.unlockConfig r.1, i.a.addWrite r.1⟩)
  | .service t =>
    .ok (.service t (entry i.s.serviceIdx t).1, ⟨{ i.s with serviceIdx := (entry i.s.serviceIdx t).2 }, i.a⟩)
  | .hob g t =>
    let r := (i.s.addHobParser g t).registerHob t
    .ok (.hob g t r.1, ⟨r.2, i.a⟩)
  | .commands => assertThen dbg i.a.okCommands (.commands, ⟨i.s, i.a.markDeferred⟩)
  | .bootServices => .ok (.bootServices, i)
  | .runtimeServices => .ok (.runtimeServices, i)
  | .storage => assertThen dbg i.a.okStorage (.storage, ⟨i.s, i.a.markReadsAll⟩)
  | .storageMut => assertThen dbg i.a.okStorageMut (.storageMut, ⟨i.s, i.a.markWritesAll⟩)
  | .opt p =>
    match Param.init dbg dflt i p with
    | .ok r => .ok (.opt r.1, r.2)
    | .err e => .err e
    | .panic => .panic
  | .tuple ps =>
    match initAll dbg dflt i ps with
    | .ok r => .ok (.tuple r.1, r.2)
    | .err e => .err e
    | .panic => .panic
/-- The members of a tuple, left to right. -/
def initAll (dbg : Bool) (dflt : Nat → V) (i : Init V) : List Param → Outcome EfiError (List PState × Init V)
  | [] => .ok ([], i)
  | p :: ps =>
    match Param.init dbg dflt i p with
    | .ok r =>
      match initAll dbg dflt r.2 ps with
      | .ok rs => .ok (r.1 :: rs.1, rs.2)
      | .err e => .err e
      | .panic => .panic
    | .err e => .err e
    | .panic => .panic
end

/-- Which `RefCell`s of the configurations are borrowed by the items handed out so far. -/
structure Borrows where
  shared : List Nat
  excl : List Nat
deriving DecidableEq

/-- `get_raw_config`, storage.rs lines 317-322: panics if there is no value or it is mutably borrowed. -/
def rawConfig (s : Storage V) (b : Borrows) (id : Nat) : Outcome EfiError (Cfg V) :=
  match sget s.configs id with
  | none => .panic
  | some c => if b.excl.contains id then .panic else .ok c

/-- `get_raw_config_mut`, storage.rs lines 325-330. -/
def rawConfigMut (s : Storage V) (b : Borrows) (id : Nat) : Outcome EfiError (Cfg V) :=
  match sget s.configs id with
  | none => .panic
  | some c => if b.excl.contains id || b.shared.contains id then .panic else .ok c

/-- `get_raw_hob`, storage.rs lines 403-407. -/
def rawHob (s : Storage V) (id : Nat) : Outcome EfiError (List (Boxed V)) :=
  match sget s.hobs id with
  | none => .panic
  | some l => .ok l

/-- `Param::validate`. `Config` params.rs 409-412, `ConfigMut` 509-512, `Service` service.rs 334-336, `Hob`
hob.rs 223-226, `Option` params.rs 335-338, tuples 705-707 (always true), the others. -/
def PState.validate (s : Storage V) (b : Borrows) : PState → Outcome EfiError Bool
  | .config _ id => rawConfig s b id >>= fun c => .ok c.locked
  | .configMut _ id => rawConfig s b id >>= fun c => .ok !c.locked
  | .service _ id => .ok (sget s.services id).isSome
  | .hob _ _ id => rawHob s id >>= fun l => .ok !l.isEmpty
  | .commands => .ok true
  | .bootServices => .ok s.bootInit
  | .runtimeServices => .ok s.runtimeInit
  | .storage => .ok true
  | .storageMut => .ok true
  | .opt _ => .ok true
  | .tuple _ => .ok true

/-- `try_validate` of the tuple of all parameters, params.rs lines 693-701: stops at the first that is
not available. -/
def validateAll (s : Storage V) (b : Borrows) : List PState → Outcome EfiError Bool
  | [] => .ok true
  | p :: ps =>
    match p.validate s b with
    | .ok true => validateAll s b ps
    | .ok false => .ok false
    | .err e => .err e
    | .panic => .panic

/-- What a component is handed. A configuration, mutable or not, carries the cell's contents at that time,
a reference to the storage the storage. -/
inductive Item (V : Type) where
  | config (t id : Nat) (c : Cfg V)
  | configMut (t id : Nat) (c : Cfg V)
  | service (t : Nat) (b : Boxed V)
  | hob (t : Nat) (l : List (Boxed V))
  | commands
  | bootServices
  | runtimeServices
  | storage (s : Storage V)
  | storageMut (s : Storage V)
  | opt (i : Option (Item V))
  | tuple (l : List (Item V))

mutual
/-- `Param::get_param`. `Config` params.rs 401-406, `ConfigMut` 501-506, `Service` service.rs 323-332, `Hob`
hob.rs 216-221, `Option` params.rs 325-333, tuples 684-690, `Commands` 614-619. -/
def PState.get (s : Storage V) (b : Borrows) : PState → Outcome EfiError (Item V × Borrows)
  | .config t id => rawConfig s b id >>= fun c => .ok (.config t id c, ⟨id :: b.shared, b.excl⟩)
  | .configMut t id => rawConfigMut s b id >>= fun c => .ok (.configMut t id c, ⟨b.shared, id :: b.excl⟩)
  | .service t id =>
    match sget s.services id with
    | none => .panic
    | some v => .ok (.service t v, b)
  | .hob _ t id => rawHob s id >>= fun l => .ok (.hob t l, b)
  | .commands => .ok (.commands, b)
  | .bootServices => .ok (.bootServices, b)
  | .runtimeServices => .ok (.runtimeServices, b)
  | .storage => .ok (.storage s, b)
  | .storageMut => .ok (.storageMut s, b)
  | .opt p =>
    match p.validate s b with
    | .ok true => PState.get s b p >>= fun r => .ok (.opt (some r.1), r.2)
    | .ok false => .ok (.opt none, b)
    | .err e => .err e
    | .panic => .panic
  | .tuple ps => getAll s b ps >>= fun r => .ok (.tuple r.1, r.2)
/-- The members of a tuple, left to right. -/
def getAll (s : Storage V) (b : Borrows) : List PState → Outcome EfiError (List (Item V) × Borrows)
  | [] => .ok ([], b)
  | p :: ps => PState.get s b p >>= fun r => getAll s r.2 ps >>= fun rs => .ok (r.1 :: rs.1, rs.2)
end

end Verif.Component
