import Verif.Component.ParamModel
/-!
Model of running components: `/repo/sdk/patina/src/component.rs` (`Component::run`),
`struct_component.rs` (`run_unsafe`), and of the builder and the dispatch loop in
`/repo/patina_dxe_core/src/lib.rs`.

A component's code is an arbitrary function: from the world (everything outside the storage) and the items
it is handed, to the new world, what it does to the storage through these items, and its result. Rust's
ownership rules let it act only through what it holds; an action through something it does not hold is none.
-/
namespace Verif.Component
variable {V W : Type}

/-- What a component can do to the storage. -/
inductive Act (V : Type) where
  /-- write through the `ConfigMut` of the configuration with this index -/
  | set (id : Nat) (v : V)
  /-- `ConfigMut::lock` -/
  | lock (id : Nat)
  /-- queue a command, `Commands` -/
  | queue (c : Cmd V)
  /-- `&mut Storage`: `add_config`, `add_service` -/
  | exec (c : Cmd V)
  /-- `&mut Storage`: write through `get_config_mut` -/
  | setDirect (t : Nat) (v : V)
  /-- `&mut Storage`: `get_config_mut().lock()` -/
  | lockDirect (t : Nat)
  /-- `&mut Storage` and `&Storage`: `lock_configs` -/
  | lockAll
deriving DecidableEq

mutual
/-- The parameters inside an item, without the wrappers. -/
def Item.leaves : Item V → List (Item V)
  | .opt none => []
  | .opt (some i) => i.leaves
  | .tuple l => leavesAll l
  | i => [i]
/-- The same for all members. -/
def leavesAll : List (Item V) → List (Item V)
  | [] => []
  | i :: l => i.leaves ++ leavesAll l
end

/-- The item is a `ConfigMut` of the configuration with index `id`. -/
def isMutOf (id : Nat) : Item V → Bool
  | .configMut _ i _ => i == id
  | _ => false
/-- The item is `Commands`. -/
def isCommands : Item V → Bool
  | .commands => true
  | _ => false
/-- The item is `&mut Storage`. -/
def isStorageMut : Item V → Bool
  | .storageMut _ => true
  | _ => false
/-- The item is `&mut Storage` or `&Storage`. -/
def isAnyStorage : Item V → Bool
  | .storageMut _ => true
  | .storage _ => true
  | _ => false

/-- Does the component hold what the action goes through? -/
def Act.allowed (items : List (Item V)) : Act V → Bool
  | .set id _ => (leavesAll items).any (isMutOf id)
  | .lock id => (leavesAll items).any (isMutOf id)
  | .queue _ => (leavesAll items).any isCommands
  | .exec _ => (leavesAll items).any isStorageMut
  | .setDirect _ _ => (leavesAll items).any isStorageMut
  | .lockDirect _ => (leavesAll items).any isStorageMut
  | .lockAll => (leavesAll items).any isAnyStorage

/-- `get_config_mut`, storage.rs lines 310-314, and then `f` on the cell. -/
def onConfig (s : Storage V) (t : Nat) (f : Storage V → Nat → Storage V) : Storage V :=
  match mget s.configIdx t with
  | none => s
  | some id => f s id

/-- One action. -/
def Act.perform (s : Storage V) : Act V → Storage V
  | .set id v => s.writeConfig id v
  | .lock id => s.lockConfig id
  | .queue c => { s with deferred := s.deferred ++ [c] }
  | .exec c => s.exec c
  | .setDirect t v => onConfig s t fun s id => s.writeConfig id v
  | .lockDirect t => onConfig s t fun s id => s.lockConfig id
  | .lockAll => s.lockConfigs

/-- All actions of a component that it is able to do. -/
def performAll (items : List (Item V)) (s : Storage V) (acts : List (Act V)) : Storage V :=
  (acts.filter (Act.allowed items)).foldl Act.perform s

/-- A component: a name, its parameter list and its code. The result is `true` for `Ok(())`. -/
structure Comp (V W : Type) where
  name : Nat
  params : List Param
  code : W → List (Item V) → W × List (Act V) × Bool

/-- A component after `initialize`, struct_component.rs lines 103-105. -/
structure Ready (V W : Type) where
  comp : Comp V W
  state : List PState

/-- What can be observed of one run of a component: its name, the storage it was started with and what it
was handed. -/
structure Ran (V : Type) where
  name : Nat
  store : Storage V
  items : List (Item V)

/-- The state of the dispatcher: the storage, the world, and the runs so far. -/
structure Sys (V W : Type) where
  s : Storage V
  w : W
  log : List (Ran V)

/-- `Component::run`, component.rs lines 173-178, and `StructComponent::run_unsafe`, struct_component.rs lines
79-95: the answer `Ok(true)`, `Ok(false)` or `Err`, here `some true`, `some false` and `none`.
(`input.take().unwrap()` succeeds as a component is never run twice, see `dispatch_once`.) -/
def Ready.run (c : Ready V W) (y : Sys V W) : Outcome EfiError (Option Bool × Sys V W) :=
  let s := y.s.applyDeferred
  match validateAll s ⟨[], []⟩ c.state with
  | .ok false => .ok (some false, { y with s := s })
  | .ok true =>
    match getAll s ⟨[], []⟩ c.state with
    | .ok r =>
      let o := c.comp.code y.w r.1
      .ok (if o.2.2 then some true else none,
        ⟨performAll r.1 s o.2.1, o.1, y.log ++ [⟨c.comp.name, s, r.1⟩]⟩)
    | .err e => .err e
    | .panic => .panic
  | .err e => .err e
  | .panic => .panic

/-- `dispatch_components`, lib.rs lines 363-385: the components that stay, and the state afterwards. A
failing component is a `debug_assert!(false)`. -/
def dispatchComponents (dbg : Bool) : Sys V W → List (Ready V W) →
    Outcome EfiError (List (Ready V W) × Sys V W)
  | y, [] => .ok ([], y)
  | y, c :: cs =>
    match c.run y with
    | .ok (some true, y') => dispatchComponents dbg y' cs
    | .ok (some false, y') =>
      match dispatchComponents dbg y' cs with
      | .ok (l, z) => .ok (c :: l, z)
      | .err e => .err e
      | .panic => .panic
    | .ok (none, y') => if dbg then .panic else dispatchComponents dbg y' cs
    | .err e => .err e
    | .panic => .panic

/-- `dispatcher::dispatch()` as the component side sees it: it changes the world, and answers whether a
driver was started, or fails. It has no access to the storage. -/
abbrev Drivers (W : Type) := W → Option Bool × W

/-- `core_dispatcher`, lib.rs lines 394-411. `fuel` bounds the rounds of the loop; `.err .aborted` marks
that it was not enough. -/
def coreDispatcher (dbg : Bool) (drv : Drivers W) : Nat → Sys V W → List (Ready V W) →
    Outcome EfiError (List (Ready V W) × Sys V W)
  | 0, _, _ => .err .aborted
  | fuel + 1, y, cs =>
    match dispatchComponents dbg y cs with
    | .ok (cs', z) =>
      if cs.length ≠ cs'.length then coreDispatcher dbg drv fuel z cs'
      else match drv z.w with
        | (none, _) => .err .deviceError
        | (some true, w) => coreDispatcher dbg drv fuel { z with w := w } cs'
        | (some false, w) => .ok (cs', { z with w := w })
    | .err e => .err e
    | .panic => .panic

/-- The calls that build the core, lib.rs lines 310-334 and 523-528: `with_component` (at the end),
`add_core_components` (at the front), `with_config`, `with_service`. -/
inductive Build (V W : Type) where
  | component (front : Bool) (c : Comp V W)
  | config (t : Nat) (v : V)
  | service (ts : List Nat) (v : V)

/-- `insert_component`, lib.rs lines 324-327. -/
def insertComponent (dbg : Bool) (dflt : Nat → V) (front : Bool) (c : Comp V W)
    (k : Storage V × List (Ready V W)) : Outcome EfiError (Storage V × List (Ready V W)) :=
  match initAll dbg dflt ⟨k.1, .new⟩ c.params with
  | .ok r => .ok (r.2.s, if front then ⟨c, r.1⟩ :: k.2 else k.2 ++ [⟨c, r.1⟩])
  | .err e => .err e
  | .panic => .panic

/-- One building call. -/
def Build.step (dbg : Bool) (dflt : Nat → V) (k : Storage V × List (Ready V W)) :
    Build V W → Outcome EfiError (Storage V × List (Ready V W))
  | .component front c => insertComponent dbg dflt front c k
  | .config t v => .ok (k.1.addConfig t v, k.2)
  | .service ts v => .ok (k.1.addService ts v, k.2)

/-- All building calls. -/
def build (dbg : Bool) (dflt : Nat → V) :
    List (Build V W) → Storage V × List (Ready V W) → Outcome EfiError (Storage V × List (Ready V W))
  | [], k => .ok k
  | b :: bs, k =>
    match b.step dbg dflt k with
    | .ok k' => build dbg dflt bs k'
    | .err e => .err e
    | .panic => .panic

/-- `parse_hobs`, lib.rs lines 337-357: the guided HOBs in order, each a guid with the value every type's
parser makes of it. -/
def parseHobs (s : Storage V) : List (Nat × (Nat → V)) → Storage V
  | [] => s
  | (g, f) :: hs => parseHobs ((s.hobParsers g).foldl (fun s t => s.addHob t (f t)) s) hs

/-- `start`, lib.rs lines 531-557, from the built core to the end of dispatching; the two services tables
are set by `initialize_system_table`. -/
def start (dbg : Bool) (drv : Drivers W) (fuel : Nat) (hobs : List (Nat × (Nat → V))) (w : W)
    (k : Storage V × List (Ready V W)) : Outcome EfiError (List (Ready V W) × Sys V W) :=
  let s := parseHobs { k.1 with bootInit := true, runtimeInit := true } hobs
  match coreDispatcher dbg drv fuel ⟨s, w, []⟩ k.2 with
  | .ok (cs, y) => coreDispatcher dbg drv fuel { y with s := y.s.lockConfigs } cs
  | .err e => .err e
  | .panic => .panic

/-- Building the core and starting it: `Core::default()` … `.start()`. -/
def boot (dbg : Bool) (dflt : Nat → V) (drv : Drivers W) (fuel : Nat) (bs : List (Build V W))
    (hobs : List (Nat × (Nat → V))) (w : W) : Outcome EfiError (List (Ready V W) × Sys V W) :=
  match build dbg dflt bs (Storage.new, []) with
  | .ok k => start dbg drv fuel hobs w k
  | .err e => .err e
  | .panic => .panic

end Verif.Component
