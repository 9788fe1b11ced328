/-!
Model of the two TPL mutexes:
* core: `/repo/patina_dxe_core/src/tpl_lock.rs` lines 40-139;
* SDK: `/repo/sdk/patina/src/tpl_mutex.rs` lines 22-71.

Any number of mutexes; `lvl i` is the TPL of mutex `i`. Code using them is a `Prog`, in which guards are dropped in the
reverse order of locking. Between any two steps other activity may run: `env k` lists the notify functions (TPL and body)
that the `k`-th such point would dispatch; one runs if its TPL is above the current one, as the event dispatcher does, and
the dispatcher puts the TPL back afterwards. (How the dispatcher does this is the subject of Events/TplModel; here
raise_tpl and restore_tpl are only their effect on the TPL, their assertions, and the activity they let in.)

`guards` is ghost: how many guards of a mutex exist; making a second one stops the run with `twoGuards`.
-/
namespace Verif.Mutex

inductive Stop where
  | fuel
  /-- raise_tpl below the current TPL or above TPL_HIGH_LEVEL, restore_tpl above the current TPL: events.rs lines 213-234 -/
  | misuse
  /-- tpl_lock.rs line 74, tpl_mutex.rs line 50 -/
  | reentrant
  | twoGuards
deriving DecidableEq, Repr

inductive Prog where
  | done
  /-- `{ let guard = m.lock(); body }; rest` -/
  | lock (i : Nat) (body rest : Prog)
  /-- `if let Some(guard) = m.try_lock() { body } else { els }; rest` -/
  | tryLock (i : Nat) (body els rest : Prog)
  /-- `let old = raise_tpl(t); body; restore_tpl(old); rest` -/
  | raise (t : Nat) (body rest : Prog)
  /-- `init_boot_services` -/
  | initBs (rest : Prog)

structure Mx where
  tpl : Nat
  /-- `BOOT_SERVICES_PTR` is not null (tpl_lock.rs line 19) -/
  bs : Bool
  locked : Nat → Bool
  guards : Nat → Nat
  polls : Nat

def Mx.set (s : Mx) (i : Nat) (b : Bool) : Mx := { s with locked := fun j => if j = i then b else s.locked j }
def Mx.born (s : Mx) (i : Nat) : Mx := { s with guards := fun j => if j = i then s.guards j + 1 else s.guards j }
def Mx.dead (s : Mx) (i : Nat) : Mx := { s with guards := fun j => if j = i then s.guards j - 1 else s.guards j }

/-- events.rs lines 212-226 -/
def raiseTpl (t : Nat) (s : Mx) : Except Stop (Nat × Mx) :=
  if 31 < t ∨ t < s.tpl then .error .misuse else .ok (s.tpl, { s with tpl := t })

/-- events.rs lines 228-288 -/
def restoreTpl (poll : Mx → Except Stop Mx) (t : Nat) (s : Mx) : Except Stop Mx :=
  if s.tpl < t then .error .misuse else poll { s with tpl := t }

/-- A guard comes into being. -/
def newGuard (i : Nat) (s : Mx) : Except Stop Mx := if 0 < s.guards i then .error .twoGuards else .ok (s.born i)

/-- tpl_lock.rs line 80: raise if boot services are there; the TPL found, if any. -/
def enter (t : Nat) (s : Mx) : Except Stop (Option Nat × Mx) :=
  if s.bs then (raiseTpl t s).bind fun r => .ok (some r.1, r.2) else .ok (none, s)

/-- tpl_lock.rs lines 84-88 and 133-137, tpl_mutex.rs line 68 -/
def leave (poll : Mx → Except Stop Mx) (rel : Option Nat) (s : Mx) : Except Stop Mx :=
  match rel with
  | some old => restoreTpl poll old s
  | none => .ok s

/-- Core `try_lock`, tpl_lock.rs lines 78-91: raise, compare-and-swap, restore on failure. The result is the guard's
release TPL, or `none` if the mutex was locked. -/
def coreTry (poll : Mx → Except Stop Mx) (lvl : Nat → Nat) (i : Nat) (s : Mx) : Except Stop (Option (Option Nat) × Mx) := do
  let (rel, s) ← enter (lvl i) s
  let s ← poll s
  if s.locked i then
    let s ← leave poll rel s
    pure (none, s)
  else
    let s ← newGuard i (s.set i true)
    pure (some rel, s)

/-- Core guard drop, tpl_lock.rs lines 130-138: unlock, then restore. (The panic of line 135 needs boot services to
disappear, which the model does not allow.) -/
def coreDrop (poll : Mx → Except Stop Mx) (i : Nat) (rel : Option Nat) (s : Mx) : Except Stop Mx := do
  let s ← poll ((s.set i false).dead i)
  leave poll rel s

/-- SDK `try_lock`, tpl_mutex.rs lines 58-63: compare-and-swap, raise. -/
def sdkTry (poll : Mx → Except Stop Mx) (lvl : Nat → Nat) (i : Nat) (s : Mx) : Except Stop (Option (Option Nat) × Mx) := do
  if s.locked i then pure (none, s)
  else
    let s ← poll (s.set i true)
    let (old, s) ← raiseTpl (lvl i) s
    let s ← newGuard i s
    pure (some (some old), s)

/-- SDK guard drop, tpl_mutex.rs lines 66-71: restore, then unlock. -/
def sdkDrop (poll : Mx → Except Stop Mx) (i : Nat) (rel : Option Nat) (s : Mx) : Except Stop Mx := do
  let s ← leave poll rel s
  pure ((s.set i false).dead i)

inductive Kind where
  | core
  | sdk

def tryAcquire (v : Kind) := match v with | .core => coreTry | .sdk => sdkTry
def drop (v : Kind) := match v with | .core => coreDrop | .sdk => sdkDrop

inductive Cmd where
  | run (p : Prog)
  | poll
  | nest (l : List (Nat × Prog))

/-- The interpreter. `lock` is `try_lock` with a panic on failure (tpl_lock.rs line 74, tpl_mutex.rs line 50). -/
def exec (v : Kind) (lvl : Nat → Nat) (env : Nat → List (Nat × Prog)) : Nat → Cmd → Mx → Except Stop Mx
  | 0, _, _ => .error .fuel
  | f + 1, .poll, s => exec v lvl env f (.nest (env s.polls)) { s with polls := s.polls + 1 }
  | _ + 1, .nest [], s => .ok s
  | f + 1, .nest ((t, p) :: l), s =>
    if s.tpl < t ∧ t ≤ 31 then do
      let s' ← exec v lvl env f (.run p) { s with tpl := t }
      exec v lvl env f (.nest l) { s' with tpl := s.tpl }
    else exec v lvl env f (.nest l) s
  | _ + 1, .run .done, s => .ok s
  | f + 1, .run (.lock i body rest), s => do
    let s ← exec v lvl env f .poll s
    let (g, s) ← tryAcquire v (exec v lvl env f .poll) lvl i s
    match g with
    | none => .error .reentrant
    | some rel =>
      let s ← exec v lvl env f .poll s
      let s ← exec v lvl env f (.run body) s
      let s ← drop v (exec v lvl env f .poll) i rel s
      exec v lvl env f (.run rest) s
  | f + 1, .run (.tryLock i body els rest), s => do
    let s ← exec v lvl env f .poll s
    let (g, s) ← tryAcquire v (exec v lvl env f .poll) lvl i s
    match g with
    | none =>
      let s ← exec v lvl env f (.run els) s
      exec v lvl env f (.run rest) s
    | some rel =>
      let s ← exec v lvl env f .poll s
      let s ← exec v lvl env f (.run body) s
      let s ← drop v (exec v lvl env f .poll) i rel s
      exec v lvl env f (.run rest) s
  | f + 1, .run (.raise t body rest), s => do
    let s ← exec v lvl env f .poll s
    let (old, s) ← raiseTpl t s
    let s ← exec v lvl env f .poll s
    let s ← exec v lvl env f (.run body) s
    let s ← restoreTpl (exec v lvl env f .poll) old s
    exec v lvl env f (.run rest) s
  | f + 1, .run (.initBs rest), s => exec v lvl env f (.run rest) { s with bs := true }

/-- No mutex is locked. -/
def Mx.init (tpl : Nat) (bs : Bool) : Mx := ⟨tpl, bs, fun _ => false, fun _ => 0, 0⟩

end Verif.Mutex
