/-!
Model of the static state of the performance code: `StaticState` of `/repo/sdk/patina/src/performance/globals.rs`, lines 22-71, under any interleaving of calls of `init` and `inner`.

Every access to the flag or to a cell is one step. Boot services are numbers; the table's cell holds the boot services that its mutex uses. Orderings are ignored: the flag and
the cells are one memory that all threads see at once, which is the best case.
-/
namespace Verif.Perf.Static

/-- The flag and the two cells, lines 23-30. -/
structure Cells where
  flag : Bool
  services : Option Nat
  table : Option Nat
deriving DecidableEq, Repr

/-- `uninit`, lines 34-36. -/
def Cells.uninit : Cells := ⟨false, none, none⟩

/-- What a call returns. -/
inductive Ret where
  /-- `init`: `Ok`. -/
  | ok
  /-- `init`: "Already initialized". -/
  | already
  /-- `init`: "Failed to set FBPT". -/
  | failed
  /-- `init`: "Currently initializing somewhere else". -/
  | busy
  /-- `inner`: `None`. -/
  | nothing
  /-- `inner`: the services and the table. -/
  | both (services table : Nat)
deriving DecidableEq, Repr

/-- Where a call is. -/
inductive Pc where
  /-- `init` before the exchange, line 45. -/
  | exchange (bs : Nat)
  /-- Before line 46. -/
  | setServices (bs : Nat)
  /-- Before line 47. -/
  | setTable (bs : Nat)
  /-- Before line 50. -/
  | release
  /-- `inner` before the load, line 63. -/
  | load
  /-- Before line 64. -/
  | readServices
  /-- Before line 65. -/
  | readTable (bs : Nat)
  | done (r : Ret)
deriving DecidableEq, Repr

/-- The next step of a call. -/
def advance (c : Cells) : Pc → Cells × Pc
  | .exchange bs => if c.flag then (c, .done .busy) else ({ c with flag := true }, .setServices bs)
  | .setServices bs =>
    match c.services with
    | some _ => (c, .done .already)
    | none => ({ c with services := some bs }, .setTable bs)
  | .setTable bs =>
    match c.table with
    | some _ => (c, .done .failed)
    | none => ({ c with table := some bs }, .release)
  | .release => ({ c with flag := false }, .done .ok)
  | .load => if c.flag then (c, .done .nothing) else (c, .readServices)
  | .readServices =>
    match c.services with
    | none => (c, .done .nothing)
    | some bs => (c, .readTable bs)
  | .readTable bs =>
    match c.table with
    | none => (c, .done .nothing)
    | some t => (c, .done (.both bs t))
  | .done r => (c, .done r)

/-- The cells and all calls, each in its thread. -/
structure State where
  cells : Cells
  pc : Nat → Pc

/-- Thread `i` makes a step. -/
def step (s : State) (i : Nat) : State :=
  let r := advance s.cells (s.pc i)
  ⟨r.1, fun j => if j = i then r.2 else s.pc j⟩

/-- Threads make steps in this order. -/
def run (s : State) : List Nat → State
  | [] => s
  | i :: is => run (step s i) is

/-- A call, not yet begun. -/
inductive Job where
  | init (bs : Nat)
  | inner
deriving DecidableEq, Repr

def Job.pc : Job → Pc
  | .init bs => .exchange bs
  | .inner => .load

/-- The beginning: nothing is initialized, thread `i` will do `jobs i`. -/
def start (jobs : Nat → Job) : State := ⟨.uninit, fun i => (jobs i).pc⟩

/-- A call alone, from its beginning to its end. -/
def alone (c : Cells) (j : Job) : Cells × Pc :=
  let r := advance c j.pc
  let r := advance r.1 r.2
  let r := advance r.1 r.2
  advance r.1 r.2

end Verif.Perf.Static
