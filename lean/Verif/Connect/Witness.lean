import Verif.Connect.Disconnect
/-!
Examples for C44 and C45 on a concrete machine, and the cases where the code does something unexpected.
-/
namespace Verif.Connect
open Verif.Protocol (Db Op Usage users lookup Reachable)

/-! ### A machine -/

/-- Any state of the protocol database. -/
abbrev Machine := { db : Db // Reachable db }

/-- The machine after a call that does not create handles. -/
def Machine.addUsage (w : Machine) (h g : Nat) (a c : Option Nat) (at_ : Nat) : Machine :=
  ⟨(w.1.addUsage h g a c at_).2, by
    obtain ⟨hash, lim, ops, e⟩ := w.2
    exact ⟨hash, lim, ops ++ [.addUsage h g a c at_], by rw [e, Db.run, Db.run, List.foldl_append]; rfl⟩⟩

def Machine.removeUsage (w : Machine) (h g : Nat) (a c : Option Nat) (at_ : Option Nat) : Machine :=
  ⟨(w.1.removeUsage h g a c at_).2, by
    obtain ⟨hash, lim, ops, e⟩ := w.2
    exact ⟨hash, lim, ops ++ [.removeUsage h g a c at_], by rw [e, Db.run, Db.run, List.foldl_append]; rfl⟩⟩

/-- Insertion by decreasing value. -/
def put (b : Nat) : List Nat → List Nat
  | [] => [b]
  | x :: l => if b < x then x :: put b l else b :: x :: l

/-- Insertion sort by decreasing value. -/
def descending : List Nat → List Nat
  | [] => []
  | b :: l => put b (descending l)

theorem put_perm (b : Nat) : ∀ l, (put b l).Perm (b :: l)
  | [] => .refl _
  | x :: l => by
    unfold put
    split
    · exact ((put_perm b l).cons x).trans (.swap b x l)
    · exact .refl _

theorem put_sorted (b : Nat) : ∀ l, l.Pairwise (fun a b => b ≤ a) → (put b l).Pairwise (fun a b => b ≤ a)
  | [], _ => List.pairwise_singleton _ _
  | x :: l, h => by
    unfold put
    rw [List.pairwise_cons] at h
    split
    · rw [List.pairwise_cons]
      refine ⟨?_, put_sorted b l h.2⟩
      intro y hy
      rcases List.mem_cons.1 ((put_perm b l).mem_iff.1 hy) with rfl | hy
      · omega
      · exact h.1 y hy
    · rw [List.pairwise_cons]
      refine ⟨?_, List.pairwise_cons.2 h⟩
      intro y hy
      rcases List.mem_cons.1 hy with rfl | hy
      · omega
      · have := h.1 y hy; omega

/-- A machine whose drivers, with bindings `100 * handle`, manage protocol 50: they support a controller that nobody
manages, and start by opening the protocol. Newer drivers have larger bindings. -/
def machine : Env Machine where
  db w := w.1
  bindingGuid := 10
  platformGuid := 11
  familyGuid := 12
  busGuid := 13
  pathGuid := 14
  securityGuid := 15
  version _ b := b
  sort _ l := descending l
  platform w _ _ _ := (w, none)
  family w _ := (w, 0)
  bus w _ prev := (w, if prev = 0 then some 2 else none)
  pathOk _ _ _ := true
  isEnd _ _ := false
  authenticate w _ _ _ := (w, none)
  supported w _ c _ := (w, (users w.1 c 50).all (fun u => u.attrs != 0x10) && (lookup w.1 c 50).isSome)
  start w b c _ := (w.addUsage c 50 (some (b / 100)) (some c) 0x10, true)
  stop w b c kids :=
    (if kids = [] then w.removeUsage c 50 (some (b / 100)) (some c) none
      else kids.foldl (fun w k => w.removeUsage c 50 (some (b / 100)) (some k) none) w, true)

theorem machine_sort : SortOk machine where
  perm _ l := by
    induction l with
    | nil => exact .refl _
    | cons b l ih => exact (put_perm b _).trans (ih.cons b)
  sorted _ l := by
    induction l with
    | nil => exact .nil
    | cons b l ih => exact put_sorted b _ ih

theorem machine_reachable (w : Machine) : Reachable (machine.db w) := w.2

/-- The handles `1..` get the protocols listed, in order; then the usages. -/
def build (ops : List Op) : Machine := ⟨Db.new.run (fun a b => a + b) 100 ops, _, _, _, rfl⟩

/-- A controller (1), three drivers (2, 3, 4) and two other devices (5, 6). -/
def desk : Machine := build [.install none 50 1000, .install none 10 200, .install none 10 300, .install none 10 400,
  .install none 51 5000, .install none 51 6000]

/-- What a connection reports: its result and the rounds of the first controller. -/
def report (r : ConnRes Machine) : Option (Bool × List (List (List Try))) :=
  r.map fun x => (match x.1 with | .ok _ => true | _ => false, x.2.1.map (·.rounds))

/-- What a disconnection reports: its result and the calls made, by driver. -/
def reportD (r : Outcome EfiError Unit × List (Turn Machine) × Machine) : Bool × List (Nat × List Stop) :=
  (match r.1 with | .ok _ => true | _ => false, r.2.1.map fun t => (t.driver, t.calls))

/-! ### C44 -/

/-- The newest driver is asked first and gets the controller; the others then decline, twice. -/
example : report (connect machine 9 1 [] none false desk) =
    some (true, [[[⟨400, some true⟩, ⟨300, none⟩, ⟨200, none⟩], [⟨300, none⟩, ⟨200, none⟩]]]) := by decide +kernel

/-- A driver the caller names comes first. -/
example : report (connect machine 9 1 [3] none false desk) =
    some (true, [[[⟨300, some true⟩, ⟨400, none⟩, ⟨200, none⟩], [⟨400, none⟩, ⟨200, none⟩]]]) := by decide +kernel

/-- One that the bus specific override names comes before the rest. -/
example : report (connect machine 9 1 [] none false (build [.install none 50 1000, .install none 10 200, .install none 10 300,
      .install (some 1) 13 77])) =
    some (true, [[[⟨200, some true⟩, ⟨300, none⟩], [⟨300, none⟩]]]) := by decide +kernel

/-- With a recursive connection the children follow. -/
example : (connect machine 9 1 [] none true (build [.install none 50 1000, .install none 10 200, .install none 50 3000,
      .install none 50 4000, .addUsage 1 50 (some 2) (some 3) 8, .addUsage 3 50 (some 2) (some 4) 8])).map
    (fun x => x.2.1.map (·.controller)) = some [1, 3, 4] := by decide +kernel

/-- The hypotheses of `candidates_order` are met. -/
example : ∃ cs w', candidates machine 9 1 [3] desk = some (.ok cs, w') ∧ cs = [300, 400, 200] := by
  refine ⟨[300, 400, 200], desk, ?_, rfl⟩
  decide +kernel

/-- A refused connection: same machine with a Security2 protocol that says no. -/
def strict : Env Machine := { machine with authenticate := fun w _ _ _ => (w, some .securityViolation) }

example : connect strict 9 1 [] none true (build [.install none 50 1000, .install (some 1) 14 7, .install none 15 8]) =
    some (.err .securityViolation, [⟨1, true, []⟩], build [.install none 50 1000, .install (some 1) 14 7, .install none 15 8]) :=
  refused_asks_nobody (sec := 8) (dp := 7) ⟨by decide +kernel, by decide +kernel, rfl⟩ rfl

/-- A driver that says it supports a controller it already manages. -/
def eager : Env Machine := { machine with supported := fun w _ _ _ => (w, true) }

/-- FINDING: a driver that is listed twice by one source, here by the caller, is started twice. -/
theorem listed_twice_started_twice : ∃ l w', connectSingle eager 9 1 [2, 2] none desk = some (.ok (), l, w') ∧ starts 200 l = 2 := by
  have : ((connectSingle eager 9 1 [2, 2] none desk).map fun x => (match x.1 with | .ok _ => true | _ => false, starts 200 x.2.1)) =
      some (true, 2) := by decide +kernel
  cases h : connectSingle eager 9 1 [2, 2] none desk with
  | none => rw [h] at this; cases this
  | some y =>
    obtain ⟨r, l, w'⟩ := y
    rw [h] at this
    simp only [Option.map_some, Option.some.injEq, Prod.mk.injEq] at this
    cases r with
    | ok u => exact ⟨l, w', rfl, this.2⟩
    | err e => exact absurd this.1 Bool.false_ne_true
    | panic => exact absurd this.1 Bool.false_ne_true

/-- Two controllers that are children of each other. -/
def loopDb : Machine := build [.install none 50 1000, .install none 50 2000, .addUsage 1 50 (some 1) (some 2) 8,
  .addUsage 2 50 (some 2) (some 1) 8]

theorem loop_step (n c k : Nat) (h1 : connectSingle machine n c [] none loopDb = some (.err .notFound, [[]], loopDb) ∨
      connectSingle machine n c [] none loopDb = none)
    (h2 : (machine.db loopDb).children c = .ok [k]) (h3 : authenticateConnect machine c none true loopDb = (loopDb, none))
    (ih : connect machine n k [] none true loopDb = none) : connect machine (n + 1) c [] none true loopDb = none := by
  unfold connect
  rw [h3]
  simp only []
  rcases h1 with h1 | h1
  · rw [h1]
    simp only [if_true]
    unfold thenChildren
    rw [h2]
    simp only []
    unfold connectChildren
    rw [ih]
  · rw [h1]

/-- FINDING: if two controllers are recorded as children of each other, a recursive connection never returns: no
number of nested calls is enough. -/
theorem cyclic_children_never_return : ∀ n, connect machine n 1 [] none true loopDb = none ∧
    connect machine n 2 [] none true loopDb = none := by
  intro n
  induction n with
  | zero => exact ⟨rfl, rfl⟩
  | succ n ih =>
    have hs : ∀ c, c = 1 ∨ c = 2 → connectSingle machine n c [] none loopDb = some (.err .notFound, [[]], loopDb) := by
      rintro c (rfl | rfl) <;> rfl
    exact ⟨loop_step n 1 2 (Or.inl (hs 1 (Or.inl rfl))) (by decide +kernel) rfl ih.2,
      loop_step n 2 1 (Or.inl (hs 2 (Or.inr rfl))) (by decide +kernel) rfl ih.1⟩

/-! ### C45 -/

/-- A controller managed by driver 2, which has the children 5 and 6. -/
def managed : Machine := build [.install none 50 1000, .install none 10 200, .install none 10 300, .install none 10 400,
  .install none 51 5000, .install none 51 6000, .addUsage 1 50 (some 2) (some 1) 0x10, .addUsage 1 50 (some 2) (some 5) 8,
  .addUsage 1 50 (some 2) (some 6) 8]

/-- Everything is stopped, children first. -/
example : reportD (disconnect machine 1 none none managed) = (true, [(2, [⟨[5, 6], true⟩, ⟨[], true⟩])]) := by decide +kernel

/-- Only one of the children is stopped. -/
example : reportD (disconnect machine 1 none (some 6) managed) = (true, [(2, [⟨[6], true⟩])]) := by decide +kernel

/-- The hypotheses of `disconnect_spec` are met. -/
example : (∀ w, Reachable (machine.db w)) ∧ ArgsValid (machine.db managed) 1 none (some 6) ∧
    Manages (machine.db managed) 2 1 ∧ ChildOf (machine.db managed) 2 1 6 := by
  refine ⟨machine_reachable, ⟨by decide +kernel, nofun, ?_⟩, ⟨50, ⟨some 2, some 1, 0x10, 1⟩, by decide +kernel, rfl, Or.inl rfl⟩,
    ⟨50, ⟨some 2, some 6, 8, 1⟩, by decide +kernel, rfl, rfl, rfl⟩⟩
  intro k h
  injection h with h
  subst h
  decide +kernel

/-- FINDING: asked to disconnect a handle that is not a child of the driver, it stops nothing and reports success
when there are children, ... -/
theorem not_a_child_reported_done : reportD (disconnect machine 1 none (some 4) managed) = (true, [(2, [])]) := by decide +kernel

/-- FINDING: ... and disconnects the driver altogether when there are none. -/
theorem not_a_child_stops_driver :
    reportD (disconnect machine 1 none (some 4) (build [.install none 50 1000, .install none 10 200, .install none 10 300,
      .install none 10 400, .addUsage 1 50 (some 2) (some 1) 0x10])) = (true, [(2, [⟨[], true⟩])]) := by decide +kernel

/-- FINDING: a driver without a binding makes the call fail before the drivers after it get their turn. -/
theorem missing_binding_ends_it :
    reportD (disconnect machine 1 none none (build [.install none 50 1000, .install (some 1) 51 1001, .install none 60 200,
      .install none 10 300, .addUsage 1 50 (some 2) (some 1) 0x10, .addUsage 1 51 (some 3) (some 1) 0x10])) =
    (false, [(2, [])]) := by decide +kernel

end Verif.Connect
