import Verif.Interrupt.Model
/-!
What interrupts and exceptions should do.
-/
namespace Verif.Interrupt

/-- The handler of exception `t` is `h`. -/
def Exc.Has (s : Exc) (t : Nat) (h : Handler) : Prop := s.handlers[t]? = some (some h)

/-- Exception `t` exists and has no handler. -/
def Exc.Free (s : Exc) (t : Nat) : Prop := s.handlers[t]? = some none

/-- The operation removes the handler of exception `t`. -/
def ExcOp.Removes (t : Nat) : ExcOp → Prop
  | .unregister u => u = t
  | .service i none => (i % 2 ^ 64).toNat = t
  | _ => False

/-- The run neither panics nor hangs. -/
def Exc.Completes : Exc → List ExcOp → Prop
  | _, [] => True
  | s, o :: os => (s.step o).1 ≠ .panic ∧ (s.step o).1 ≠ .hang ∧ Exc.Completes (s.step o).2 os

/-- How often exception `t` occurs in a run. -/
def occurrences (t : Nat) : List ExcOp → Nat
  | [] => 0
  | .raise u :: os => (if u = t then 1 else 0) + occurrences t os
  | _ :: os => occurrences t os

/-- The calls of handlers for exception `t`. -/
def callsFor (t : Nat) (calls : List (Nat × α)) : List (Nat × α) := calls.filter (fun c => c.1 == t)

/-- The handler of interrupt `i` is `h`. -/
def Hw.Has (s : Hw) (i h : Nat) : Prop := s.handlers[i]? = some (some h)

/-- Interrupt `i` can have a handler and has none. -/
def Hw.Free (s : Hw) (i : Nat) : Prop := s.handlers[i]? = some none

/-- Nothing about the other interrupts differs between two states. -/
def SameBut (s s' : Hw) (i : Nat) : Prop :=
  (∀ j, j ≠ i → s'.handlers[j]? = s.handlers[j]?) ∧ (∀ j, j ≠ i → s'.gic.enabled j = s.gic.enabled j) ∧
  (∀ j, j ≠ i → s'.gic.edge j = s.gic.edge j) ∧ s'.gic.active = s.gic.active ∧ s'.calls = s.calls ∧ s'.inHandler = s.inHandler

/-- The run neither panics nor hangs. -/
def Hw.Completes : Hw → List HwOp → Prop
  | _, [] => True
  | s, o :: os => (s.step o).1 ≠ .panic ∧ (s.step o).1 ≠ .hang ∧ Hw.Completes (s.step o).2 os

/-- How often interrupt `i` is signalled in a run. -/
def signals (i : Nat) : List HwOp → Nat
  | [] => 0
  | .interrupt j :: os => (if j = i then 1 else 0) + signals i os
  | _ :: os => signals i os

end Verif.Interrupt
