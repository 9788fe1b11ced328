import Verif.Interrupt.Props
import Verif.Interrupt.Gic
/-!
The processors: which exceptions reach the handlers at all.
-/
namespace Verif.Interrupt

/-! ### x64 -/

/-- `IDT`, x64/interrupt_manager.rs lines 36-72: the vectors with the common entry. -/
def routed (v : Nat) : Bool :=
  [0, 1, 2, 3, 4, 5, 6, 7, 9, 16, 19, 20, 28].contains v || [10, 11, 12, 13, 14, 17, 19, 29, 30].contains v || (decide (32 ≤ v) && decide (v ≤ 255))

/-- An exception on x64: vector 8 has an entry of its own, which panics (lines 49 and 118-120), the others that are not in the table raise "segment
not present" (Intel SDM volume 3, 6.15). -/
def deliver (s : Exc) (v : Nat) : Ends × Exc :=
  if v = 8 then (.panic, s)
  else if routed v then raise s v
  else raise s 11

/-- `InterruptsX64::initialize`, x64/interrupt_manager.rs lines 94-110, without loading the table. `gp` and `pf` are the default handlers. -/
def initX64 (gp pf : Nat) : Exc :=
  (register (register ⟨List.replicate 256 none, [], []⟩ 13 (some (.routine gp))).2 14 (some (.routine pf))).2

theorem routed_iff (v : Nat) : routed v = true ↔ v < 256 ∧ v ∉ [8, 15, 18, 21, 22, 23, 24, 25, 26, 27, 31] := by
  by_cases h : v < 32
  · have : ∀ v, v < 32 → (routed v = true ↔ v < 256 ∧ v ∉ [8, 15, 18, 21, 22, 23, 24, 25, 26, 27, 31]) := by decide
    exact this v h
  · have h2 : ∀ l : List Nat, (∀ x ∈ l, x < 32) → v ∉ l := fun l hl hv => h (hl v hv)
    have h3 := h2 [0, 1, 2, 3, 4, 5, 6, 7, 9, 16, 19, 20, 28] (by decide)
    have h4 := h2 [10, 11, 12, 13, 14, 17, 19, 29, 30] (by decide)
    have h5 := h2 [8, 15, 18, 21, 22, 23, 24, 25, 26, 27, 31] (by decide)
    unfold routed
    rw [List.contains_eq_mem, List.contains_eq_mem]
    simp only [h3, h4, decide_false, Bool.false_or, Bool.and_eq_true, decide_eq_true_eq]
    constructor
    · rintro ⟨_, h⟩
      exact ⟨by omega, h5⟩
    · rintro ⟨h, _⟩
      exact ⟨by omega, by omega⟩

/-- C92 on x64: the handler of a vector other than 8, 15, 18, 21 to 27 and 31 is called when it occurs. -/
theorem deliver_calls_partial (s : Exc) (v : Nat) (h : Handler) (hv : v < 256) (hn : v ∉ [8, 15, 18, 21, 22, 23, 24, 25, 26, 27, 31]) (hh : s.Has v h) :
    deliver s v = (.ok, { s with running := v :: s.running, calls := (v, h) :: s.calls }) := by
  unfold deliver
  rw [if_neg (fun e => hn (by simp [e])), if_pos ((routed_iff v).2 ⟨hv, hn⟩)]
  exact (raise_calls s v).1 h hh

/-- The handlers of the other vectors are never called: a machine check (18) or a control protection exception (21) goes to the handler of another
exception or stops the system. -/
theorem unrouted_not_called (s : Exc) (v : Nat) (hv : v ∈ [8, 15, 18, 21, 22, 23, 24, 25, 26, 27, 31]) :
    callsFor v (deliver s v).2.calls = callsFor v s.calls := by
  have h11 : v ≠ 11 := by rintro rfl; simp at hv
  have hr : routed v = false := by
    cases h : routed v with
    | false => rfl
    | true => exact absurd hv ((routed_iff v).1 h).2
  unfold deliver
  split
  · rfl
  · rw [if_neg (by simp [hr])]
    by_cases hx : ∃ g, s.Has 11 g
    · obtain ⟨g, hg⟩ := hx
      rw [(raise_calls s 11).1 g hg]
      simp [callsFor, Ne.symm h11]
    · rw [(raise_calls s 11).2 (fun g hg => hx ⟨g, hg⟩)]

set_option maxRecDepth 100000 in
/-- A machine check handler is accepted and not called. -/
theorem machine_check_lost :
    (register (initX64 1 2) 18 (some (.routine 5))).1 = .ok ∧
    (deliver (register (initX64 1 2) 18 (some (.routine 5))).2 18).1 = .panic ∧
    callsFor 18 (deliver (register (initX64 1 2) 18 (some (.routine 5))).2 18).2.calls = [] := by decide +kernel

set_option maxRecDepth 100000 in
/-- A driver cannot register for page faults before it removes the default handler. -/
theorem page_fault_taken :
    (register (initX64 1 2) 14 (some (.routine 5))).1 = .err .alreadyStarted ∧
    (register (unregister (initX64 1 2) 14).2 14 (some (.routine 5))).1 = .ok := by decide +kernel

set_option maxRecDepth 100000 in
example : (deliver (initX64 1 2) 14).1 = .ok ∧ (deliver (initX64 1 2) 14).2.calls = [(14, .routine 2)] := by decide +kernel

/-! ### AArch64 -/

/-- `NUM_EXCEPTION_TYPES`, exception_handling.rs lines 19-28: three on AArch64. The entry code numbers the kinds 0 to 3 (exception_handler.asm lines
109-112). -/
def initA64 : Exc := ⟨List.replicate 3 none, [], []⟩

/-- C92 does not hold on AArch64: the fourth kind of exception, the system error, cannot have a handler and panics for the wrong reason. -/
theorem serror_has_no_handler (h : Handler) :
    register initA64 3 (some h) = (.err .invalidParameter, initA64) ∧ raise initA64 3 = (.panic, initA64) := ⟨rfl, rfl⟩

/-- A handler that removes itself never returns. -/
theorem self_removal_hangs (s : Exc) (t : Nat) (h : Handler) (hh : s.Has t h) :
    unregister (raise s t).2 t = (.hang, (raise s t).2) ∧ ∀ g, register (raise s t).2 t (some g) = (.hang, (raise s t).2) := by
  rw [(raise_calls s t).1 h hh]
  have h1 := has_lt hh
  constructor
  · simp [unregister, Nat.not_le.2 h1]
  · intro g
    simp [register, Nat.not_le.2 h1]

end Verif.Interrupt
