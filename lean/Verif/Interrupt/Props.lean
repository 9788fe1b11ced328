import Verif.Interrupt.Spec
/-!
Registration and dispatch of exception handlers.
-/
namespace Verif.Interrupt

theorem at_some {s : Exc} {t : Nat} {h : Handler} : s.at t = some h ↔ s.Has t h := by
  unfold Exc.at Exc.Has
  rcases h1 : s.handlers[t]? with _ | _ | a <;> simp [Option.join]

theorem at_none {s : Exc} {t : Nat} (ht : t < s.handlers.length) : s.at t = none ↔ s.Free t := by
  unfold Exc.at Exc.Free
  rw [List.getElem?_eq_getElem ht]
  cases s.handlers[t] <;> simp [Option.join]

theorem has_lt {s : Exc} {t : Nat} {h : Handler} (hh : s.Has t h) : t < s.handlers.length := by
  unfold Exc.Has at hh
  exact (List.getElem?_eq_some_iff.1 hh).1

theorem free_lt {s : Exc} {t : Nat} (hh : s.Free t) : t < s.handlers.length := by
  unfold Exc.Free at hh
  exact (List.getElem?_eq_some_iff.1 hh).1

/-- C92: a handler is registered exactly for an exception that exists and has none and whose handler is not running; the registration changes
nothing else. -/
theorem register_ok (s : Exc) (t : Nat) (h : Handler) :
    (register s t (some h)).1 = .ok ↔ s.Free t ∧ t ∉ s.running := by
  unfold register
  by_cases h1 : s.handlers.length ≤ t
  · simp only [if_pos h1]
    constructor
    · intro h; exact absurd h (by simp)
    · rintro ⟨h, _⟩
      exact absurd (free_lt h) (by omega)
  · simp only [if_neg h1]
    by_cases h2 : t ∈ s.running
    · simp [h2]
    · simp only [if_neg h2]
      have h3 := at_none (s := s) (t := t) (by omega)
      cases h4 : s.at t with
      | none => simp [h3.1 h4, h2]
      | some g =>
        simp only [Option.isSome_some, if_true, reduceCtorEq, false_iff, not_and]
        intro h5
        rw [h3.2 h5] at h4
        cases h4

/-- C92: what a registration changes. -/
theorem register_effect {s s' : Exc} {t : Nat} {h : Handler} (hr : register s t (some h) = (.ok, s')) :
    s'.Has t h ∧ (∀ u, u ≠ t → s'.handlers[u]? = s.handlers[u]?) ∧ s'.running = s.running ∧ s'.calls = s.calls := by
  have h1 := free_lt ((register_ok s t h).1 (by rw [hr])).1
  unfold register at hr
  simp only [if_neg (Nat.not_le.2 h1)] at hr
  split at hr
  · cases hr
  · split at hr
    · cases hr
    · injection hr with _ hr
      subst hr
      refine ⟨?_, fun u hu => ?_, rfl, rfl⟩
      · simp [Exc.Has, h1]
      · simp only
        rw [List.getElem?_set_ne (Ne.symm hu)]

/-- C92: every other call of the function changes nothing, and says why: no handler or no such exception is an invalid parameter; an exception that
has a handler keeps it; and the call never returns while the handler of that exception runs. -/
theorem register_refused (s : Exc) (t : Nat) (h : Option Handler) (hr : (register s t h).1 ≠ .ok) :
    (register s t h).2 = s ∧
    ((register s t h).1 = .err .invalidParameter ∧ (h = none ∨ s.handlers.length ≤ t) ∨
     (register s t h).1 = .hang ∧ t < s.handlers.length ∧ t ∈ s.running ∨
     (register s t h).1 = .err .alreadyStarted ∧ t ∉ s.running ∧ ∃ g, s.Has t g) := by
  cases h with
  | none => exact ⟨rfl, .inl ⟨rfl, .inl rfl⟩⟩
  | some h =>
    unfold register at hr ⊢
    by_cases h1 : s.handlers.length ≤ t
    · simp [h1]
    · by_cases h2 : t ∈ s.running
      · simp [h1, h2, Nat.lt_of_not_le h1]
      · cases h4 : s.at t with
        | none => simp [h1, h2, h4] at hr
        | some g =>
          simp only [if_neg h1, if_neg h2, Option.isSome_some, if_true]
          exact ⟨trivial, .inr (.inr ⟨trivial, h2, g, at_some.1 h4⟩)⟩

/-- C92: a handler is removed exactly from an exception that has one that is not running. -/
theorem unregister_ok (s : Exc) (t : Nat) :
    (unregister s t).1 = .ok ↔ (∃ h, s.Has t h) ∧ t ∉ s.running := by
  unfold unregister
  by_cases h1 : s.handlers.length ≤ t
  · simp only [if_pos h1]
    constructor
    · intro h; exact absurd h (by simp)
    · rintro ⟨⟨h, hh⟩, _⟩
      exact absurd (has_lt hh) (by omega)
  · simp only [if_neg h1]
    by_cases h2 : t ∈ s.running
    · simp [h2]
    · simp only [if_neg h2]
      cases h4 : s.at t with
      | none =>
        simp only [Option.isNone_none, if_true, reduceCtorEq, false_iff, not_and]
        rintro ⟨h, hh⟩
        rw [at_some.2 hh] at h4
        cases h4
      | some g =>
        simp only [Option.isNone_some, Bool.false_eq_true, if_false, true_iff]
        exact ⟨⟨g, at_some.1 h4⟩, h2⟩

/-- C92: what removing a handler changes. -/
theorem unregister_effect {s s' : Exc} {t : Nat} (hr : unregister s t = (.ok, s')) :
    s'.Free t ∧ (∀ u, u ≠ t → s'.handlers[u]? = s.handlers[u]?) ∧ s'.running = s.running ∧ s'.calls = s.calls := by
  obtain ⟨⟨h, hh⟩, _⟩ := (unregister_ok s t).1 (by rw [hr])
  have h1 := has_lt hh
  unfold unregister at hr
  simp only [if_neg (Nat.not_le.2 h1)] at hr
  split at hr
  · cases hr
  · split at hr
    · cases hr
    · injection hr with _ hr
      subst hr
      refine ⟨?_, fun u hu => ?_, rfl, rfl⟩
      · simp [Exc.Free, h1]
      · simp only
        rw [List.getElem?_set_ne (Ne.symm hu)]

/-- C92: every other call changes nothing, and says why. -/
theorem unregister_refused (s : Exc) (t : Nat) (hr : (unregister s t).1 ≠ .ok) :
    (unregister s t).2 = s ∧
    ((unregister s t).1 = .err .invalidParameter ∧ (∀ h, ¬ s.Has t h) ∨
     (unregister s t).1 = .hang ∧ t < s.handlers.length ∧ t ∈ s.running) := by
  unfold unregister at hr ⊢
  by_cases h1 : s.handlers.length ≤ t
  · simp only [if_pos h1]
    exact ⟨trivial, .inl ⟨trivial, fun h hh => absurd (has_lt hh) (by omega)⟩⟩
  · by_cases h2 : t ∈ s.running
    · simp [h1, h2, Nat.lt_of_not_le h1]
    · cases h4 : s.at t with
      | some g => simp [h1, h2, h4] at hr
      | none =>
        simp only [if_neg h1, if_neg h2, Option.isNone_none, if_true]
        refine ⟨trivial, .inl ⟨trivial, fun h hh => ?_⟩⟩
        rw [at_some.2 hh] at h4
        cases h4

/-- C92: an exception with a handler calls it, once and with the number of the exception; an exception without one is a panic. -/
theorem raise_calls (s : Exc) (t : Nat) :
    (∀ h, s.Has t h → raise s t = (.ok, { s with running := t :: s.running, calls := (t, h) :: s.calls })) ∧
    ((∀ h, ¬ s.Has t h) → raise s t = (.panic, s)) := by
  constructor
  · intro h hh
    unfold raise
    rw [if_neg (Nat.not_le.2 (has_lt hh)), at_some.2 hh]
  · intro hn
    unfold raise
    split
    · rfl
    · cases h4 : s.at t with
      | none => rfl
      | some g => exact absurd (at_some.1 h4) (hn g)

/-- C92: the service of the CPU protocol registers a routine, or removes the handler if there is none to register, for the given exception; numbers
that are negative or too large are invalid parameters. -/
theorem service_spec (s : Exc) (t : Int) (f : Option Nat) (hlo : -(2 ^ 63) ≤ t) (hhi : t < 2 ^ 63) (hlen : s.handlers.length ≤ 2 ^ 63) :
    (0 ≤ t → registerInterruptHandler s true t f =
      match f with
      | none => unregister s t.toNat
      | some f => register s t.toNat (some (.routine f))) ∧
    ((t < 0 ∨ s.handlers.length ≤ t) → registerInterruptHandler s true t f = (.err .invalidParameter, s)) := by
  constructor
  · intro h0
    have h1 : toUsize t = t.toNat := by
      unfold toUsize
      rw [Int.emod_eq_of_lt h0 (by omega)]
    cases f <;> simp [registerInterruptHandler, h1]
  · intro h
    have h1 : s.handlers.length ≤ toUsize t := by
      unfold toUsize
      rcases h with h | h
      · have h2 : t % 2 ^ 64 = t + 2 ^ 64 := by
          rw [← Int.add_emod_right, Int.emod_eq_of_lt] <;> omega
        rw [h2]
        omega
      · rw [Int.emod_eq_of_lt (by omega) (by omega)]
        omega
    cases f <;> simp [registerInterruptHandler, unregister, register, h1]

theorem register_keeps {s : Exc} {t : Nat} {h : Handler} (hh : s.Has t h) (u : Nat) (g : Option Handler) : (register s u g).2.Has t h ∧ (register s u g).2.calls = s.calls := by
  cases hr : register s u g with | mk e s' =>
  by_cases h1 : e = .ok
  · subst h1
    cases g with
    | none => cases hr
    | some g =>
      obtain ⟨h2, h3, _, h5⟩ := register_effect hr
      refine ⟨?_, h5⟩
      by_cases hu : t = u
      · subst hu
        have := ((register_ok s t g).1 (by rw [hr])).1
        unfold Exc.Has at hh
        unfold Exc.Free at this
        rw [hh] at this
        cases this
      · show s'.handlers[t]? = _
        rw [h3 t hu]; exact hh
  · have := (register_refused s u g (by rw [hr]; exact h1)).1
    rw [hr] at this
    simp only at this
    subst this
    exact ⟨hh, rfl⟩

theorem unregister_keeps {s : Exc} {t : Nat} {h : Handler} (hh : s.Has t h) (u : Nat) (hu : u ≠ t) :
    (unregister s u).2.Has t h ∧ (unregister s u).2.calls = s.calls := by
  cases hr : unregister s u with | mk e s' =>
  by_cases h1 : e = .ok
  · subst h1
    obtain ⟨_, h3, _, h5⟩ := unregister_effect hr
    refine ⟨?_, h5⟩
    show s'.handlers[t]? = _
    rw [h3 t (Ne.symm hu)]; exact hh
  · have := (unregister_refused s u (by rw [hr]; exact h1)).1
    rw [hr] at this
    simp only at this
    subst this
    exact ⟨hh, rfl⟩

theorem step_keeps {s : Exc} {t : Nat} {h : Handler} (hh : s.Has t h) (o : ExcOp) (ho : ¬ o.Removes t) :
    (s.step o).2.Has t h ∧ callsFor t (s.step o).2.calls = List.replicate (occurrences t [o]) (t, h) ++ callsFor t s.calls := by
  cases o with
  | register u g =>
    obtain ⟨h1, h2⟩ := register_keeps hh u g
    exact ⟨h1, by simp [Exc.step, h2, occurrences]⟩
  | unregister u =>
    obtain ⟨h1, h2⟩ := unregister_keeps hh u (fun e => ho (by simp [ExcOp.Removes, e]))
    exact ⟨h1, by simp [Exc.step, h2, occurrences]⟩
  | service i f =>
    cases f with
    | none =>
      obtain ⟨h1, h2⟩ := unregister_keeps hh (toUsize i) (fun e => ho (by simpa [ExcOp.Removes, toUsize] using e))
      exact ⟨h1, by simp [Exc.step, registerInterruptHandler, h2, occurrences]⟩
    | some f =>
      obtain ⟨h1, h2⟩ := register_keeps hh (toUsize i) (some (.routine f))
      exact ⟨h1, by simp [Exc.step, registerInterruptHandler, h2, occurrences]⟩
  | finish => exact ⟨hh, by simp [Exc.step, finish, occurrences]⟩
  | raise u =>
    by_cases hu : u = t
    · subst hu
      rw [show s.step (.raise u) = raise s u from rfl, (raise_calls s u).1 h hh]
      refine ⟨hh, ?_⟩
      simp [callsFor, occurrences]
    · by_cases hx : ∃ g, s.Has u g
      · obtain ⟨g, hg⟩ := hx
        rw [show s.step (.raise u) = raise s u from rfl, (raise_calls s u).1 g hg]
        refine ⟨hh, ?_⟩
        simp [callsFor, occurrences, hu]
      · rw [show s.step (.raise u) = raise s u from rfl, (raise_calls s u).2 (fun g hg => hx ⟨g, hg⟩)]
        exact ⟨hh, by simp [occurrences, hu]⟩

theorem occurrences_cons (t : Nat) (o : ExcOp) (os : List ExcOp) : occurrences t (o :: os) = occurrences t os + occurrences t [o] := by
  cases o <;> simp [occurrences, Nat.add_comm]

theorem run_completes {s : Exc} {o : ExcOp} {os : List ExcOp} (hc : s.Completes (o :: os)) : s.run (o :: os) = (s.step o).2.run os := by
  obtain ⟨h1, h2, _⟩ := hc
  rw [Exc.run]
  revert h1 h2
  cases s.step o with | mk e s' => cases e <;> simp

/-- C92: a handler stays registered until it is removed, whatever else happens, and until then each occurrence of its exception calls it and no
other. -/
theorem registered_called (ops : List ExcOp) : ∀ {s : Exc} {t : Nat} {h : Handler}, s.Has t h → s.Completes ops → (∀ o ∈ ops, ¬ o.Removes t) →
    (s.run ops).Has t h ∧ callsFor t (s.run ops).calls = List.replicate (occurrences t ops) (t, h) ++ callsFor t s.calls := by
  induction ops with
  | nil => intro s t h hh _ _; exact ⟨hh, by simp [Exc.run, occurrences]⟩
  | cons o os ih =>
    intro s t h hh hc ho
    obtain ⟨h1, h2⟩ := step_keeps hh o (ho o (List.mem_cons_self ..))
    obtain ⟨h3, h4⟩ := ih h1 hc.2.2 (fun x hx => ho x (List.mem_cons_of_mem _ hx))
    rw [run_completes hc]
    refine ⟨h3, ?_⟩
    rw [h4, h2, ← List.append_assoc, List.replicate_append_replicate, ← occurrences_cons]

/-! ### A history of each -/

def demoExc : Exc := ⟨List.replicate 256 none, [], []⟩
def demoOps : List ExcOp := [.service 33 (some 7), .raise 32, .finish, .register 32 (some (.object 9)), .service 33 none, .raise 32, .finish]

set_option maxRecDepth 100000 in
example : ∃ s', register demoExc 32 (some (.routine 5)) = (.ok, s') ∧ s'.Has 32 (.routine 5) ∧ s'.Completes demoOps ∧
    (∀ o ∈ demoOps, ¬ o.Removes 32) ∧ callsFor 32 (s'.run demoOps).calls = [(32, .routine 5), (32, .routine 5)] := by
  refine ⟨_, rfl, ?_⟩
  have hr : ∀ o ∈ demoOps, ¬ o.Removes 32 := by
    intro o ho
    simp only [demoOps, List.mem_cons, List.not_mem_nil, or_false] at ho
    rcases ho with rfl | rfl | rfl | rfl | rfl | rfl | rfl <;> simp [ExcOp.Removes]
  have hc : Exc.Completes (register demoExc 32 (some (.routine 5))).2 demoOps := by
    simp only [Exc.Completes, demoOps]; decide +kernel
  have hh : Exc.Has (register demoExc 32 (some (.routine 5))).2 32 (.routine 5) := by
    unfold Exc.Has; decide +kernel
  exact ⟨hh, hc, hr, by decide +kernel⟩

end Verif.Interrupt
