import Verif.Mutex.Lemmas
/-!
C11: the TPL mutexes.

Vocabulary: `exec v lvl env fuel (.run p) (Mx.init t bs)` runs program `p` at TPL `t` with no mutex locked, using the core
(`v = .core`) or SDK (`v = .sdk`) mutex; `lvl i` is the TPL of mutex `i`; `env` is the notification activity that happens
between the steps; `.error .twoGuards` means that a second guard of a mutex came into existence while one was alive.
-/
namespace Verif.Mutex

theorem init_inv (t : Nat) (bs : Bool) : Inv (Mx.init t bs) := by intro i; simp [Mx.init]

/-- Mutual exclusion, for any program, any interleaved activity, either mutex, with or without boot services: two guards
of one mutex never exist at the same time. -/
theorem at_most_one_guard (v : Kind) (lvl : Nat → Nat) (env : Nat → List (Nat × Prog)) (f : Nat) (p : Prog) (t : Nat) (bs : Bool) :
    exec v lvl env f (.run p) (Mx.init t bs) ≠ .error .twoGuards := by
  intro h
  have := specM v lvl env f (.run p) (Mx.init t bs) (init_inv t bs)
  rw [h] at this
  exact this rfl

/-- When the program returns, all its guards having been dropped in reverse order, the TPL is back to what it was and no
mutex is locked. -/
theorem tpl_and_locks_restored {v : Kind} {lvl : Nat → Nat} {env : Nat → List (Nat × Prog)} {f : Nat} {p : Prog} {t : Nat}
    {bs : Bool} {s' : Mx} (h : exec v lvl env f (.run p) (Mx.init t bs) = .ok s') :
    s'.tpl = t ∧ (∀ i, s'.locked i = false) ∧ ∀ i, s'.guards i = 0 := by
  have := specM v lvl env f (.run p) (Mx.init t bs) (init_inv t bs)
  rw [h] at this
  exact ⟨this.tpl, fun i => by rw [this.locked]; rfl, fun i => by rw [this.guards]; rfl⟩

/-- The same, started at any point of a run (some mutexes locked, some guards alive). -/
theorem section_restores {v : Kind} {lvl : Nat → Nat} {env : Nat → List (Nat × Prog)} {f : Nat} {p : Prog} {s s' : Mx}
    (hi : Inv s) (h : exec v lvl env f (.run p) s = .ok s') :
    s'.tpl = s.tpl ∧ s'.locked = s.locked ∧ s'.guards = s.guards := by
  have := specM v lvl env f (.run p) s hi
  rw [h] at this
  exact ⟨this.tpl, this.locked, this.guards⟩

/-- An attempt fails only on a locked mutex, and a failed attempt leaves TPL, locks and guards as they were. -/
theorem failed_try_changes_nothing {v : Kind} {lvl : Nat → Nat} {env : Nat → List (Nat × Prog)} {f i : Nat} {s s' : Mx}
    (hi : Inv s) (h : tryAcquire v (exec v lvl env f .poll) lvl i s = .ok (none, s')) :
    s.locked i = true ∧ s'.tpl = s.tpl ∧ s'.locked = s.locked ∧ s'.guards = s.guards := by
  have := try_post v (fun s hi => specM v lvl env f .poll s hi) lvl i s hi
  rw [h] at this
  exact ⟨this.2, this.1.tpl, this.1.locked, this.1.guards⟩

/-- An attempt succeeds only on an unlocked mutex; then exactly that mutex is locked and one guard of it exists. The core
mutex without boot services does not touch the TPL; otherwise the guard remembers the TPL that was in force. -/
theorem successful_try {v : Kind} {lvl : Nat → Nat} {env : Nat → List (Nat × Prog)} {f i : Nat} {s s' : Mx} {rel : Option Nat}
    (hi : Inv s) (h : tryAcquire v (exec v lvl env f .poll) lvl i s = .ok (some rel, s')) :
    s.locked i = false ∧ s'.locked i = true ∧ s'.guards i = 1 ∧
    (∀ j, j ≠ i → s'.locked j = s.locked j ∧ s'.guards j = s.guards j) ∧
    (rel = some s.tpl ∨ (rel = none ∧ s'.tpl = s.tpl)) := by
  have := try_post v (fun s hi => specM v lvl env f .poll s hi) lvl i s hi
  rw [h] at this
  have ht : Taken v i rel s s' := this
  refine ⟨ht.was, by rw [ht.locked]; simp, ?_, ?_, ht.tpl⟩
  · have := hi i
    rw [ht.was] at this
    rw [ht.guards]; simp at this ⊢; exact this
  · intro j hj
    rw [ht.locked, ht.guards]; simp [hj]

/-- The core mutex raises to the mutex's TPL. -/
theorem core_lock_raises {lvl : Nat → Nat} {env : Nat → List (Nat × Prog)} {f i : Nat} {s s' : Mx} {rel : Option Nat}
    (hi : Inv s) (hb : s.bs = true) (h : tryAcquire .core (exec .core lvl env f .poll) lvl i s = .ok (some rel, s')) :
    s'.tpl = lvl i ∧ rel = some s.tpl := by
  have hp : Calm (exec .core lvl env f .poll) := fun s hi => specM .core lvl env f .poll s hi
  have hpost : Post (fun r => ∀ rel, r.1 = some rel → r.2.tpl = lvl i ∧ rel = some s.tpl) NoTwo
      (tryAcquire .core (exec .core lvl env f .poll) lvl i s) := by
    unfold tryAcquire coreTry
    dsimp only
    have hen : Post (fun r => r.1 = some s.tpl ∧ r.2.tpl = lvl i ∧ Inv r.2) NoTwo (enter (lvl i) s) := by
      unfold enter
      rw [if_pos hb]
      refine Post.bind (raise_post (lvl i) s) ?_
      rintro ⟨old, s1⟩ ⟨rfl, rfl, _, _⟩
      exact ⟨rfl, rfl, hi⟩
    refine hen.bind ?_
    rintro ⟨r1, s1⟩ ⟨h1, h2, i1⟩
    dsimp only at h1 h2 i1 ⊢
    refine (hp s1 i1).bind ?_
    intro s2 hs2
    split
    · have i2 := hs2.inv i1
      subst h1
      refine Post.bind (r := leave _ (some s.tpl) s2) (restore_post hp _ s2 i2) ?_
      intro s3 _ rel hrel
      cases hrel
    · unfold newGuard
      split
      · rename_i hl hg
        have := (hs2.inv i1) i
        simp only [Bool.not_eq_true] at hl
        rw [hl] at this
        have hg : 0 < s2.guards i := hg
        simp at this; omega
      · intro rel hrel
        cases hrel
        exact ⟨hs2.tpl.trans h2, h1⟩
  rw [h] at hpost
  exact hpost rel rfl

/-- The core mutex keeps notify functions out of critical sections. If the program and every notify function raise only
upwards, lock only mutexes at or above the TPL they run at, and do not lock a mutex they already hold, then no
`lock()` finds its mutex locked and no raise/restore assertion fails, whatever activity happens between the steps. (The
run returns, or does not end within the fuel.) -/
theorem core_lock_never_fails {lvl : Nat → Nat} {env : Nat → List (Nat × Prog)} {f t : Nat} {p : Prog}
    (hp : Ok lvl t [] p) (he : EnvOk lvl env) :
    exec .core lvl env f (.run p) (Mx.init t true) = .error .fuel ∨
    ∃ s', exec .core lvl env f (.run p) (Mx.init t true) = .ok s' ∧ s'.tpl = t ∧ ∀ i, s'.locked i = false := by
  have hh : Held lvl [] (Mx.init t true) :=
    ⟨init_inv t true, rfl, fun i hi => (by cases hi), fun i hi => (by cases hi)⟩
  have := (specC lvl env he f).2.2 p [] (Mx.init t true) hp hh
  cases hr : exec .core lvl env f (.run p) (Mx.init t true) with
  | error e => rw [hr] at this; left; rw [show e = .fuel from this]
  | ok s' => rw [hr] at this; exact Or.inr ⟨s', rfl, this.tpl, fun i => by rw [this.locked]; rfl⟩

/-! ### Findings: the SDK mutex -/

/-- One mutex at TPL_NOTIFY, used by the main program and by a notify function at TPL_CALLBACK. -/
def oneLock : Prog := .lock 0 .done .done

def oneCallback (k : Nat) : Nat → List (Nat × Prog) := fun j => if j = k then [(8, oneLock)] else []

/-- The same well-behaved program and notify function panic with the SDK mutex: its guard restores the TPL before it
unlocks, so a notify function dispatched by that restore finds the mutex locked. -/
theorem sdk_drop_reentrant : ∃ lvl env p f, Ok lvl 4 [] p ∧ EnvOk lvl env ∧
    (match exec .sdk lvl env f (.run p) (Mx.init 4 true) with | .error e => decide (e = .reentrant) | _ => false) = true := by
  refine ⟨fun _ => 16, oneCallback 3, oneLock, 20, by simp [oneLock, Ok], ?_, by decide +kernel⟩
  intro k x hx
  unfold oneCallback at hx
  split at hx
  · simp only [List.mem_singleton] at hx; subst hx; simp [oneLock, Ok]
  · cases hx

/-- It also marks the mutex locked before it raises the TPL: a notify function running in between finds it locked. -/
theorem sdk_lock_reentrant : ∃ lvl env p f, Ok lvl 4 [] p ∧ EnvOk lvl env ∧
    (match exec .sdk lvl env f (.run p) (Mx.init 4 true) with | .error e => decide (e = .reentrant) | _ => false) = true := by
  refine ⟨fun _ => 16, oneCallback 1, oneLock, 20, by simp [oneLock, Ok], ?_, by decide +kernel⟩
  intro k x hx
  unfold oneCallback at hx
  split at hx
  · simp only [List.mem_singleton] at hx; subst hx; simp [oneLock, Ok]
  · cases hx

/-! ### The hypotheses are met -/

def lvls : Nat → Nat := fun i => if i = 0 then 8 else 16

/-- A notify function that uses the mutexes at every point. -/
def busyEnv : Nat → List (Nat × Prog) := fun k => if k < 30 then [(8, .lock 0 .done (.lock 1 .done .done)), (16, .lock 1 .done .done)] else []

def keptOk (r : Except Stop Mx) : Bool := match r with | .ok s => s.tpl == 4 && !s.locked 0 | _ => false
def stopped (r : Except Stop Mx) : Bool := match r with | .error .reentrant => true | _ => false

example : Ok lvls 4 [] (.lock 0 (.lock 1 (.tryLock 1 .done (.raise 31 .done .done) .done) .done) (.tryLock 1 .done .done .done)) := by
  simp [Ok, lvls]
example : EnvOk lvls busyEnv := by
  intro k x hx
  unfold busyEnv at hx
  split at hx
  · simp only [List.mem_cons, List.not_mem_nil, or_false] at hx
    rcases hx with rfl | rfl <;> simp [Ok, lvls]
  · cases hx
-- the core mutex run completes with activity at all points, including the two that break the SDK mutex
example : keptOk (exec .core lvls busyEnv 200
    (.run (.lock 0 (.lock 1 (.tryLock 1 .done (.raise 31 .done .done) .done) .done) (.tryLock 1 .done .done .done))) (Mx.init 4 true)) = true := by
  decide +kernel
example : keptOk (exec .core (fun _ => 16) (oneCallback 3) 20 (.run oneLock) (Mx.init 4 true)) = true := by decide +kernel
-- locking twice is a panic
example : stopped (exec .core (fun _ => 16) (fun _ => []) 20 (.run (.lock 0 oneLock .done)) (Mx.init 4 true)) = true := by decide +kernel

end Verif.Mutex
