import Verif.Events.TplRun
/-!
C07: raise/restore TPL.

Specification vocabulary. `Reached beh irq s`: some code outside the core, starting when no event exists, has done a list
of raise/restore/event-service calls and is now in state `s`; notify functions behaved as `beh` and timer interrupts
arrived as `irq`. `exec beh irq fuel (.acts l) s = .ok s'`: doing the calls `l` from `s` returns, in state `s'`.
`Db.above t`: the pending notifications of existing events whose TPL is above `t`, in queue order. `s.log` is the list of
notify function calls made so far, each with the TPL in force at the call and whether its event existed then.
-/
namespace Verif.Events

def Reached (beh : Nat → List Act) (irq : Nat → List Nat) (s : Sys) : Prop :=
  ∃ miss fuel l, exec beh irq fuel (.acts l) (Sys.init miss) = .ok s

theorem init_good (miss : Nat → Bool) : Good (Sys.init miss) :=
  ⟨(Reachable.inv ⟨miss, [], rfl⟩ : Inv _ _), rfl, (by show 4 ≤ 31; decide)⟩

theorem init_quiet (miss : Nat → Bool) : Quiet (Sys.init miss) := fun _ hn _ => by cases hn

variable {beh : Nat → List Act} {irq : Nat → List Nat}

theorem Reached.good {s : Sys} (h : Reached beh irq s) : Good s ∧ s.busy = false ∧ ∀ c ∈ s.log, c.tpl = c.note.tpl := by
  obtain ⟨miss, f, l, he⟩ := h
  have := specA beh irq f (.acts l) _ (init_good miss) trivial
  rw [he] at this
  refine ⟨this.1.good, this.1.busy, ?_⟩
  obtain ⟨x, h1, h2⟩ := this.1.log
  have hx : s.log = x := by rw [h1]; rfl
  rw [hx]; exact h2

theorem Reached.quiet {s : Sys} (h : Reached beh noIrq s) : Quiet s ∧ ∀ c ∈ s.log, c.alive = true := by
  obtain ⟨miss, f, l, he⟩ := h
  have := specB beh f (.acts l) _ (init_good miss) rfl (init_quiet miss)
  rw [he] at this
  refine ⟨this.2, ?_⟩
  obtain ⟨x, h1, h2⟩ := this.1
  have hx : s.log = x := by rw [h1]; rfl
  rw [hx]; exact h2

/-! ### C07 -/

/-- Raising to `t` succeeds exactly when `t` is not below the current TPL nor above TPL_HIGH_LEVEL; it returns the TPL it
found and leaves everything else alone, apart from masking interrupts. -/
theorem raise_spec (s : Sys) (c : Cause) (t : Nat) (old : Nat) (s' : Sys) :
    s.raise c t = .ok (old, s') ↔ (s.tpl ≤ t ∧ t ≤ 31) ∧ old = s.tpl ∧
      s' = { s with tpl := t, ints := if t = 31 ∧ s.tpl < 31 then false else s.ints } := by
  unfold Sys.raise TPL_HIGH_LEVEL
  split
  · exact ⟨fun h => (by cases h), fun h => (by omega)⟩
  · split
    · exact ⟨fun h => (by cases h), fun h => (by omega)⟩
    · constructor
      · intro h; cases h; exact ⟨⟨by omega, by omega⟩, rfl, rfl⟩
      · rintro ⟨_, rfl, rfl⟩; rfl

/-- Otherwise it panics. -/
theorem raise_panics (s : Sys) (c : Cause) (t : Nat) (h : t < s.tpl ∨ 31 < t) : s.raise c t = .panic c := by
  unfold Sys.raise TPL_HIGH_LEVEL
  split
  · rfl
  · rw [if_pos (by omega)]

/-- Restoring to a TPL above the current one panics. -/
theorem restore_higher_panics (s : Sys) (t f : Nat) (h : s.tpl < t) :
    exec beh irq (f + 1) (.act (.restore t)) s = .panic .misuse := by
  unfold exec; rw [if_pos h]

/-- With any notify functions and interrupts: when `restore_tpl(t)` returns, the TPL is `t`. -/
theorem restore_ends_at {s s' : Sys} {t f : Nat} (h : Reached beh irq s) (he : exec beh irq f (.act (.restore t)) s = .ok s') :
    s'.tpl = t := by
  have := specA beh irq f (.act (.restore t)) s h.good.1 trivial
  rw [he] at this
  exact this.2.1

/-- The TPL a sequence of calls ends at, if every service other than raise and restore leaves the TPL alone. -/
def tplAfter : Nat → List Act → Nat
  | t, [] => t
  | _, .raise t :: l => tplAfter t l
  | _, .restore t :: l => tplAfter t l
  | t, _ :: l => tplAfter t l

theorem tplAfter_step {s s1 : Sys} {a : Act} (l : List Act) (h : Cmd.Tpl s s1 (.act a)) : tplAfter s.tpl (a :: l) = tplAfter s1.tpl l := by
  cases a with
  | raise t => have h : s1.tpl = t ∧ _ := h; rw [h.1]; rfl
  | restore t => have h : s1.tpl = t ∧ _ := h; rw [h.1]; rfl
  | _ => rw [show s1.tpl = s.tpl from h]; rfl

theorem acts_tpl (l : List Act) : ∀ (f : Nat) (s : Sys), Good s →
    Post (fun s' => s'.tpl = tplAfter s.tpl l) (fun _ => True) (exec beh irq f (.acts l) s) := by
  induction l with
  | nil =>
    intro f s _
    cases f with
    | zero => unfold exec; trivial
    | succ f => unfold exec; rfl
  | cons a l ih =>
    intro f s hg
    cases f with
    | zero => unfold exec; trivial
    | succ f =>
      unfold exec
      refine ((specA beh irq f (.act a) s hg trivial).mono (fun _ h => h) (fun _ _ => trivial)).bind ?_
      rintro s1 ⟨h1, h2⟩
      refine ((specA beh irq f .poll s1 h1.good trivial).mono (fun _ h => h) (fun _ _ => trivial)).bind ?_
      rintro s2 ⟨h3, h4⟩
      have h4 : s2.tpl = s1.tpl := h4
      refine (ih f s2 h3.good).mono ?_ (fun _ h => h)
      intro s3 h5
      rw [h5, h4, tplAfter_step l h2]

/-- With any notify functions and interrupts, raises and restores nest: after any sequence of calls that returns, the TPL
is the one set by its last raise or restore, and the one it started with if there was none. Event services, notify
functions (whatever raises and restores they do) and interrupts leave it alone. -/
theorem tpl_nests {s s' : Sys} {l : List Act} {f : Nat} (h : Reached beh irq s) (he : exec beh irq f (.acts l) s = .ok s') :
    s'.tpl = tplAfter s.tpl l := by
  have := acts_tpl l f s h.good.1 (beh := beh) (irq := irq)
  rw [he] at this
  exact this

/-- With any notify functions and interrupts: every notify function is called at its event's notify TPL. -/
theorem called_at_notify_tpl {s : Sys} (h : Reached beh irq s) : ∀ c ∈ s.log, c.tpl = c.note.tpl := h.good.2.2

/-- With any notify functions and interrupts: the core never finds the event database locked and never violates its own
raise/restore rules. -/
theorem no_reentrant_lock {s : Sys} {l : List Act} {f : Nat} (h : Reached beh irq s) :
    exec beh irq f (.acts l) s ≠ .panic .reentrantLock ∧ exec beh irq f (.acts l) s ≠ .panic .coreTpl := by
  have := specA beh irq f (.acts l) s h.good.1 trivial
  constructor
  · intro he; rw [he] at this; exact this.1 rfl
  · intro he; rw [he] at this; exact this.2 rfl

/-- C46 in full asks, under interrupts at any point: `restore_tpl(t)` ends at `t`; notify functions run at their own TPL and
only for existing events; nothing above the TPL is pending when it returns; the core never panics on its own account. Proved
here: the final TPL, the TPL of every call, and that the core never finds its lock taken or breaks its raise/restore rules.
Missing, because false of the code: nothing pending (`interrupt_leaves_pending`), existing events only
(`interrupt_calls_closed`), no panic looking up the event (`interrupt_close_panics`). -/
theorem restore_with_interrupts_partial {s : Sys} {t f : Nat} (h : Reached beh irq s) :
    match exec beh irq f (.act (.restore t)) s with
    | .ok s' => s'.tpl = t ∧ ∀ c ∈ s'.log, c.tpl = c.note.tpl
    | .panic c => c ≠ .reentrantLock ∧ c ≠ .coreTpl
    | .fuel => True := by
  have := specA beh irq f (.act (.restore t)) s h.good.1 trivial
  cases he : exec beh irq f (.act (.restore t)) s with
  | ok s' =>
    rw [he] at this
    refine ⟨this.2.1, ?_⟩
    obtain ⟨new, hl, hp⟩ := this.1.log
    intro c hc
    rw [hl, List.mem_append] at hc
    rcases hc with hc | hc
    · exact h.good.2.2 c hc
    · exact hp c hc
  | panic c => rw [he] at this; exact this
  | fuel => trivial

/-- Without interrupts: whenever code outside the core runs, nothing above the current TPL is pending. In particular
this holds when `restore_tpl` returns. With interrupts it is false: `interrupt_leaves_pending`. -/
theorem nothing_above_pending {s : Sys} (h : Reached beh noIrq s) :
    ∀ n ∈ s.h.db.pending, s.h.db.isValid n.event = true → n.tpl ≤ s.tpl := h.quiet.1

/-- Without interrupts: a notify function is only called while its event exists, and the core does not panic on its own
account; the only panics are misuse of raise and restore. Both fail with interrupts. -/
theorem calls_are_live {s : Sys} {l : List Act} {f : Nat} {c : Cause} (h : Reached beh noIrq s) :
    (∀ c ∈ s.log, c.alive = true) ∧ (exec beh noIrq f (.acts l) s = .panic c → c = .misuse) := by
  refine ⟨h.quiet.2, ?_⟩
  intro he
  have h1 := specA beh noIrq f (.acts l) s h.good.1 trivial
  have h2 := specB beh f (.acts l) s h.good.1 h.good.2.1 h.quiet.1
  rw [he] at h1 h2
  cases c with
  | misuse => rfl
  | coreTpl => exact absurd rfl h1.2
  | reentrantLock => exact absurd rfl h1.1
  | unwrapType => exact absurd rfl h2

/-- Without interrupts, and when notify functions do not use the event services: `restore_tpl(t)` from a higher TPL
returns, and it has called the notify functions of exactly the pending notifications of existing events above `t`, each
once, in queue order (highest TPL first, then first-in first-out), each at its own TPL. -/
theorem restore_dispatches {s : Sys} {t : Nat} (hbeh : ∀ k, beh k = []) (h : Reached beh noIrq s) (ht : t < s.tpl) :
    ∃ F s', (∀ f, F ≤ f → exec beh noIrq f (.act (.restore t)) s = .ok s') ∧ s'.tpl = t ∧
      s'.log = s.log ++ ((s.h.db.above t).filter (·.fn.isSome)).map (fun n => ⟨n, n.tpl, true⟩) ∧ s'.h.db.above t = [] := by
  obtain ⟨F, s', h1, h2⟩ := restore_term hbeh t s h.good.1 h.good.2.1 ht
  have hex : ∀ f, F + 1 ≤ f → exec beh noIrq f (.act (.restore t)) s = .ok s' := by
    intro f hf
    obtain ⟨g, rfl⟩ : ∃ g, f = g + 1 := ⟨f - 1, by omega⟩
    unfold exec
    rw [if_neg (by omega)]
    exact h2 g (by omega)
  have ha := specA beh noIrq (F + 1) (.act (.restore t)) s h.good.1 trivial
  have hb := specB beh (F + 1) (.act (.restore t)) s h.good.1 h.good.2.1 h.quiet.1
  rw [hex (F + 1) (Nat.le_refl _)] at ha hb
  have htpl : s'.tpl = t := ha.2.1
  refine ⟨F + 1, s', hex, htpl, h1, above_idle ?_⟩
  have : Idle s'.tpl s'.h.db := hb.2
  rwa [htpl] at this

/-! ### Findings (with timer interrupts) -/

/-- One timer interrupt advancing time by 10 at the `k`-th point where interrupts are enabled. -/
def irqAt (k : Nat) : Nat → List Nat := fun j => if j = k then [10] else []

/-- An armed one-shot timer event at TPL_NOTIFY; raise to TPL_CALLBACK, restore to TPL_APPLICATION. -/
def armAndRestore : List Act :=
  [.create (EVT_TIMER + EVT_NOTIFY_SIGNAL) 16 (some 1) none none, .setTimer 1 .relative 10, .raise 8, .restore 4]

/-- A timer interrupt arriving between the last look at the queue and the end of `EVENT_NOTIFIES_IN_PROGRESS` leaves a
TPL_NOTIFY notification pending after `restore_tpl(TPL_APPLICATION)` returned. -/
theorem interrupt_leaves_pending : ∃ s, Reached (fun _ => []) (irqAt 24) s ∧ s.tpl = 4 ∧ (s.h.db.above 4).map (·.tpl) = [16] := by
  have h : (match exec (fun _ => []) (irqAt 24) 60 (.acts armAndRestore) (Sys.init fun _ => false) with
    | .ok s => decide (s.tpl = 4 ∧ (s.h.db.above 4).map (·.tpl) = [16])
    | _ => false) = true := by decide +kernel
  split at h
  · rename_i s hs
    exact ⟨s, ⟨_, _, _, hs⟩, of_decide_eq_true h⟩
  · cases h

/-- Event 1 is queued; event 2 is a timer event at a higher TPL. -/
def closeRace : List Act :=
  [.create EVT_NOTIFY_SIGNAL 8 (some 1) none none, .create (EVT_TIMER + EVT_NOTIFY_SIGNAL) 16 (some 2) none none,
   .setTimer 2 .relative 10, .raise 16, .signal 1, .restore 4]

/-- The first notify function to run closes event 1. -/
def closesOne : Nat → List Act := fun j => if j = 0 then [.close 1] else []

/-- A timer interrupt between taking a notification from the queue and looking up its event's type, whose notify
function closes that event, makes the core panic. -/
theorem interrupt_close_panics :
    ∃ irq, (match exec closesOne irq 100 (.acts closeRace) (Sys.init fun _ => false) with
      | .panic c => decide (c = .unwrapType) | _ => false) = true := ⟨irqAt 57, by decide +kernel⟩

/-- A timer interrupt slightly later makes the core call the notify function of an event that was already closed. -/
theorem interrupt_calls_closed : ∃ s, Reached closesOne (irqAt 66) s ∧ ∃ c ∈ s.log, c.alive = false := by
  have h : (match exec closesOne (irqAt 66) 100 (.acts closeRace) (Sys.init fun _ => false) with
    | .ok s => s.log.any (fun c => !c.alive)
    | _ => false) = true := by decide +kernel
  split at h
  · rename_i s hs
    obtain ⟨c, hc, hb⟩ := List.any_eq_true.1 h
    exact ⟨s, ⟨_, _, _, hs⟩, c, hc, by simpa using hb⟩
  · cases h

/-! ### The hypotheses are met -/

/-- Two notifications at different TPLs queued at TPL_HIGH_LEVEL. -/
def queueTwo : List Act :=
  [.create EVT_NOTIFY_SIGNAL 8 (some 1) none none, .create EVT_NOTIFY_SIGNAL 16 (some 2) none none, .raise 31, .signal 1, .signal 2]

example : ∃ s, Reached (fun _ => []) noIrq s ∧ s.tpl = 31 ∧ (s.h.db.above 4).map (·.event) = [2, 1] := by
  have h : (match exec (fun _ => []) noIrq 60 (.acts queueTwo) (Sys.init fun _ => false) with
    | .ok s => decide (s.tpl = 31 ∧ (s.h.db.above 4).map (·.event) = [2, 1])
    | _ => false) = true := by decide +kernel
  split at h
  · rename_i s hs
    exact ⟨s, ⟨_, _, _, hs⟩, of_decide_eq_true h⟩
  · cases h

-- a run with nested dispatch: event 1's notify function raises to 31, signals event 2 and restores, and event 2's runs
-- inside it
example : (match exec (fun j => if j = 0 then [.raise 31, .signal 2, .restore 8] else []) (irqAt 40) 100
    (.acts (queueTwo.take 4 ++ [.restore 4])) (Sys.init fun _ => false) with
    | .ok s => decide (s.tpl = 4 ∧ s.log.map (fun c => (c.note.event, c.tpl)) = [(1, 8), (2, 16)])
    | _ => false) = true := by decide +kernel

end Verif.Events
