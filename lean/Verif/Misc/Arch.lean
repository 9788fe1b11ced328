import Verif.Misc.Time
/-!
C140: how the core finds the drivers it works with, the metronome and the watchdog (`metronome_arch_available` and `watchdog_arch_available`,
`/repo/patina_dxe_core/src/misc_boot_services.rs` lines 108-133, and their registration, 218-241) and the timer (`timer_available_callback`, `/repo/patina_dxe_core/src/events.rs` lines 298-310, 339-346).
The three work in the same way: an event at the level TPL_CALLBACK is signalled when the protocol is installed; its function looks for the protocol, keeps the pointer (or registers
itself with the driver) and closes the event.

* `State` has what matters of one of them. The protocol database is the list of the interfaces of this protocol (`Verif.Protocol.Model` has it in full), the event is open or closed, and
  pending while its function has not been called (`Verif.Events.Model`).
* Which of several interfaces `locate_protocol` gives is a parameter, `pick`.
* An interface is a number, its address.
-/
namespace Verif.Misc.Arch

/-- `TPL_CALLBACK` -/
def CALLBACK : Nat := 8

structure State where
  tpl : Nat
  installed : List Nat
  isOpen : Bool
  pending : Bool
  /-- `METRONOME_ARCH_PTR` or `WATCHDOG_ARCH_PTR`; for the timer: the driver that has the handler -/
  ptr : Option Nat
  panicked : Bool
deriving DecidableEq, Repr

/-- After `init_misc_boot_services_support` (lines 218-241), at the lowest level. -/
def start : State := ⟨4, [], true, false, none, false⟩

/-- What drivers do: install, uninstall and reinstall the protocol, and change the level. -/
inductive Op where
  | install (p : Nat)
  | uninstall (p : Nat)
  | reinstall (old new : Nat)
  | setTpl (t : Nat)
deriving DecidableEq, Repr

variable (pick : List Nat → Nat)

/-- The function of the event, lines 108-118, 123-133. -/
def available (s : State) : State :=
  match s.installed with
  | [] => { s with pending := false, panicked := true }
  | l => { s with pending := false, ptr := some (pick l), isOpen := false }

/-- The event is signalled: its function is called at once if the level is lower than its own, later if not. A closed event is not. -/
def notify (s : State) : State :=
  if s.isOpen then if s.tpl < CALLBACK then available pick s else { s with pending := true } else s

/-- One call; nothing happens after a panic. -/
def step (s : State) (o : Op) : State :=
  if s.panicked then s
  else match o with
    | .install p => notify pick { s with installed := s.installed ++ [p] }
    | .uninstall p => { s with installed := s.installed.erase p }
    | .reinstall old new => if old ∈ s.installed then notify pick { s with installed := s.installed.map fun x => if x = old then new else x } else s
    | .setTpl t => if s.pending = true ∧ t < CALLBACK then available pick { s with tpl := t } else { s with tpl := t }

def run (ops : List Op) : State := ops.foldl (step pick) start

/-- `Stall` as a caller finds it: `period` is the `tick_period` of each interface (lines 51-74). -/
def stallNow (period : Nat → Nat) (s : State) (microseconds : Nat) : Outcome EfiError Unit × List Nat := stall (s.ptr.map period) microseconds

/-! ### Theorems -/

/-- A choice among what is installed. -/
def Picks : Prop := ∀ l : List Nat, l ≠ [] → pick l ∈ l

/-- A history in which nothing that was installed goes away. -/
def Additive (ops : List Op) : Prop := ∀ o ∈ ops, match o with | .install _ => True | .setTpl _ => True | _ => False

variable {pick}

structure Inv (s : State) : Prop where
  fine : s.panicked = false
  closed : s.isOpen = true ↔ s.ptr = none
  there : ∀ p, s.ptr = some p → p ∈ s.installed
  waiting : s.isOpen = true → s.installed ≠ [] → s.pending = true
  later : s.pending = true → CALLBACK ≤ s.tpl ∧ s.installed ≠ []

theorem available_inv (hp : Picks pick) {s : State} (hf : s.panicked = false) (hne : s.installed ≠ []) : Inv (available pick s) := by
  unfold available
  split
  · rename_i h; exact absurd h hne
  · rename_i l h
    refine ⟨hf, by simp, ?_, by simp, by simp⟩
    intro p hpp
    injection hpp with hpp
    subst hpp
    exact hp _ hne

theorem step_inv (hp : Picks pick) {s : State} (h : Inv s) {o : Op} (ho : match o with | .install _ => True | .setTpl _ => True | _ => False) : Inv (step pick s o) := by
  unfold step
  rw [if_neg (by rw [h.fine]; simp)]
  cases o with
  | uninstall p => exact ho.elim
  | reinstall a b => exact ho.elim
  | install p =>
    dsimp only
    unfold notify
    split
    · rename_i hopen
      split
      · exact available_inv hp h.fine (by simp)
      · rename_i ht
        refine ⟨h.fine, h.closed, ?_, fun _ _ => rfl, fun _ => ⟨by dsimp only at ht ⊢; omega, by simp⟩⟩
        intro q hq
        rw [h.closed.1 hopen] at hq
        cases hq
    · rename_i hopen
      refine ⟨h.fine, h.closed, ?_, fun h1 => absurd h1 hopen, fun h1 => ⟨(h.later h1).1, by simp⟩⟩
      intro q hq
      exact List.mem_append_left _ (h.there q hq)
  | setTpl t =>
    dsimp only
    split
    · rename_i hc
      exact available_inv hp h.fine (h.later hc.1).2
    · rename_i hc
      refine ⟨h.fine, h.closed, h.there, h.waiting, fun h1 => ⟨?_, (h.later h1).2⟩⟩
      dsimp only
      exact Nat.le_of_not_lt fun hl => hc ⟨h1, hl⟩

theorem start_inv : Inv start := ⟨rfl, by simp [start], by simp [start], by simp [start], by simp [start]⟩

theorem foldl_inv (hp : Picks pick) : ∀ {ops : List Op} {s : State}, Inv s → Additive ops → Inv (ops.foldl (step pick) s)
  | [], _, h, _ => h
  | o :: ops, _, h, ha => foldl_inv hp (ops := ops) (step_inv hp h (ha o List.mem_cons_self)) fun x hx => ha x (List.mem_cons_of_mem _ hx)

theorem run_inv (hp : Picks pick) {ops : List Op} (ha : Additive ops) : Inv (run pick ops) := foldl_inv hp start_inv ha

theorem mem_grows {p : Nat} : ∀ {ops : List Op} {s : State}, Inv s → Picks pick → Additive ops → p ∈ s.installed → p ∈ (ops.foldl (step pick) s).installed
  | [], _, _, _, _, h => h
  | o :: ops, s, hi, hp, ha, h => by
    refine mem_grows (ops := ops) (step_inv hp hi (ha o List.mem_cons_self)) hp (fun x hx => ha x (List.mem_cons_of_mem _ hx)) ?_
    have av : ∀ s : State, (available pick s).installed = s.installed := by
      intro s; unfold available; split <;> rfl
    unfold step
    rw [if_neg (by rw [hi.fine]; simp)]
    have ho := ha o List.mem_cons_self
    cases o with
    | uninstall p => exact ho.elim
    | reinstall a b => exact ho.elim
    | install q =>
      dsimp only
      unfold notify
      split
      · split
        · rw [av]; exact List.mem_append_left _ h
        · exact List.mem_append_left _ h
      · exact List.mem_append_left _ h
    | setTpl t =>
      dsimp only
      split
      · rw [av]; exact h
      · exact h

theorem install_mem {s : State} {p : Nat} (h : s.panicked = false) : p ∈ (step pick s (.install p)).installed := by
  unfold step
  rw [if_neg (by rw [h]; simp)]
  dsimp only
  unfold notify available
  split
  · split
    · split
      · rename_i h1; exact absurd h1 (by simp)
      · exact List.mem_append_right _ List.mem_cons_self
    · exact List.mem_append_right _ List.mem_cons_self
  · exact List.mem_append_right _ List.mem_cons_self

/-- C140: as long as installed drivers stay, the core never panics over them, and below the level of the callback it works with one of them as soon as there is one. -/
theorem served_partial (hp : Picks pick) {before after : List Op} {p : Nat} (ha : Additive (before ++ .install p :: after)) (ht : (run pick (before ++ .install p :: after)).tpl < CALLBACK) :
    (run pick (before ++ .install p :: after)).panicked = false ∧
      ∃ q, (run pick (before ++ .install p :: after)).ptr = some q ∧ q ∈ (run pick (before ++ .install p :: after)).installed := by
  have h := run_inv hp ha
  have ha1 : Additive before := fun o ho => ha o (List.mem_append_left _ ho)
  have ha2 : Additive (.install p :: after) := fun o ho => ha o (List.mem_append_right _ ho)
  have hm : p ∈ (run pick (before ++ .install p :: after)).installed := by
    unfold run
    rw [List.foldl_append, List.foldl_cons]
    have hb := run_inv hp ha1
    refine mem_grows (step_inv hp hb trivial) hp (fun x hx => ha2 x (List.mem_cons_of_mem _ hx)) ?_
    exact install_mem hb.fine
  refine ⟨h.fine, ?_⟩
  cases hptr : (run pick (before ++ .install p :: after)).ptr with
  | some q => exact ⟨q, rfl, h.there q hptr⟩
  | none =>
    have := (h.later (h.waiting (h.closed.2 hptr) (List.ne_nil_of_mem hm))).1
    omega

/-- C140: before a driver is installed, `Stall` is refused and nothing is called. -/
theorem not_ready {ops : List Op} (h : ∀ o ∈ ops, ∃ t, o = .setTpl t) (period : Nat → Nat) (us : Nat) : stallNow period (run pick ops) us = (.err .notReady, []) := by
  have : ∀ {ops : List Op} {s : State}, (∀ o ∈ ops, ∃ t, o = .setTpl t) → s.ptr = none → s.pending = false →
      (ops.foldl (step pick) s).ptr = none := by
    intro ops
    induction ops with
    | nil => intro s _ h _; exact h
    | cons o ops ih =>
      intro s ho h1 h2
      obtain ⟨t, rfl⟩ := ho o List.mem_cons_self
      have hs : step pick s (.setTpl t) = s ∨ step pick s (.setTpl t) = { s with tpl := t } := by
        unfold step
        split
        · exact Or.inl rfl
        · dsimp only; rw [if_neg (by rw [h2]; simp)]; exact Or.inr rfl
      rcases hs with hs | hs <;> rw [List.foldl_cons, hs]
      · exact ih (fun x hx => ho x (List.mem_cons_of_mem _ hx)) h1 h2
      · exact ih (fun x hx => ho x (List.mem_cons_of_mem _ hx)) h1 h2
  unfold stallNow run
  rw [this h rfl rfl]
  rfl

theorem ptr_kept {p : Nat} : ∀ {ops : List Op} {s : State}, s.isOpen = false → s.pending = false → s.ptr = some p → (ops.foldl (step pick) s).ptr = some p
  | [], _, _, _, h => h
  | o :: ops, s, h1, h2, h3 => by
    have : (step pick s o).isOpen = false ∧ (step pick s o).pending = false ∧ (step pick s o).ptr = some p := by
      unfold step
      split
      · exact ⟨h1, h2, h3⟩
      · cases o with
        | install q => dsimp only; unfold notify; rw [if_neg (by simp [h1])]; exact ⟨h1, h2, h3⟩
        | uninstall q => exact ⟨h1, h2, h3⟩
        | reinstall a b =>
          dsimp only
          split
          · unfold notify; rw [if_neg (by simp [h1])]; exact ⟨h1, h2, h3⟩
          · exact ⟨h1, h2, h3⟩
        | setTpl t => dsimp only; rw [if_neg (by simp [h2])]; exact ⟨h1, h2, h3⟩
    rw [List.foldl_cons]
    exact ptr_kept (ops := ops) this.1 this.2.1 this.2.2

/-- What holds in every history: the event is closed once there is a pointer, and nothing is pending then. -/
structure Weak (s : State) : Prop where
  closed : ∀ p, s.ptr = some p → s.isOpen = false
  quiet : s.isOpen = false → s.pending = false

theorem step_weak {s : State} (h : Weak s) (o : Op) : Weak (step pick s o) := by
  have av : ∀ {s : State}, Weak s → Weak (available pick s) := by
    intro s h
    unfold available
    split
    · exact ⟨h.closed, fun _ => rfl⟩
    · exact ⟨fun _ _ => rfl, fun _ => rfl⟩
  have no : ∀ {s : State}, Weak s → Weak (notify pick s) := by
    intro s h
    unfold notify
    split
    · rename_i hop
      split
      · exact av h
      · exact ⟨h.closed, fun h1 => absurd (hop.symm.trans h1) (by simp)⟩
    · exact h
  unfold step
  split
  · exact h
  · cases o with
    | install p => exact no ⟨h.closed, h.quiet⟩
    | uninstall p => exact ⟨h.closed, h.quiet⟩
    | reinstall a b =>
      dsimp only
      split
      · exact no ⟨h.closed, h.quiet⟩
      · exact h
    | setTpl t =>
      dsimp only
      split
      · exact av ⟨h.closed, h.quiet⟩
      · exact ⟨h.closed, h.quiet⟩

theorem foldl_weak : ∀ {ops : List Op} {s : State}, Weak s → Weak (ops.foldl (step pick) s)
  | [], _, h => h
  | o :: ops, _, h => foldl_weak (ops := ops) (step_weak h o)

/-- C140, finding: once the core has a driver it keeps the pointer for good, whatever is done: after the driver has removed its protocol, or put another interface in its place,
the core still calls the old one. -/
theorem never_let_go {ops more : List Op} {p : Nat} (h : (run pick ops).ptr = some p) : (run pick (ops ++ more)).ptr = some p := by
  have hw : Weak (run pick ops) := foldl_weak ⟨fun p h => (by cases h), fun _ => rfl⟩
  unfold run
  rw [List.foldl_append]
  exact ptr_kept (hw.closed p h) (hw.quiet (hw.closed p h)) h

/-- C140, finding: the driver is gone and the core calls it all the same. -/
theorem removed_driver_called (hp : Picks pick) (period : Nat → Nat) (p us : Nat) (hn : period p ≠ 0) :
    (run pick [.install p, .uninstall p]).installed = [] ∧ stallNow period (run pick [.install p, .uninstall p]) us = (.ok (), waits (us * 10 / period p)) := by
  have hpk : pick [p] = p := by simpa using hp [p] (by simp)
  have hr : run pick [.install p, .uninstall p] = ⟨4, [], false, false, some p, false⟩ := by
    simp [run, step, notify, available, start, CALLBACK, hpk]
  rw [hr]
  exact ⟨rfl, by simp [stallNow, stall, hn]⟩

/-- C140, finding: a driver that installs the protocol and takes it back at a level that holds up the callback makes the core panic as soon as the level falls. -/
theorem installed_and_removed_panics (p : Nat) {t low : Nat} (ht : CALLBACK ≤ t) (hl : low < CALLBACK) :
    (run pick [.setTpl t, .install p, .uninstall p, .setTpl low]).panicked = true := by
  have h1 : ¬ t < CALLBACK := by omega
  simp [run, step, notify, available, start, h1, hl]

/-- C140: and this is the only way: the core panics only when a driver has taken its protocol away before the callback came. -/
theorem panic_reason {ops : List Op} (hp : Picks pick) (h : (run pick ops).panicked = true) : ¬ Additive ops := by
  intro ha
  rw [(run_inv hp ha).fine] at h
  cases h

/-! ### Concrete cases -/

/-- Choosing the first. -/
def first (l : List Nat) : Nat := l.headD 0

theorem first_picks : Picks first := by
  intro l h
  cases l with
  | nil => exact absurd rfl h
  | cons a l => simp [first]

/-- Two drivers, installed while the callback is held up: the core works with one of them once the level falls. -/
example : (run first [.setTpl 16, .install 0x100, .install 0x200, .setTpl 4]).ptr = some 0x100 ∧ (run first [.setTpl 16, .install 0x100]).ptr = none := by decide

example : ∃ q, (run first ([.setTpl 16] ++ .install 0x100 :: [.setTpl 4])).ptr = some q :=
  let ⟨_, q, h, _⟩ := served_partial first_picks (before := [.setTpl 16]) (p := 0x100) (after := [.setTpl 4]) (by intro o ho; simp at ho; rcases ho with rfl | rfl | rfl <;> trivial) (by decide)
  ⟨q, h⟩

end Verif.Misc.Arch
