import Verif.Interrupt.Spec
/-!
The hardware interrupt protocols. Sources below 32 are the private interrupts of the processor (timer, performance counters, ...), the others
are those of devices.
-/
namespace Verif.Interrupt

/-- A private source is the interrupt with its number. -/
theorem intid_private (g : Gic) {i : Nat} (hi : i < 32) : sourceToIntId g i = .ok i := by
  unfold sourceToIntId
  rw [if_neg (by omega)]
  by_cases h : i < 16
  · rw [if_pos h]; rfl
  · rw [if_neg h, if_pos (by omega)]
    show Outcome.ok (16 + (i - 16)) = _
    rw [show 16 + (i - 16) = i by omega]

/-- The source of a device is taken for another interrupt: the number is 32 too large. -/
theorem intid_shared (g : Gic) {i : Nat} (hi : 32 ≤ i) (hb : i < 2 ^ 32) :
    sourceToIntId g i = if g.spis < i + 32 then .err .invalidParameter else .ok (i + 32) := by
  unfold sourceToIntId
  rw [if_neg (by omega), if_neg (by omega), if_neg (by omega)]
  show (if g.spis < 32 + (i - 16 + 16) then _ else Outcome.ok (32 + (i - 16 + 16))) = _
  rw [show 32 + (i - 16 + 16) = i + 32 by omega]

theorem hw_at_some {s : Hw} {i h : Nat} : s.at i = some h ↔ s.Has i h := by
  unfold Hw.at Hw.Has
  rcases h1 : s.handlers[i]? with _ | _ | a <;> simp [Option.join]

theorem hw_at_none {s : Hw} {i : Nat} (hi : i < s.handlers.length) : s.at i = none ↔ s.Free i := by
  unfold Hw.at Hw.Free
  rw [List.getElem?_eq_getElem hi]
  cases s.handlers[i] <;> simp [Option.join]

theorem hw_has_lt {s : Hw} {i h : Nat} (hh : s.Has i h) : i < s.handlers.length := by
  unfold Hw.Has at hh
  exact (List.getElem?_eq_some_iff.1 hh).1

theorem hw_free_lt {s : Hw} {i : Nat} (hh : s.Free i) : i < s.handlers.length := by
  unfold Hw.Free at hh
  exact (List.getElem?_eq_some_iff.1 hh).1

theorem hw_register_change {s : Hw} {i : Nat} {h : Option Nat} (hn : s.inHandler = false)
    (hh : match h with | none => ∃ g, s.Has i g | some _ => s.Free i) : s.register i h = s.change i h := by
  unfold Hw.register
  cases h with
  | none =>
    obtain ⟨g, hg⟩ := hh
    rw [hn, if_neg (by simp), if_neg (Nat.not_le.2 (hw_has_lt hg)), hw_at_some.2 hg]
    rfl
  | some h =>
    rw [hn, if_neg (by simp), if_neg (Nat.not_le.2 (hw_free_lt hh)), (hw_at_none (hw_free_lt hh)).2 hh]
    rfl

theorem set_some_get {l : List (Option Nat)} {i : Nat} (h : Option Nat) (hi : i < l.length) : (l.set i h)[i]? = some h := by
  rw [List.getElem?_set_self hi]

/-- C93, for the private interrupts: registering a handler for one that has none succeeds, the handler is then the registered one, the interrupt
is enabled, and nothing changes for the others; outside handlers only. For the interrupts of devices see `shared_enables_other`. -/
theorem register_source_partial (s : Hw) (i h : Nat) (hi : i < 32) (hn : s.inHandler = false) (hf : s.Free i) :
    ∃ s', s.register i (some h) = (.ok, s') ∧ s'.Has i h ∧ s'.gic.enabled i = true ∧ SameBut s s' i := by
  rw [hw_register_change hn (h := some h) hf]
  unfold Hw.change Gic.enableSource
  rw [intid_private s.gic hi]
  refine ⟨_, rfl, ?_, ?_, ?_, ?_, fun j _ => rfl, rfl, rfl, rfl⟩
  · exact set_some_get _ (hw_free_lt hf)
  · simp [Gic.enable]
  · intro j hj
    simp only
    rw [List.getElem?_set_ne (Ne.symm hj)]
  · intro j hj
    simp [Gic.enable, hj]

/-- C93, for the private interrupts: removing the handler of one that has it succeeds, the interrupt is disabled, and nothing changes for the
others. -/
theorem unregister_source_partial (s : Hw) (i h : Nat) (hi : i < 32) (hn : s.inHandler = false) (hf : s.Has i h) :
    ∃ s', s.register i none = (.ok, s') ∧ s'.Free i ∧ s'.gic.enabled i = false ∧ SameBut s s' i := by
  rw [hw_register_change hn (h := none) ⟨h, hf⟩]
  unfold Hw.change Gic.enableSource
  rw [intid_private s.gic hi]
  refine ⟨_, rfl, ?_, ?_, ?_, ?_, fun j _ => rfl, rfl, rfl, rfl⟩
  · exact set_some_get _ (hw_has_lt hf)
  · simp [Gic.enable]
  · intro j hj
    simp only
    rw [List.getElem?_set_ne (Ne.symm hj)]
  · intro j hj
    simp [Gic.enable, hj]

/-- C93: a handler is never replaced, a missing one never removed, and sources without an entry are refused; nothing changes then. -/
theorem register_source_refused (s : Hw) (i : Nat) (hn : s.inHandler = false) :
    (∀ h g, s.Has i g → s.register i (some h) = (.err .alreadyStarted, s)) ∧
    (s.Free i → s.register i none = (.err .invalidParameter, s)) ∧
    (∀ h, s.handlers.length ≤ i → s.register i h = (.err .invalidParameter, s)) := by
  refine ⟨fun h g hg => ?_, fun hf => ?_, fun h hl => ?_⟩
  · unfold Hw.register
    rw [hn, if_neg (by simp), if_neg (Nat.not_le.2 (hw_has_lt hg)), hw_at_some.2 hg]
    rfl
  · unfold Hw.register
    rw [hn, if_neg (by simp), if_neg (Nat.not_le.2 (hw_free_lt hf)), (hw_at_none (hw_free_lt hf)).2 hf]
    rfl
  · unfold Hw.register
    rw [hn, if_neg (by simp), if_pos hl]

/-- C93, for the private interrupts: enabling, disabling and the trigger type do what they say to that interrupt and nothing else, and the state is
the one that was set. -/
theorem enable_source_partial (s : Hw) (i : Nat) (on : Bool) (hi : i < 32) :
    ∃ s', s.enable i on = (.ok, s') ∧ s'.gic.enabled i = on ∧ s'.gic.sourceState i = .ok on ∧ s'.handlers = s.handlers ∧ SameBut s s' i := by
  unfold Hw.enable Gic.enableSource
  rw [intid_private s.gic hi]
  refine ⟨_, rfl, by simp [Gic.enable], ?_, rfl, fun j _ => rfl, ?_, fun j _ => rfl, rfl, rfl, rfl⟩
  · unfold Gic.sourceState
    rw [intid_private _ hi]
    simp only [Gic.enable]
    rw [show 32 * (i / 32) + i % 32 = i by omega, if_pos rfl]
  · intro j hj
    simp [Gic.enable, hj]

/-- C93, for the private interrupts: the state read is the state of the interrupt. -/
theorem source_state_partial (g : Gic) (i : Nat) (hi : i < 32) : g.sourceState i = .ok (g.enabled i) := by
  unfold Gic.sourceState
  rw [intid_private g hi]
  simp only
  rw [show 32 * (i / 32) + i % 32 = i by omega]

/-- C93, for the private interrupts: setting the trigger type sets it, and nothing else. Reading it back: see `trigger_read`. -/
theorem set_trigger_partial (s : Hw) (i : Nat) (t : Trigger) (hi : i < 32) :
    ∃ s', s.setTrigger i t = (.ok, s') ∧ (s'.gic.edge i = true ↔ t = .edge) ∧ s'.handlers = s.handlers ∧ s'.gic.enabled = s.gic.enabled ∧ SameBut s s' i := by
  unfold Hw.setTrigger Gic.setTriggerType
  rw [intid_private s.gic hi]
  refine ⟨_, rfl, by simp [Gic.setTrigger], rfl, rfl, fun j _ => rfl, fun j _ => rfl, ?_, rfl, rfl, rfl⟩
  intro j hj
  simp [Gic.setTrigger, hj]

/-- C93, for the private interrupts: the end of an interrupt ends it and no other. -/
theorem end_source_partial (s : Hw) (i : Nat) (hi : i < 32) :
    ∃ s', s.endOf i = (.ok, s') ∧ s'.gic.active = s.gic.active.erase i ∧ s'.handlers = s.handlers ∧ s'.gic.enabled = s.gic.enabled := by
  unfold Hw.endOf Gic.endSource
  rw [intid_private s.gic hi]
  exact ⟨_, rfl, rfl, rfl, rfl⟩

/-- C93: an interrupt with a handler calls it, once and with its number. -/
theorem interrupt_calls (s : Hw) (i h : Nat) (hn : s.inHandler = false) (hh : s.Has i h) :
    ∃ s', s.interrupt i = (.ok, s') ∧ s'.calls = (i, h) :: s.calls ∧ s'.handlers = s.handlers ∧ s'.gic.enabled = s.gic.enabled ∧
      s'.gic.active = i :: s.gic.active := by
  unfold Hw.interrupt
  simp only [hn, Bool.false_eq_true, if_false, if_neg (Nat.not_le.2 (hw_has_lt hh)), hw_at_some.2 hh]
  exact ⟨_, rfl, rfl, rfl, rfl, rfl⟩

/-- C93: an interrupt that can have a handler and has none is ended and stops the system. -/
theorem interrupt_unhandled (s : Hw) (i : Nat) (hn : s.inHandler = false) (hh : s.Free i) :
    ∃ s', s.interrupt i = (.panic, s') ∧ s'.calls = s.calls ∧ s'.gic.active = s.gic.active := by
  unfold Hw.interrupt
  simp only [hn, Bool.false_eq_true, if_false, if_neg (Nat.not_le.2 (hw_free_lt hh)), (hw_at_none (hw_free_lt hh)).2 hh]
  exact ⟨_, rfl, rfl, by simp [Gic.endInterrupt]⟩

theorem change_keeps {s : Hw} {i h j : Nat} (g : Option Nat) (hh : s.Has i h) (hj : j ≠ i) :
    (s.change j g).2.Has i h ∧ (s.change j g).2.calls = s.calls := by
  refine ⟨?_, rfl⟩
  show (s.handlers.set j g)[i]? = _
  rw [List.getElem?_set_ne hj]; exact hh

theorem hw_step_keeps {s : Hw} {i h : Nat} (hh : s.Has i h) (o : HwOp) (ho : o ≠ .register i none) (hp : (s.step o).1 ≠ .panic) :
    (s.step o).2.Has i h ∧ callsFor i (s.step o).2.calls = List.replicate (signals i [o]) (i, h) ++ callsFor i s.calls := by
  cases o with
  | register j g =>
    have : (s.register j g).2.Has i h ∧ (s.register j g).2.calls = s.calls := by
      have hlt := hw_has_lt hh
      have hat := hw_at_some.2 hh
      unfold Hw.register
      split
      · exact ⟨hh, rfl⟩
      · split
        · exact ⟨hh, rfl⟩
        · split
          · exact ⟨hh, rfl⟩
          · split
            · exact ⟨hh, rfl⟩
            · rename_i h4
              by_cases hj : j = i
              · subst hj
                cases g with
                | none => exact absurd rfl ho
                | some g => rw [hat] at h4; exact absurd rfl h4
              · exact change_keeps g hh hj
    exact ⟨this.1, by rw [show s.step (.register j g) = s.register j g from rfl, this.2]; simp [signals]⟩
  | enable j on => exact ⟨hh, by simp [Hw.step, Hw.enable, signals]⟩
  | endOf j => exact ⟨hh, by simp [Hw.step, Hw.endOf, signals]⟩
  | setTrigger j t => exact ⟨hh, by simp [Hw.step, Hw.setTrigger, signals]⟩
  | finish => exact ⟨hh, by simp [Hw.step, Hw.finish, signals]⟩
  | interrupt j =>
    rw [show s.step (.interrupt j) = s.interrupt j from rfl] at hp ⊢
    have hn : s.inHandler = false := by
      cases hc : s.inHandler with
      | false => rfl
      | true => simp [Hw.interrupt, hc] at hp
    by_cases hj : j = i
    · subst hj
      obtain ⟨s', h1, h2, h3, -, -⟩ := interrupt_calls s j h hn hh
      rw [h1]
      refine ⟨?_, ?_⟩
      · show s'.handlers[j]? = _
        rw [h3]; exact hh
      · show callsFor j s'.calls = _
        rw [h2]; simp [callsFor, signals]
    · have : (s.interrupt j).2.handlers = s.handlers ∧ callsFor i (s.interrupt j).2.calls = callsFor i s.calls := by
        unfold Hw.interrupt
        simp only [hn, Bool.false_eq_true, if_false]
        split
        · exact ⟨rfl, rfl⟩
        · split
          · exact ⟨rfl, by simp [callsFor, hj]⟩
          · exact ⟨rfl, rfl⟩
      refine ⟨?_, by rw [this.2]; simp [signals, hj]⟩
      show (s.interrupt j).2.handlers[i]? = _
      rw [this.1]; exact hh

theorem signals_cons (i : Nat) (o : HwOp) (os : List HwOp) : signals i (o :: os) = signals i os + signals i [o] := by
  cases o <;> simp [signals, Nat.add_comm]

theorem hw_run_completes {s : Hw} {o : HwOp} {os : List HwOp} (hc : s.Completes (o :: os)) : s.run (o :: os) = (s.step o).2.run os := by
  obtain ⟨h1, h2, _⟩ := hc
  rw [Hw.run]
  revert h1 h2
  cases s.step o with | mk e s' => cases e <;> simp

/-- C93: the handler of an interrupt stays until it is removed, whatever else happens, and until then every signal of the interrupt calls it and
no other. -/
theorem signalled_called (ops : List HwOp) : ∀ {s : Hw} {i h : Nat}, s.Has i h → s.Completes ops → .register i none ∉ ops →
    (s.run ops).Has i h ∧ callsFor i (s.run ops).calls = List.replicate (signals i ops) (i, h) ++ callsFor i s.calls := by
  induction ops with
  | nil => intro s t h hh _ _; exact ⟨hh, by simp [Hw.run, signals]⟩
  | cons o os ih =>
    intro s t h hh hc ho
    obtain ⟨h1, h2⟩ := hw_step_keeps hh o (fun e => ho (e ▸ List.mem_cons_self ..)) hc.1
    obtain ⟨h3, h4⟩ := ih h1 hc.2.2 (fun hx => ho (List.mem_cons_of_mem _ hx))
    rw [hw_run_completes hc]
    refine ⟨h3, ?_⟩
    rw [h4, h2, ← List.append_assoc, List.replicate_append_replicate, ← signals_cons]

/-! ### What the code does to the interrupts of devices -/

/-- Registering a handler for an interrupt of a device enables another one, 32 higher, and leaves the interrupt itself as it was; so its handler
is not called. -/
theorem shared_enables_other (s : Hw) (i h : Nat) (hi : 32 ≤ i) (hb : i < 2 ^ 32) (hs : i + 32 ≤ s.gic.spis) (hn : s.inHandler = false)
    (hf : s.Free i) :
    ∃ s', s.register i (some h) = (.ok, s') ∧ s'.Has i h ∧ s'.gic.enabled (i + 32) = true ∧ s'.gic.enabled i = s.gic.enabled i := by
  rw [hw_register_change hn (h := some h) hf]
  unfold Hw.change Gic.enableSource
  rw [intid_shared s.gic hi hb, if_neg (Nat.not_lt.2 hs)]
  refine ⟨_, rfl, set_some_get _ (hw_free_lt hf), ?_, ?_⟩
  · simp [Gic.enable]
  · simp [Gic.enable]

/-- The state read is that of the interrupt, so enabling an interrupt of a device does not show. -/
theorem shared_state (s : Hw) (i : Nat) (on : Bool) (hi : 32 ≤ i) (hb : i < 2 ^ 32) (hs : i + 32 ≤ s.gic.spis) :
    (s.enable i on).1 = .ok ∧ (s.enable i on).2.gic.sourceState i = .ok (s.gic.enabled i) := by
  unfold Hw.enable Gic.enableSource
  rw [intid_shared s.gic hi hb, if_neg (Nat.not_lt.2 hs)]
  refine ⟨rfl, ?_⟩
  unfold Gic.sourceState
  rw [intid_shared _ hi hb, if_neg (Nat.not_lt.2 (by simpa [Gic.enable] using hs))]
  simp only [Gic.enable]
  rw [show 32 * (i / 32) + i % 32 = i by omega, if_neg (by omega)]

/-- Ending an interrupt of a device ends another one: it stays active. -/
theorem shared_not_ended (s : Hw) (i : Nat) (hi : 32 ≤ i) (hb : i < 2 ^ 32) (hs : i + 32 ≤ s.gic.spis) (ha : i ∈ s.gic.active) :
    (s.endOf i).1 = .ok ∧ i ∈ (s.endOf i).2.gic.active := by
  unfold Hw.endOf Gic.endSource
  rw [intid_shared s.gic hi hb, if_neg (Nat.not_lt.2 hs)]
  refine ⟨rfl, ?_⟩
  show i ∈ s.gic.active.erase (i + 32)
  rw [List.mem_erase_of_ne (by omega)]
  exact ha

/-- The handlers of the last interrupts that have an entry are registered although the call says that the parameter is invalid. -/
theorem failed_register_registers (s : Hw) (i h : Nat) (hi : 32 ≤ i) (hb : i < 2 ^ 32) (hs : s.gic.spis < i + 32) (hn : s.inHandler = false)
    (hf : s.Free i) : ∃ s', s.register i (some h) = (.err .invalidParameter, s') ∧ s'.Has i h := by
  rw [hw_register_change hn (h := some h) hf]
  unfold Hw.change Gic.enableSource
  rw [intid_shared s.gic hi hb, if_pos hs]
  exact ⟨_, rfl, set_some_get _ (hw_free_lt hf)⟩

/-- The last 32 interrupts of devices cannot have a handler: the list has as many entries as there are interrupts of devices, whose numbers start at
32. -/
theorem last_refused (g : Gic) (i : Nat) (h : Option Nat) (hi : g.spis ≤ i) : (Hw.new g).register i h = (.err .invalidParameter, Hw.new g) := by
  refine (register_source_refused (Hw.new g) i rfl).2.2 h ?_
  simpa [Hw.new] using hi

/-- Such an interrupt, once acknowledged, is never ended. -/
theorem last_not_ended (s : Hw) (i : Nat) (hn : s.inHandler = false) (hi : s.handlers.length ≤ i) :
    (s.interrupt i).1 = .ok ∧ (s.interrupt i).2.gic.active = i :: s.gic.active ∧ (s.interrupt i).2.calls = s.calls := by
  unfold Hw.interrupt
  simp [hn, hi]

/-- The trigger type read is that of another interrupt and inverted, or edge: the bit is taken to have the number of the interrupt in the group of
sixteen, though there are two bits for each. -/
theorem trigger_read (g : Gic) (i : Nat) (hok : ∃ id, sourceToIntId g i = .ok id) :
    g.getTriggerType i = .ok (if i % 2 = 1 ∧ g.edge (16 * (i / 16) + i % 16 / 2) = true then .level else .edge) := by
  obtain ⟨id, h⟩ := hok
  unfold Gic.getTriggerType
  rw [h]
  simp only [Gic.icfgrBit, Bool.and_eq_true, decide_eq_true_eq]
  rw [show i % 16 % 2 = i % 2 by omega]

/-- A handler cannot register or remove handlers. -/
theorem register_in_handler (s : Hw) (i h j : Nat) (g : Option Nat) (hn : s.inHandler = false) (hh : s.Has i h) :
    ((s.interrupt i).2.register j g).1 = .panic := by
  unfold Hw.interrupt
  simp only [hn, Bool.false_eq_true, if_false, if_neg (Nat.not_le.2 (hw_has_lt hh)), hw_at_some.2 hh]
  rfl

/-! ### A history of each -/

/-- A controller with 64 interrupts of devices. -/
def demoGic : Gic := ⟨64, fun _ => false, fun i => i == 27, []⟩
def demoHw : Hw := Hw.new demoGic
def demoHwOps : List HwOp := [.interrupt 30, .endOf 30, .finish, .register 27 none, .enable 30 false, .enable 30 true, .interrupt 30, .endOf 30, .finish]

def demoStart : Hw := (demoHw.run [.register 27 (some 4), .register 30 (some 7)])

set_option maxRecDepth 100000 in
example : demoHw.Free 30 ∧ demoStart.Has 30 7 ∧ demoStart.gic.enabled 30 = true ∧ demoStart.Completes demoHwOps ∧ .register 30 none ∉ demoHwOps ∧
    callsFor 30 (demoStart.run demoHwOps).calls = [(30, 7), (30, 7)] ∧ (demoStart.run demoHwOps).gic.active = [] := by
  have h1 : demoHw.Free 30 := by unfold Hw.Free; decide +kernel
  have h2 : demoStart.Has 30 7 := by unfold Hw.Has; decide +kernel
  have h3 : demoStart.Completes demoHwOps := by simp only [Hw.Completes, demoHwOps]; decide +kernel
  exact ⟨h1, h2, by decide +kernel, h3, by decide +kernel, by decide +kernel, by decide +kernel⟩

set_option maxRecDepth 100000 in
/-- C93 does not hold: a driver registers interrupt 40, whose device then never interrupts, and reads that it is disabled. -/
theorem device_interrupt_lost :
    (demoHw.register 40 (some 1)).1 = .err .invalidParameter ∧
    ∃ s : Hw, s = (Hw.new { demoGic with spis := 96 }) ∧ (s.register 40 (some 1)).1 = .ok ∧ (s.register 40 (some 1)).2.gic.enabled 40 = false ∧
      (s.register 40 (some 1)).2.gic.enabled 72 = true ∧ (s.register 40 (some 1)).2.gic.sourceState 40 = .ok false :=
  ⟨by decide +kernel, _, rfl, by decide +kernel, by decide +kernel, by decide +kernel, by decide +kernel⟩

set_option maxRecDepth 100000 in
/-- The trigger type set is not the one read. -/
theorem trigger_misread :
    ((demoHw.setTrigger 30 .level).2.gic.getTriggerType 30 = .ok .edge) ∧
    ((demoHw.setTrigger 27 .edge).2.gic.getTriggerType 27 = .ok .edge) ∧
    ((demoHw.setTrigger 27 .edge).2.gic.edge 27 = true) ∧
    ((demoHw.setTrigger 21 .edge).2.gic.getTriggerType 27 = .ok .level) :=
  ⟨by decide +kernel, by decide +kernel, by decide +kernel, by decide +kernel⟩

end Verif.Interrupt
