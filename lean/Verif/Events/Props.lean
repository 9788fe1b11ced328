import Verif.Events.History
/-!
Properties C05, C06, C08, C09 and C10 of the event database.

`Reachable s`: `s` is the state after some sequence of calls from the empty database.
`s.inflight` lists the NOTIFY_SIGNAL events whose notification has been handed out by
`consume_next_event_notify` and is about to be run.
-/
namespace Verif.Events

/-- Number of notifications of event `id` that have been queued and not run yet. -/
def undelivered (s : HState) (id : Nat) : Nat :=
  (s.db.pending.filter (fun n => n.event == id)).length + (s.inflight.filter (fun i => i == id)).length

/-! ### C05 -/

theorem undelivered_eq (s : HState) (id : Nat) : undelivered s id = pcount s.db.pending id + s.inflight.count id := by
  unfold undelivered pcount List.count
  rw [List.countP_eq_length_filter, List.countP_eq_length_filter]

/-- In every reachable state a NOTIFY_SIGNAL event has exactly one undelivered notification if it is signalled and
none otherwise. -/
theorem undelivered_iff_signaled {s : HState} (h : Reachable s) {id : Nat} {e : Event} (he : s.db.get id = some e)
    (hns : isNotifySignal e.type = true) : undelivered s id = if e.signaled then 1 else 0 := by
  have := h.inv.ns e (get_mem he) hns
  rw [get_id he] at this
  rw [undelivered_eq]; exact this

/-- Signalling succeeds, sets the signalled state, and leaves exactly one undelivered notification of a
NOTIFY_SIGNAL event. -/
theorem signal_queues_once {s : HState} (h : Reachable s) {id : Nat} {e : Event} (he : s.db.get id = some e) :
    (s.db.signal id).1 = .ok () ∧ (s.db.signal id).2.isSignaled id = true ∧
    (isNotifySignal e.type = true → undelivered (s.step (.signal id)) id = 1) := by
  have hr : Reachable (s.step (.signal id)) := by
    obtain ⟨miss, ops, rfl⟩ := h
    exact ⟨miss, ops ++ [.signal id], by simp [HState.run]⟩
  have hok : (s.db.signal id).1 = .ok () := by
    unfold Db.signal; rw [he]; dsimp only
    split
    · rfl
    · cases e.group <;> rfl
  have hget : ∃ e', (s.db.signal id).2.get id = some e' ∧ e'.signaled = true ∧ e'.type = e.type := by
    cases hs : e.signaled with
    | true =>
      refine ⟨e, ?_, hs, rfl⟩
      unfold Db.signal; rw [he]; simp [hs, he]
    | false =>
      rw [signal_get s.db id id he hs, he]
      exact ⟨_, rfl, by simp, by simp⟩
  obtain ⟨e', he', hs', ht'⟩ := hget
  refine ⟨hok, by unfold Db.isSignaled; rw [he']; exact hs', ?_⟩
  intro hns
  have := undelivered_iff_signaled hr (id := id) (e := e') he' (by rw [ht']; exact hns)
  rw [hs'] at this; exact this

/-- Signalling an event that is already signalled changes nothing. -/
theorem signal_again (s : HState) {id : Nat} {e : Event} (he : s.db.get id = some e) (hs : e.signaled = true) :
    s.db.signal id = (.ok (), s.db) := by
  unfold Db.signal; rw [he]; simp [hs]

/-- A queued notification carries the TPL, function and context of its event. -/
theorem notification_matches {s : HState} (h : Reachable s) {n : Note} (hn : n ∈ s.db.pending) {e : Event}
    (he : s.db.get n.event = some e) : n.tpl = e.tpl ∧ n.fn = e.fn ∧ n.ctx = e.ctx :=
  h.inv.pmatch n hn e (get_mem he) (get_id he)

/-- A queued notification of an existing event is never lost: whatever is done next, it is still queued, or it is the
one that was handed out. -/
theorem notification_kept (s : HState) (op : Op) {n : Note} (hn : n ∈ s.db.pending)
    (hv : s.db.isValid n.event = true) :
    n ∈ (s.step op).db.pending ∨ ∃ l, op = .consume l ∧ (s.db.consume l).1 = some n := by
  by_cases hc : ∃ l, op = .consume l
  · obtain ⟨l, rfl⟩ := hc
    obtain ⟨dead, rest, hp, hd, hc⟩ := consume_cases s.db l
    have hnr : n ∈ rest := by
      rw [hp] at hn
      rcases List.mem_append.1 hn with h | h
      · rw [hd n h] at hv; cases hv
      · exact h
    rcases hc with ⟨hr, heq⟩ | ⟨m, tl, hr, hv, ⟨hl, heq⟩ | ⟨hl, heq⟩⟩
    · rw [hr] at hnr; cases hnr
    · left
      show n ∈ (s.db.consume l).2.pending
      rw [heq]; rw [hr] at hnr; exact hnr
    · rw [hr] at hnr
      rcases List.mem_cons.1 hnr with rfl | hnr
      · right; exact ⟨l, rfl, by rw [heq]⟩
      · left
        show n ∈ (s.db.consume l).2.pending
        rw [heq]; exact hnr
  · left
    exact (step_mono s op).2.2.2 (fun l hl => hc ⟨l, hl⟩) n hn

/-! ### C06 -/

/-- What is handed out is above the level, has the highest TPL of all pending notifications of existing events, and is
the oldest of those with its TPL; everything else stays queued. -/
theorem consume_highest_oldest {s : HState} (h : Reachable s) {lvl : Nat} {n : Note}
    (hc : (s.db.consume lvl).1 = some n) :
    n ∈ s.db.pending ∧ s.db.isValid n.event = true ∧ lvl < n.tpl ∧
    (∀ m ∈ s.db.pending, s.db.isValid m.event = true → m.tpl ≤ n.tpl ∧ (m.tpl = n.tpl → n.tag ≤ m.tag)) ∧
    (∀ m ∈ s.db.pending, s.db.isValid m.event = true → m ≠ n → m ∈ (s.db.consume lvl).2.pending) := by
  obtain ⟨hv, hl, hm⟩ := consume_valid hc
  refine ⟨hm, hv, hl, ?_, ?_⟩
  · obtain ⟨dead, rest, hp, hd, hcs⟩ := consume_cases s.db lvl
    rcases hcs with ⟨hr, heq⟩ | ⟨x, tl, hr, hv, ⟨hl, heq⟩ | ⟨hl, heq⟩⟩
    · rw [heq] at hc; cases hc
    · rw [heq] at hc; cases hc
    · rw [heq] at hc; cases hc
      intro m hm hmv
      have hps := h.inv.psorted
      rw [hp, hr] at hps
      have hps' := (List.pairwise_append.1 hps).2.1
      rw [hp, hr] at hm
      rcases List.mem_append.1 hm with hm | hm
      · rw [hd m hm] at hmv; cases hmv
      · rcases List.mem_cons.1 hm with rfl | hm
        · exact ⟨Nat.le_refl _, fun _ => Nat.le_refl _⟩
        · have := (List.pairwise_cons.1 hps').1 m hm
          simp only [Note.before, Bool.or_eq_true, decide_eq_true_eq, Bool.and_eq_true, beq_iff_eq] at this
          omega
  · intro m hm hmv hne
    rcases notification_kept s (.consume lvl) hm hmv with h | ⟨l, hl, h⟩
    · exact h
    · cases hl
      rw [hc] at h; cases h
      exact absurd rfl hne

/-- Nothing is handed out only if no pending notification of an existing event is above the level. -/
theorem consume_none (s : HState) (h : Reachable s) {lvl : Nat} (hc : (s.db.consume lvl).1 = none) :
    ∀ m ∈ s.db.pending, s.db.isValid m.event = true → m.tpl ≤ lvl := by
  intro m hm hmv
  obtain ⟨dead, rest, hp, hd, hcs⟩ := consume_cases s.db lvl
  have hps := h.inv.psorted
  rw [hp] at hm hps
  have hmr : m ∈ rest := by
    rcases List.mem_append.1 hm with hm | hm
    · rw [hd m hm] at hmv; cases hmv
    · exact hm
  rcases hcs with ⟨hr, heq⟩ | ⟨x, tl, hr, hv, ⟨hl, heq⟩ | ⟨hl, heq⟩⟩
  · rw [hr] at hmr; cases hmr
  · rw [hr] at hmr hps
    have hps' := (List.pairwise_append.1 hps).2.1
    rcases List.mem_cons.1 hmr with rfl | hmr
    · exact hl
    · have := (List.pairwise_cons.1 hps').1 m hmr
      simp only [Note.before, Bool.or_eq_true, decide_eq_true_eq, Bool.and_eq_true, beq_iff_eq] at this
      omega
  · rw [heq] at hc; cases hc

/-- First in, first out: if `x` was already queued at a moment when `y` (of the same TPL) was not, then as
long as `x` is still queued and its event exists, `y` is not handed out. -/
theorem consume_fifo {s : HState} (h : Reachable s) (ops : List Op) {x y : Note} {lvl : Nat}
    (hx : x ∈ s.db.pending) (hy : y ∉ s.db.pending) (htpl : x.tpl = y.tpl)
    (hx' : x ∈ (s.run ops).db.pending) (hv : (s.run ops).db.isValid x.event = true) :
    ((s.run ops).db.consume lvl).1 ≠ some y := by
  intro hc
  have hr : Reachable (s.run ops) := by
    obtain ⟨miss, ops0, rfl⟩ := h
    exact ⟨miss, ops0 ++ ops, by simp [HState.run]⟩
  obtain ⟨hym, _, _, hall, _⟩ := consume_highest_oldest hr hc
  have h1 := (hall x hx' hv).2 htpl
  have h2 := h.inv.tags x hx
  rcases (run_mono s ops).2.2 y hym with h3 | h3
  · exact hy h3
  · omega

/-! ### C08 -/

/-- Signalling an unsignalled event of group `g` marks every event of the group and nothing else; exactly the
NOTIFY_SIGNAL members that were not signalled get a notification, one each. -/
theorem signal_group_spec {s : HState} (h : Reachable s) {id g : Nat} {e : Event} (he : s.db.get id = some e)
    (hs : e.signaled = false) (hg : e.group = some g) :
    (∀ j, (s.db.signal id).2.get j =
      (s.db.get j).map (fun x => if x.group = some g then { x with signaled := true } else x)) ∧
    (∀ n ∈ s.db.pending, n ∈ (s.db.signal id).2.pending) ∧
    (∀ n ∈ (s.db.signal id).2.pending, n ∈ s.db.pending ∨
      ∃ x, s.db.get n.event = some x ∧ x.group = some g ∧ isNotifySignal x.type = true ∧ x.signaled = false) ∧
    (∀ j x, s.db.get j = some x → x.group = some g → isNotifySignal x.type = true → x.signaled = false →
      ((s.db.signal id).2.pending.filter (fun n => n.event == j)).length = 1) := by
  have hsig : (s.db.signal id).2 = s.db.signalGroup g := by
    unfold Db.signal; rw [he]; simp [hs, hg]
  rw [hsig]
  refine ⟨fun j => signalGroup_get s.db g j, (Frame.signalGroup s.db g).sub, signalGroup_new s.db g, ?_⟩
  intro j x hj hxg hns hxs
  have h0 := h.inv.ns x (get_mem hj) hns
  simp only [hxs, Bool.false_eq_true, if_false] at h0
  have hinv := h.inv.signalGroup g
  have hget : (s.db.signalGroup g).get j = some { x with signaled := true } := by
    rw [signalGroup_get, hj]; simp [hxg]
  have h1 := hinv.ns _ (get_mem hget) hns
  simp only [if_true] at h1
  rw [get_id hj] at h0 h1
  show ((s.db.signalGroup g).pending.filter (fun n => n.event == j)).length = 1
  rw [← List.countP_eq_length_filter]
  show pcount (s.db.signalGroup g).pending j = 1
  omega

/-- Signalling an ungrouped event changes that event only. -/
theorem signal_ungrouped_spec (s : HState) {id : Nat} {e : Event} (he : s.db.get id = some e)
    (hs : e.signaled = false) (hg : e.group = none) :
    (∀ j, (s.db.signal id).2.get j = (s.db.get j).map (fun x => if j = id then { x with signaled := true } else x)) ∧
    (∀ n ∈ (s.db.signal id).2.pending, n ∈ s.db.pending ∨ n.event = id) ∧
    (isNotifySignal e.type = false → (s.db.signal id).2.pending = s.db.pending) := by
  refine ⟨?_, ?_, ?_⟩
  · intro j
    rw [signal_get s.db id j he hs]; simp [hg]
  · intro n hn
    have hsig : (s.db.signal id).2 = s.db.signalOne e := by
      unfold Db.signal; rw [he]; simp [hs, hg]
    rw [hsig] at hn
    unfold Db.signalOne at hn
    dsimp only at hn
    split at hn
    · have hn : n ∈ queueNote s.db.miss s.db.pending e s.db.tags := hn
      unfold queueNote at hn
      split at hn
      · rcases mem_insertPending hn with rfl | h
        · right; exact get_id he
        · exact Or.inl h
      · exact Or.inl hn
    · exact Or.inl hn
  · intro hns
    have hsig : (s.db.signal id).2 = s.db.signalOne e := by
      unfold Db.signal; rw [he]; simp [hs, hg]
    rw [hsig]; unfold Db.signalOne; simp [hns]; rfl

/-! ### C09 -/

/-- The state of every event after a tick at time `now`: a due timer is re-armed one period later (disarmed when it
has no period), no other trigger time changes; it is signalled iff it was, or it was due, or an unsignalled due
timer of its group was. -/
theorem tick_spec {s : HState} (h : Reachable s) (now j : Nat) {e : Event} (he : s.db.get j = some e) :
    ∃ e', (s.db.tick now).get j = some e' ∧
      (∃ sg tr, e' = { e with signaled := sg, trigger := tr }) ∧
      (∀ t, isTimer e.type = true → e.trigger = some t → t ≤ now → e'.trigger = e.period.map (now + ·) ∧ e'.signaled = true) ∧
      (¬ (isTimer e.type = true ∧ ∃ t, e.trigger = some t ∧ t ≤ now) → e'.trigger = e.trigger) ∧
      (e'.signaled = true ↔ e.signaled = true ∨ (isTimer e.type = true ∧ ∃ t, e.trigger = some t ∧ t ≤ now) ∨
        ∃ m x g t, s.db.get m = some x ∧ x.group = some g ∧ e.group = some g ∧ x.signaled = false ∧
          isTimer x.type = true ∧ x.trigger = some t ∧ t ≤ now) := by
  have hdue : ∀ x : Event, x.due now = true ↔ isTimer x.type = true ∧ ∃ t, x.trigger = some t ∧ t ≤ now := by
    intro x
    unfold Event.due
    cases x.trigger with
    | none => simp
    | some t => simp
  have hmem : e.id ∈ (s.db.events.map (·.id)).reverse := by rw [get_id he]; exact mem_ids he
  refine ⟨_, by rw [tick_get h.inv.sorted, he]; rfl, ⟨_, _, rfl⟩, ?_, ?_, ?_⟩
  · intro t h1 h2 h3
    have : e.due now = true := (hdue e).2 ⟨h1, t, h2, h3⟩
    have hm := hmem
    rw [List.mem_reverse] at hm
    simp only [tickEvent, hmem, this, and_self, if_true, decide_true, Bool.true_and, Bool.or_true, Bool.true_or]
  · intro hn
    have : e.due now = false := by
      cases hd : e.due now with
      | false => rfl
      | true => exact absurd ((hdue e).1 hd) hn
    simp [tickEvent, this]
  · simp only [tickEvent, hmem, decide_true, Bool.true_and, Bool.or_eq_true, hdue, groupHit_iff, or_assoc]
    constructor
    · rintro (h | h | ⟨m, x, h1, ⟨h2, t, h3, h4⟩, h5, h6, h7⟩)
      · exact Or.inl h
      · exact Or.inr (Or.inl h)
      · obtain ⟨g, hg⟩ := Option.isSome_iff_exists.1 h6
        exact Or.inr (Or.inr ⟨m, x, g, t, h1, hg, h7 ▸ hg, h5, h2, h3, h4⟩)
    · rintro (h | h | ⟨m, x, g, t, h1, h2, h3, h4, h5, h6, h7⟩)
      · exact Or.inl h
      · exact Or.inr (Or.inl h)
      · exact Or.inr (Or.inr ⟨m, x, h1, ⟨h5, t, h6, h7⟩, h4, by rw [h2]; rfl, h2.trans h3.symm⟩)

/-- Setting a timer stores exactly the requested trigger time and period, for timer events only. -/
theorem setTimer_spec (s : HState) {id : Nat} {e : Event} (d : Delay) (t p : Option Nat)
    (he : s.db.get id = some e) :
    ((s.db.setTimer id d t p).1 = .ok () →
      isTimer e.type = true ∧ (s.db.setTimer id d t p).2.get id = some { e with trigger := t, period := p }) ∧
    ((s.db.setTimer id d t p).1 ≠ .ok () → (s.db.setTimer id d t p).2 = s.db) ∧
    (∀ j, j ≠ id → (s.db.setTimer id d t p).2.get j = s.db.get j) ∧
    (isTimer e.type = true → (s.db.setTimer id .cancel none none).1 = .ok ()) := by
  unfold Db.setTimer
  rw [he]
  dsimp only
  by_cases h1 : isTimer e.type = true
  · by_cases h2 : delayOk d t p = true
    · rw [if_neg (by simp [h1]), if_neg (by simp [h2])]
      refine ⟨fun _ => ⟨h1, ?_⟩, fun h => absurd rfl h, ?_, ?_⟩
      · rw [get_modify s.db id id (fun e => { e with trigger := t, period := p }) (fun _ => rfl), he]; simp
      · intro j hj
        rw [get_modify s.db id j (fun e => { e with trigger := t, period := p }) (fun _ => rfl)]
        cases s.db.get j <;> simp [hj]
      · intro _; simp [h1, delayOk]
    · rw [if_neg (by simp [h1]), if_pos (by simp [h2])]
      exact ⟨fun h => (by cases h), fun _ => rfl, fun _ _ => rfl, fun _ => by simp [h1, delayOk]⟩
  · rw [if_pos h1]
    exact ⟨fun h => (by cases h), fun _ => rfl, fun _ _ => rfl, fun h => absurd h h1⟩

/-- Exactly these requests are accepted for a timer event: cancel without times, periodic with both times,
relative with a trigger time only. -/
theorem setTimer_accepts (s : HState) {id : Nat} {e : Event} (d : Delay) (t p : Option Nat)
    (he : s.db.get id = some e) (ht : isTimer e.type = true) :
    (s.db.setTimer id d t p).1 = .ok () ↔
      (d = .cancel ∧ t = none ∧ p = none) ∨ (d = .periodic ∧ t ≠ none ∧ p ≠ none) ∨
      (d = .relative ∧ t ≠ none ∧ p = none) := by
  unfold Db.setTimer
  rw [he]
  dsimp only
  rw [if_neg (by simp [ht])]
  cases d <;> cases t <;> cases p <;> simp [delayOk]

/-- A timer that has been cancelled (or has fired once) stays disarmed through any further operations that do not set
it again ... -/
theorem disarmed_stays {s : HState} (h : Reachable s) (ops : List Op) {id : Nat} {e : Event}
    (he : s.db.get id = some e) (ht : e.trigger = none) (hops : ∀ op ∈ ops, ∀ d t p, op ≠ .setTimer id d t p) :
    ∀ e', (s.run ops).db.get id = some e' → e'.trigger = none := by
  have hinv := h.inv
  clear h
  unfold HState.run
  induction ops generalizing s e with
  | nil => intro e' he'; rw [List.foldl_nil, he] at he'; cases he'; exact ht
  | cons op ops ih =>
    intro e' he'
    rw [List.foldl_cons] at he'
    rcases step_disarmed hinv op (hops op (by simp)) he ht with ⟨x, hx, hxt⟩ | hx
    · exact ih hx hxt (fun o ho => hops o (by simp [ho])) (hinv.step op) e' he'
    · have hid : id < (s.step op).db.nextId := by
        have h1 := hinv.ids e (get_mem he)
        rw [get_id he] at h1
        exact Nat.lt_of_lt_of_le h1 (step_mono s op).1
      have := run_dead (s.step op) ops hid hx
      unfold HState.run at this
      rw [this] at he'; cases he'

/-- ... and no tick signals it. -/
theorem cancelled_never_fires {s : HState} (h : Reachable s) (ops : List Op) {id : Nat} {e : Event}
    (he : s.db.get id = some e) (ht : e.trigger = none)
    (hops : ∀ op ∈ ops, ∀ d t p, op ≠ .setTimer id d t p) (now : Nat) {e' : Event}
    (he' : (s.run ops).db.get id = some e') (hg' : e'.group = none) :
    ((s.run ops).db.tick now).get id = some e' := by
  have hr : Reachable (s.run ops) := by
    obtain ⟨miss, ops0, rfl⟩ := h
    exact ⟨miss, ops0 ++ ops, by simp [HState.run]⟩
  have h0 := disarmed_stays h ops he ht hops e' he'
  rw [tick_get hr.inv.sorted, he']
  have hd : e'.due now = false := by simp [Event.due, h0]
  have hgh : groupHit (s.run ops).db now ((s.run ops).db.events.map (·.id)).reverse e' = false := by
    cases hb : groupHit (s.run ops).db now ((s.run ops).db.events.map (·.id)).reverse e' with
    | false => rfl
    | true =>
      obtain ⟨m, x, _, _, _, h5, h6⟩ := (groupHit_iff _ _ _).1 hb
      rw [hg'] at h6; rw [h6] at h5; cases h5
  simp [tickEvent, hd, hgh]

/-! ### C10 -/

/-- Closing an existing (non-runtime) event succeeds; whatever is done afterwards, the handle stays unknown, every
operation on it is refused, and its notification is never handed out. -/
theorem closed_is_dead {s : HState} (h : Reachable s) {id : Nat} {e : Event} (he : s.db.get id = some e)
    (ops : List Op) :
    (s.db.close id).1 = .ok () ∧
    let s' := (s.step (.close id)).run ops
    s'.db.isValid id = false ∧
    (s'.db.close id).1 = .err .invalidParameter ∧
    (s'.db.signal id) = (.err .invalidParameter, s'.db) ∧
    (∀ d t p, s'.db.setTimer id d t p = (.err .invalidParameter, s'.db)) ∧
    (s'.db.getType id) = .err .invalidParameter ∧
    (s'.db.queueNotify id) = (.err .invalidParameter, s'.db) ∧
    (∀ lvl n, (s'.db.consume lvl).1 = some n → n.event ≠ id) := by
  have hlt : id < s.db.nextId := by
    have := h.inv.ids e (get_mem he); rwa [get_id he] at this
  have hrt : id < RT_EVENT := Nat.lt_of_lt_of_le hlt h.inv.next
  have hok : (s.db.close id).1 = .ok () := by
    unfold Db.close; rw [if_neg (by omega), he]
  refine ⟨hok, ?_⟩
  intro s'
  have hn0 : (s.step (.close id)).db.get id = none := by
    show (s.db.close id).2.get id = none
    rw [close_get, if_pos ⟨rfl, hrt⟩]
  have hlt' : id < (s.step (.close id)).db.nextId := Nat.lt_of_lt_of_le hlt (step_mono s _).1
  have hn : s'.db.get id = none := run_dead _ ops hlt' hn0
  refine ⟨?_, ?_, ?_, ?_, ?_, ?_, ?_⟩
  · unfold Db.isValid; rw [hn]; rfl
  · unfold Db.close; rw [if_neg (by omega), hn]
  · unfold Db.signal; rw [hn]
  · intro d t p; unfold Db.setTimer; rw [hn]
  · unfold Db.getType; rw [hn]
  · unfold Db.queueNotify; rw [hn]
  · intro lvl n hc hid
    have := (consume_valid hc).1
    rw [hid] at this; unfold Db.isValid at this; rw [hn] at this; cases this

/-- A handle returned by create is never returned again. -/
theorem handles_not_recycled {s : HState} (h : Reachable s) (ty tpl : Nat) (fn ctx g : Option Nat) {id : Nat}
    (hc : (s.db.create ty tpl fn ctx g).1 = .ok id) (ops : List Op) (ty' tpl' : Nat) (fn' ctx' g' : Option Nat) :
    (((s.step (.create ty tpl fn ctx g)).run ops).db.create ty' tpl' fn' ctx' g').1 ≠ .ok id := by
  have key : ∀ (db : Db) (ty tpl : Nat) (fn ctx g : Option Nat) (id : Nat), (db.create ty tpl fn ctx g).1 = .ok id →
      (id = db.nextId ∨ id = db.nextId + RT_EVENT) ∧ db.nextId ≠ RT_EVENT ∧
      (db.create ty tpl fn ctx g).2.nextId = db.nextId + 1 := by
    intro db ty tpl fn ctx g id hc
    unfold Db.create at hc ⊢
    split at hc
    · cases hc
    rename_i hne
    rw [if_neg hne]
    dsimp only at hc ⊢
    split at hc
    · rename_i hr
      rw [if_pos hr]
      cases fn with
      | none => cases hc
      | some f => cases hc; exact ⟨Or.inr rfl, hne, rfl⟩
    · rename_i hr
      rw [if_neg hr]
      cases hnew : Event.new db.nextId ty tpl fn ctx g with
      | err e => rw [hnew] at hc; cases hc
      | panic => rw [hnew] at hc; cases hc
      | ok e => rw [hnew] at hc; cases hc; simp only [if_neg hr, hnew]; exact ⟨Or.inl trivial, hne, trivial⟩
  intro hc'
  obtain ⟨h1, h2, h3⟩ := key _ _ _ _ _ _ _ hc
  obtain ⟨h4, h5, _⟩ := key _ _ _ _ _ _ _ hc'
  have hm := (run_mono (s.step (.create ty tpl fn ctx g)) ops).1
  have hm' : s.db.nextId + 1 ≤ ((s.step (.create ty tpl fn ctx g)).run ops).db.nextId := by
    rw [← h3]; exact hm
  have hle := (Inv.run (h.inv.step (.create ty tpl fn ctx g)) ops).next
  omega

/-- A created event (not a runtime one) is visible with the requested attributes, unsignalled and disarmed; events that
existed keep their state. -/
theorem create_spec {s : HState} (h : Reachable s) (ty tpl : Nat) (fn ctx g : Option Nat) {id : Nat}
    (hc : (s.db.create ty tpl fn ctx g).1 = .ok id) (hid : id < RT_EVENT) :
    s.db.get id = none ∧
    (s.db.create ty tpl fn ctx g).2.get id = some ⟨id, ty, g, false, tpl, fn, ctx, none, none⟩ ∧
    ∀ j x, s.db.get j = some x → (s.db.create ty tpl fn ctx g).2.get j = some x := by
  have hold : ∀ j x, s.db.get j = some x → (s.db.create ty tpl fn ctx g).2.get j = some x := by
    intro j x hj
    have := h.inv.ids x (get_mem hj)
    rw [get_id hj] at this
    rw [create_get_old _ _ _ _ _ _ this, hj]
  have hnone : s.db.get s.db.nextId = none := by
    cases hg : s.db.get s.db.nextId with
    | none => rfl
    | some x =>
      have := h.inv.ids x (get_mem hg)
      rw [get_id hg] at this; omega
  refine ⟨?_, ?_, hold⟩
  all_goals
    unfold Db.create at hc
    split at hc
    · cases hc
    rename_i hne
    dsimp only at hc
    split at hc
    · cases fn with
      | none => cases hc
      | some f => cases hc; omega
    · rename_i hr
      cases hnew : Event.new s.db.nextId ty tpl fn ctx g with
      | err e => rw [hnew] at hc; cases hc
      | panic => rw [hnew] at hc; cases hc
      | ok e =>
        rw [hnew] at hc; cases hc
        first
          | exact hnone
          | (have he := (event_new_ok hnew).1
             unfold Db.create
             rw [if_neg hne]
             dsimp only
             simp only [if_neg hr, hnew]
             show (s.db.events ++ [e]).find? _ = _
             have hnone' : s.db.events.find? (fun e => e.id == s.db.nextId) = none := hnone
             rw [List.find?_append, hnone', he]
             simp)

/-! ### Findings -/

/-- A group of two NOTIFY_SIGNAL timers; event 1 is already signalled through check. -/
def sampleOps : List Op :=
  [.create (EVT_TIMER + EVT_NOTIFY_SIGNAL) 8 (some 1) none (some 7),
   .create EVT_NOTIFY_SIGNAL 16 (some 2) none (some 7),
   .create EVT_NOTIFY_SIGNAL 16 (some 3) none none,
   .create EVT_NOTIFY_WAIT 8 (some 4) none (some 7)]

def sample : HState := HState.run ⟨Db.init (fun _ => false), []⟩ sampleOps

theorem sample_reachable (ops : List Op) : Reachable (sample.run ops) :=
  ⟨fun _ => false, sampleOps ++ ops, by simp [sample, HState.run]⟩

/-- Signalling an already signalled member does not reach members that joined the group in the meantime: the
claim "signalling any member marks all members" needs the member to be unsignalled. -/
theorem already_signaled_member_hides_group :
    ∃ s id j e x, Reachable s ∧ s.db.get id = some e ∧ s.db.get j = some x ∧ e.group = some 7 ∧ x.group = some 7 ∧
      (s.db.signal id).2.isSignaled j = false :=
  ⟨sample.run [.signal 1, .create EVT_NOTIFY_SIGNAL 16 (some 5) none (some 7)], 1, 5, _, _, sample_reachable _,
    rfl, rfl, rfl, rfl, by decide⟩

/-- Closing a runtime event handle that was never created reports success. -/
theorem close_unknown_runtime_ok : ∀ (db : Db) (k : Nat), (db.close (RT_EVENT + k)).1 = .ok () := by
  intro db k
  unfold Db.close; rw [if_pos (by omega)]

/-- A runtime event is never notified while boot services last: the database does not know it, so signalling it is refused and signalling its group
(also the one of ExitBootServices) queues nothing for it. -/
theorem runtime_event_never_notified {s : HState} (h : Reachable s) (k : Nat) :
    (s.db.signal (RT_EVENT + k)).1 = .err .invalidParameter ∧ ∀ n ∈ s.db.pending, n.event ≠ RT_EVENT + k := by
  constructor
  · have : s.db.get (RT_EVENT + k) = none := by
      cases hg : s.db.get (RT_EVENT + k) with
      | none => rfl
      | some x =>
        have h1 := h.inv.ids x (get_mem hg)
        have h2 := h.inv.next
        rw [get_id hg] at h1; omega
    unfold Db.signal
    rw [this]
  · intro n hn
    have h1 := (h.inv.pev n hn).1
    have h2 := h.inv.next
    omega

/-- Such an event can be created in any group. -/
example : (sample.db.create (EVT_RUNTIME + EVT_NOTIFY_SIGNAL) 8 (some 1) none (some 7)).1 = .ok (5 + RT_EVENT) := by decide

/-! ### What can be created -/

/-- The events that are queued when they are signalled: those of a type with EVT_NOTIFY_WAIT or EVT_NOTIFY_SIGNAL, in the numbers of UEFI. -/
theorem notifiable_iff (e : Event) : notifiable e ↔ e.type &&& 0x100 ≠ 0 ∨ e.type &&& 0x200 ≠ 0 := by
  simp [notifiable, isNotifySignal, isNotifyWait, EVT_NOTIFY_SIGNAL, EVT_NOTIFY_WAIT, or_comm]

/-- What CreateEvent and CreateEventEx accept, other than runtime events: the six types of UEFI, with a function and a level between 5 and 31 if the event notifies. -/
theorem create_accepts (db : Db) (h : db.nextId ≠ 2 ^ 63) (ty tpl : Nat) (fn ctx g : Option Nat) (hr : ty &&& 0x40000000 = 0) (hg : g ≠ some GROUP_VIRTUAL_ADDRESS_CHANGE) :
    (∃ id, (db.create ty tpl fn ctx g).1 = .ok id) ↔
      (ty = 0 ∨ ty = 0x80000000) ∨ (ty = 0x100 ∨ ty = 0x200 ∨ ty = 0x80000100 ∨ ty = 0x80000200) ∧ fn.isSome = true ∧ 5 ≤ tpl ∧ tpl ≤ 31 := by
  have hrt : (ty &&& EVT_RUNTIME != 0 || g == some GROUP_VIRTUAL_ADDRESS_CHANGE) = false := by
    simp [EVT_RUNTIME, hr, hg]
  have hv : validType ty = true ↔ (ty = 0 ∨ ty = 0x80000000) ∨ (ty = 0x100 ∨ ty = 0x200 ∨ ty = 0x80000100 ∨ ty = 0x80000200) := by
    simp only [validType, Bool.or_eq_true, beq_iff_eq, EVT_TIMER, EVT_NOTIFY_SIGNAL, EVT_NOTIFY_WAIT]
    omega
  have hnew : (db.create ty tpl fn ctx g).1 = .ok db.nextId ∧ (∃ e, Event.new db.nextId ty tpl fn ctx g = .ok e) ∨
      (∀ id, (db.create ty tpl fn ctx g).1 ≠ .ok id) ∧ ¬ ∃ e, Event.new db.nextId ty tpl fn ctx g = .ok e := by
    unfold Db.create
    rw [if_neg (show ¬ db.nextId = RT_EVENT from h)]
    simp only [hrt]
    cases hn : Event.new db.nextId ty tpl fn ctx g <;> simp [hn]
  have hiff : (∃ id, (db.create ty tpl fn ctx g).1 = .ok id) ↔ ∃ e, Event.new db.nextId ty tpl fn ctx g = .ok e := by
    rcases hnew with ⟨h1, h2⟩ | ⟨h1, h2⟩
    · exact ⟨fun _ => h2, fun _ => ⟨_, h1⟩⟩
    · exact ⟨fun ⟨id, hi⟩ => absurd hi (h1 id), fun hx => absurd hx h2⟩
  rw [hiff]
  clear hiff hnew
  unfold Event.new
  by_cases hvt : validType ty = true
  · rcases hv.1 hvt with (rfl | rfl) | (rfl | rfl | rfl | rfl) <;>
      cases fn <;> simp [validType, EVT_TIMER, EVT_NOTIFY_SIGNAL, EVT_NOTIFY_WAIT, TPL_APPLICATION, TPL_HIGH_LEVEL] <;>
      (by_cases h5 : 5 ≤ tpl <;> by_cases h31 : tpl ≤ 31 <;> simp [h5, h31])
  · simp only [hvt]
    have := mt hv.2 hvt
    simp
    grind

/-- A runtime event is accepted if it has a function. -/
theorem create_runtime_accepts (db : Db) (h : db.nextId ≠ 2 ^ 63) (ty tpl : Nat) (fn ctx g : Option Nat) (hr : ty &&& 0x40000000 ≠ 0) :
    (∃ id, (db.create ty tpl fn ctx g).1 = .ok id) ↔ fn.isSome = true := by
  have hrt : (ty &&& EVT_RUNTIME != 0 || g == some GROUP_VIRTUAL_ADDRESS_CHANGE) = true := by
    simp [EVT_RUNTIME, hr]
  unfold Db.create
  rw [if_neg (show ¬ db.nextId = RT_EVENT from h)]
  simp only [hrt]
  cases fn <;> simp

/-! ### The hypotheses are met -/

example : ∃ id, (sample.db.create 0x80000200 8 (some 1) none none).1 = .ok id := (create_accepts _ (by decide) _ _ _ _ _ (by decide) (by decide)).2 (.inr (by decide))
example : ∃ id, (sample.db.create 0x40000200 8 (some 1) none none).1 = .ok id := (create_runtime_accepts _ (by decide) _ _ _ _ _ (by decide)).2 rfl

-- C05: two NOTIFY_SIGNAL events queued, one consumed, one pending
example : (sample.run [.signal 1, .signal 3]).db.pending.length = 3 := by decide
example : undelivered (sample.run [.signal 3, .signal 3]) 3 = 1 := by decide
example : undelivered (sample.run [.signal 3, .consume 4]) 3 = 1 ∧
    undelivered (sample.run [.signal 3, .consume 4, .clear 3]) 3 = 0 := by decide
-- C06: event 2 and 3 (TPL 16) before event 1 (TPL 8)
example : (((sample.run [.signal 3, .signal 1]).db.consume 4).1.map (·.event)) = some 3 := by decide
example : (((sample.run [.signal 1, .signal 3, .consume 4]).db.consume 4).1.map (·.event)) = some 3 := by decide
example : ((sample.run [.signal 1]).db.consume 16).1 = none := by decide
-- C08: the group has three members, one of them not NOTIFY_SIGNAL
example : (sample.db.get 1).map (·.group) = some (some 7) ∧ (sample.db.get 1).map (·.signaled) = some false := by decide
-- C09
example : (sample.run [.setTimer 1 .periodic (some 10) (some 10), .tick 12]).db.get 1 =
    some ⟨1, EVT_TIMER + EVT_NOTIFY_SIGNAL, some 7, true, 8, some 1, none, some 22, some 10⟩ := by decide
example : ((sample.run [.setTimer 1 .relative (some 10) none, .setTimer 1 .cancel none none]).db.get 1).map (·.trigger) =
    some none := by decide
-- C10
example : (sample.db.get 3).isSome = true ∧ (((sample.run [.signal 3, .close 3]).db.consume 4).1) = none := by decide

end Verif.Events
