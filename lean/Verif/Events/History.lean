import Verif.Events.DbLemmas
namespace Verif.Events

theorem Frame.getNone {a b : Db} (h : Frame a b) {id : Nat} (hn : a.get id = none) : b.get id = none := by
  have := get_isSome b id
  rw [h.ids, ← get_isSome, hn] at this
  cases hb : b.get id with
  | none => rfl
  | some e => rw [hb] at this; simp at this

theorem clearSignal_frame (db : Db) (id : Nat) : Frame db (db.clearSignal id).2 := by
  unfold Db.clearSignal
  cases db.get id with
  | none => exact Frame.refl _
  | some e => exact Frame.modify db id (fun e => { e with signaled := false }) (fun _ => rfl)

theorem readAndClear_snd (db : Db) (id : Nat) : (db.readAndClear id).2 = db ∨ (db.readAndClear id).2 = (db.clearSignal id).2 := by
  unfold Db.readAndClear
  split
  · right
    cases h : db.clearSignal id with
    | mk a b => cases a <;> rfl
  · left; rfl

theorem queueNotify_frame (db : Db) (id : Nat) : Frame db (db.queueNotify id).2 := by
  unfold Db.queueNotify
  cases db.get id with
  | none => exact Frame.refl _
  | some e => exact Frame.queue db e _ rfl

theorem setTimer_frame (db : Db) (id : Nat) (d : Delay) (t p : Option Nat) : Frame db (db.setTimer id d t p).2 := by
  unfold Db.setTimer
  cases db.get id with
  | none => exact Frame.refl _
  | some e =>
    dsimp only
    split
    · exact Frame.refl _
    · split
      · exact Frame.refl _
      · exact Frame.modify db id (fun e => { e with trigger := t, period := p }) (fun _ => rfl)

theorem consume_events (db : Db) (lvl : Nat) :
    (db.consume lvl).2.events = db.events ∧ (db.consume lvl).2.nextId = db.nextId ∧ (db.consume lvl).2.tags = db.tags ∧
    ∀ n ∈ (db.consume lvl).2.pending, n ∈ db.pending := by
  obtain ⟨dead, rest, hp, hd, hc⟩ := consume_cases db lvl
  rcases hc with ⟨hr, heq⟩ | ⟨n, tl, hr, hv, ⟨hl, heq⟩ | ⟨hl, heq⟩⟩ <;> rw [heq] <;> refine ⟨rfl, rfl, rfl, ?_⟩ <;>
    intro m hm <;> rw [hp] <;> simp_all

/-- The operations except create, close and consume do not touch the set of events and only add notifications. -/
theorem step_cases (s : HState) (op : Op) :
    (∃ ty tpl fn ctx g, op = .create ty tpl fn ctx g) ∨ (∃ id, op = .close id) ∨ (∃ l, op = .consume l) ∨
    Frame s.db (s.step op).db := by
  cases op with
  | create ty tpl fn ctx g => left; exact ⟨ty, tpl, fn, ctx, g, rfl⟩
  | close id => right; left; exact ⟨id, rfl⟩
  | consume l => right; right; left; exact ⟨l, rfl⟩
  | signal id => right; right; right; exact Frame.signal _ _
  | signalGroup g => right; right; right; exact Frame.signalGroup _ _
  | setTimer id d t p => right; right; right; exact setTimer_frame _ _ _ _ _
  | tick now => right; right; right; exact Frame.tick _ _
  | readAndClear id =>
    right; right; right
    unfold HState.step; dsimp only
    split
    · exact Frame.refl _
    · rcases readAndClear_snd s.db id with h | h
      · simp only [h]; exact Frame.refl _
      · simp only [h]; exact clearSignal_frame _ _
  | queueNotify id =>
    right; right; right
    unfold HState.step; dsimp only
    split
    · exact Frame.refl _
    · exact queueNotify_frame _ _
  | clear id =>
    right; right; right
    unfold HState.step; dsimp only
    split
    · exact clearSignal_frame _ _
    · exact Frame.refl _

theorem create_shape (db : Db) (ty tpl : Nat) (fn ctx g : Option Nat) :
    (db.create ty tpl fn ctx g).2.pending = db.pending ∧ (db.create ty tpl fn ctx g).2.tags = db.tags ∧
    db.nextId ≤ (db.create ty tpl fn ctx g).2.nextId ∧
    ((db.create ty tpl fn ctx g).2.events = db.events ∨
      ∃ e, e.id = db.nextId ∧ e.trigger = none ∧ (db.create ty tpl fn ctx g).2.events = db.events ++ [e]) := by
  unfold Db.create
  split
  · exact ⟨rfl, rfl, Nat.le_refl _, Or.inl rfl⟩
  dsimp only
  split
  · cases fn with
    | none => exact ⟨rfl, rfl, Nat.le_succ _, Or.inl rfl⟩
    | some f => exact ⟨rfl, rfl, Nat.le_succ _, Or.inl rfl⟩
  · cases hnew : Event.new db.nextId ty tpl fn ctx g with
    | err e => exact ⟨rfl, rfl, Nat.le_succ _, Or.inl rfl⟩
    | panic => exact ⟨rfl, rfl, Nat.le_succ _, Or.inl rfl⟩
    | ok e =>
      have := (event_new_ok hnew).1
      refine ⟨rfl, rfl, Nat.le_succ _, Or.inr ⟨e, ?_, ?_, rfl⟩⟩ <;> rw [this]

theorem create_get_old (db : Db) (ty tpl : Nat) (fn ctx g : Option Nat) {id : Nat} (h : id < db.nextId) :
    (db.create ty tpl fn ctx g).2.get id = db.get id := by
  obtain ⟨_, _, _, he | ⟨e, h1, _, he⟩⟩ := create_shape db ty tpl fn ctx g
  · unfold Db.get; rw [he]
  · unfold Db.get; rw [he, List.find?_append]
    have : ([e].find? fun x => x.id == id) = none := by
      simp; omega
    rw [this]; cases (db.events.find? fun x => x.id == id) <;> rfl

theorem close_shape (db : Db) (id : Nat) :
    (db.close id).2.pending = db.pending ∧ (db.close id).2.tags = db.tags ∧ (db.close id).2.nextId = db.nextId ∧
    ((db.close id).2.events = db.events ∨ (id < RT_EVENT ∧ (db.close id).2.events = db.events.filter (fun e => decide (e.id ≠ id)))) := by
  unfold Db.close
  split
  · exact ⟨rfl, rfl, rfl, Or.inl rfl⟩
  · cases db.get id with
    | none => exact ⟨rfl, rfl, rfl, Or.inl rfl⟩
    | some e => exact ⟨rfl, rfl, rfl, Or.inr ⟨by omega, rfl⟩⟩

theorem find_filter_ne (es : List Event) (id j : Nat) :
    (es.filter (fun e => decide (e.id ≠ id))).find? (fun e => e.id == j) =
      if j = id then none else es.find? (fun e => e.id == j) := by
  induction es with
  | nil => simp
  | cons e es ih =>
    rw [List.filter_cons]
    by_cases he : e.id = id
    · simp only [he, ne_eq, not_true, decide_false, Bool.false_eq_true, if_false, ih, List.find?_cons]
      by_cases hj : j = id
      · simp [hj]
      · have : (id == j) = false := by simp; omega
        simp [hj, this]
    · simp only [ne_eq, he, not_false_eq_true, decide_true, if_true, List.find?_cons, ih]
      by_cases hj : j = id
      · have : (e.id == j) = false := by simp; omega
        rw [this]
      · simp [hj]

theorem close_get (db : Db) (id j : Nat) : (db.close id).2.get j = if j = id ∧ id < RT_EVENT then none else db.get j := by
  unfold Db.close
  by_cases hr : RT_EVENT ≤ id
  · rw [if_pos hr, if_neg (by omega)]; rfl
  · rw [if_neg hr]
    cases hg : db.get id with
    | none =>
      dsimp only
      by_cases hj : j = id
      · subst hj; rw [hg]; simp
      · simp [hj]
    | some e =>
      show (db.events.filter (fun e => decide (e.id ≠ id))).find? (fun e => e.id == j) = _
      rw [find_filter_ne]
      by_cases hj : j = id
      · subst hj; rw [if_pos rfl, if_pos ⟨rfl, by omega⟩]
      · rw [if_neg hj, if_neg (by simp [hj])]; rfl

/-- What every step does to the counters and to the queue. -/
theorem step_mono (s : HState) (op : Op) :
    s.db.nextId ≤ (s.step op).db.nextId ∧ s.db.tags ≤ (s.step op).db.tags ∧
    (∀ n ∈ (s.step op).db.pending, n ∈ s.db.pending ∨ s.db.tags ≤ n.tag) ∧
    ((∀ l, op ≠ .consume l) → ∀ n ∈ s.db.pending, n ∈ (s.step op).db.pending) := by
  rcases step_cases s op with ⟨ty, tpl, fn, ctx, g, rfl⟩ | ⟨id, rfl⟩ | ⟨l, rfl⟩ | h
  · obtain ⟨h1, h2, h3, _⟩ := create_shape s.db ty tpl fn ctx g
    refine ⟨h3, Nat.le_of_eq h2.symm, ?_, ?_⟩
    · intro n hn; left; rw [← h1]; exact hn
    · intro _ n hn
      show n ∈ (s.db.create ty tpl fn ctx g).2.pending
      rw [h1]; exact hn
  · obtain ⟨h1, h2, h3, _⟩ := close_shape s.db id
    refine ⟨Nat.le_of_eq h3.symm, Nat.le_of_eq h2.symm, ?_, ?_⟩
    · intro n hn; left; rw [← h1]; exact hn
    · intro _ n hn
      show n ∈ (s.db.close id).2.pending
      rw [h1]; exact hn
  · obtain ⟨_, h2, h3, h4⟩ := consume_events s.db l
    exact ⟨Nat.le_of_eq h2.symm, Nat.le_of_eq h3.symm, fun n hn => Or.inl (h4 n hn), fun h => absurd rfl (h l)⟩
  · refine ⟨Nat.le_of_eq h.next.symm, h.tags, ?_, fun _ => h.sub⟩
    intro n hn
    rcases h.new n hn with h | h
    · exact Or.inl h
    · exact Or.inr h.1

theorem step_dead (s : HState) (op : Op) {id : Nat} (hid : id < s.db.nextId) (hn : s.db.get id = none) :
    (s.step op).db.get id = none := by
  rcases step_cases s op with ⟨ty, tpl, fn, ctx, g, rfl⟩ | ⟨j, rfl⟩ | ⟨l, rfl⟩ | h
  · show (s.db.create ty tpl fn ctx g).2.get id = none
    rw [create_get_old _ _ _ _ _ _ hid, hn]
  · show (s.db.close j).2.get id = none
    rw [close_get]; split
    · rfl
    · exact hn
  · show (s.db.consume l).2.get id = none
    unfold Db.get
    rw [(consume_events s.db l).1]; exact hn
  · exact h.getNone hn

theorem run_mono (s : HState) (ops : List Op) :
    s.db.nextId ≤ (s.run ops).db.nextId ∧ s.db.tags ≤ (s.run ops).db.tags ∧
    (∀ n ∈ (s.run ops).db.pending, n ∈ s.db.pending ∨ s.db.tags ≤ n.tag) := by
  unfold HState.run
  induction ops generalizing s with
  | nil => exact ⟨Nat.le_refl _, Nat.le_refl _, fun n hn => Or.inl hn⟩
  | cons op ops ih =>
    obtain ⟨h1, h2, h3, _⟩ := step_mono s op
    obtain ⟨i1, i2, i3⟩ := ih (s.step op)
    refine ⟨Nat.le_trans h1 i1, Nat.le_trans h2 i2, ?_⟩
    intro n hn
    rcases i3 n hn with h | h
    · exact h3 n h
    · right; omega

theorem run_dead (s : HState) (ops : List Op) {id : Nat} (hid : id < s.db.nextId) (hn : s.db.get id = none) :
    (s.run ops).db.get id = none := by
  unfold HState.run
  induction ops generalizing s with
  | nil => exact hn
  | cons op ops ih =>
    exact ih (s.step op) (Nat.lt_of_lt_of_le hid (step_mono s op).1) (step_dead s op hid hn)

theorem consume_valid {db : Db} {lvl : Nat} {n : Note} (h : (db.consume lvl).1 = some n) :
    db.isValid n.event = true ∧ lvl < n.tpl ∧ n ∈ db.pending := by
  obtain ⟨dead, rest, hp, hd, hc⟩ := consume_cases db lvl
  rcases hc with ⟨hr, heq⟩ | ⟨m, tl, hr, hv, ⟨hl, heq⟩ | ⟨hl, heq⟩⟩
  · rw [heq] at h; cases h
  · rw [heq] at h; cases h
  · rw [heq] at h; cases h
    exact ⟨hv, hl, by rw [hp, hr]; simp⟩

/-- A disarmed timer stays disarmed unless it is set again. -/
theorem step_disarmed {s : HState} (hi : Inv s.db s.inflight) (op : Op) {id : Nat} {e : Event}
    (hop : ∀ d t p, op ≠ .setTimer id d t p) (he : s.db.get id = some e) (ht : e.trigger = none) :
    (∃ e', (s.step op).db.get id = some e' ∧ e'.trigger = none) ∨ (s.step op).db.get id = none := by
  have hid : id < s.db.nextId := by
    have := hi.ids e (get_mem he); rwa [get_id he] at this
  have hsig : ∀ (x : Nat), (∃ e', (s.db.signal x).2.get id = some e' ∧ e'.trigger = none) := by
    intro x
    cases hx : s.db.get x with
    | none => refine ⟨e, ?_, ht⟩; unfold Db.signal; rw [hx]; exact he
    | some y =>
      cases hs : y.signaled with
      | true => refine ⟨e, ?_, ht⟩; unfold Db.signal; rw [hx]; simp [hs, he]
      | false =>
        rw [signal_get s.db x id hx hs, he]
        refine ⟨_, rfl, ?_⟩
        simp only
        split <;> exact ht
  have hmod : ∀ x (f : Event → Event), (∀ e, (f e).id = e.id ∧ (f e).trigger = e.trigger) →
      ∃ e', (s.db.modify x f).get id = some e' ∧ e'.trigger = none := by
    intro x f hf
    rw [get_modify s.db x id f (fun e => (hf e).1), he]
    refine ⟨_, rfl, ?_⟩
    simp only
    split
    · rw [(hf e).2]; exact ht
    · exact ht
  have hclr : ∀ x, ∃ e', (s.db.clearSignal x).2.get id = some e' ∧ e'.trigger = none := by
    intro x
    unfold Db.clearSignal
    cases s.db.get x with
    | none => exact ⟨e, he, ht⟩
    | some y => exact hmod x _ (fun _ => ⟨rfl, rfl⟩)
  cases op with
  | create ty tpl fn ctx g =>
    left; refine ⟨e, ?_, ht⟩
    show (s.db.create ty tpl fn ctx g).2.get id = some e
    rw [create_get_old _ _ _ _ _ _ hid, he]
  | close j =>
    show (∃ e', (s.db.close j).2.get id = some e' ∧ e'.trigger = none) ∨ (s.db.close j).2.get id = none
    rw [close_get]
    split
    · right; rfl
    · left; exact ⟨e, he, ht⟩
  | signal j => left; exact hsig j
  | signalGroup g =>
    left
    show ∃ e', (s.db.signalGroup g).get id = some e' ∧ e'.trigger = none
    rw [signalGroup_get, he]
    refine ⟨_, rfl, ?_⟩
    simp only
    split <;> exact ht
  | setTimer j d t p =>
    left
    have hj : j ≠ id := by rintro rfl; exact hop d t p rfl
    show ∃ e', (s.db.setTimer j d t p).2.get id = some e' ∧ e'.trigger = none
    refine ⟨e, ?_, ht⟩
    unfold Db.setTimer
    cases s.db.get j with
    | none => exact he
    | some y =>
      dsimp only
      split
      · exact he
      · split
        · exact he
        · rw [get_modify s.db j id (fun e => { e with trigger := t, period := p }) (fun _ => rfl), he]
          simp [Ne.symm hj]
  | tick now =>
    left
    show ∃ e', (s.db.tick now).get id = some e' ∧ e'.trigger = none
    rw [tick_get hi.sorted, he]
    refine ⟨_, rfl, ?_⟩
    have : e.due now = false := by simp [Event.due, ht]
    simp [tickEvent, this, ht]
  | readAndClear j =>
    left
    unfold HState.step; dsimp only
    split
    · exact ⟨e, he, ht⟩
    · rcases readAndClear_snd s.db j with h | h
      · simp only [h]; exact ⟨e, he, ht⟩
      · simp only [h]; exact hclr j
  | queueNotify j =>
    left
    unfold HState.step; dsimp only
    split
    · exact ⟨e, he, ht⟩
    · refine ⟨e, ?_, ht⟩
      unfold Db.queueNotify
      cases s.db.get j with
      | none => exact he
      | some y => exact he
  | consume l =>
    left; refine ⟨e, ?_, ht⟩
    show (s.db.consume l).2.get id = some e
    unfold Db.get
    rw [(consume_events s.db l).1]; exact he
  | clear j =>
    left
    unfold HState.step; dsimp only
    split
    · exact hclr j
    · exact ⟨e, he, ht⟩

end Verif.Events
