import Verif.Events.Model
namespace Verif.Events

/-! ### Ordered insertion -/

theorem Note.before_trans {a b c : Note} (h1 : a.before b = true) (h2 : b.before c = true) : a.before c = true := by
  simp only [Note.before, Bool.or_eq_true, decide_eq_true_eq, Bool.and_eq_true, beq_iff_eq] at *
  omega

theorem Note.before_irrefl (a : Note) : a.before a = false := by
  simp [Note.before]

theorem mem_insertNote {n m : Note} {ps : List Note} : m ∈ insertNote n ps ↔ m = n ∨ m ∈ ps := by
  induction ps with
  | nil => simp [insertNote]
  | cons p ps ih =>
    unfold insertNote
    split
    · simp
    · simp [ih]; grind

theorem pairwise_insertNote {n : Note} {ps : List Note} (h : ps.Pairwise (fun a b => a.before b = true))
    (ht : ∀ m ∈ ps, m.tag < n.tag) : (insertNote n ps).Pairwise (fun a b => a.before b = true) := by
  induction ps with
  | nil => simp [insertNote]
  | cons p ps ih =>
    unfold insertNote
    obtain ⟨h1, h2⟩ := List.pairwise_cons.1 h
    split
    · rename_i hb
      refine List.pairwise_cons.2 ⟨?_, h⟩
      intro x hx
      rcases List.mem_cons.1 hx with rfl | hx
      · exact hb
      · exact Note.before_trans hb (h1 x hx)
    · rename_i hb
      refine List.pairwise_cons.2 ⟨?_, ih h2 (fun m hm => ht m (by simp [hm]))⟩
      intro x hx
      rcases mem_insertNote.1 hx with rfl | hx
      · have := ht p (by simp)
        simp only [Note.before, Bool.or_eq_true, decide_eq_true_eq, Bool.and_eq_true, beq_iff_eq] at *
        omega
      · exact h1 x hx

/-- Number of pending notifications of an event. -/
def pcount (ps : List Note) (id : Nat) : Nat := ps.countP (fun n => n.event == id)

theorem pcount_insertNote (n : Note) (ps : List Note) (id : Nat) :
    pcount (insertNote n ps) id = pcount ps id + if n.event = id then 1 else 0 := by
  unfold pcount
  induction ps with
  | nil => simp [insertNote, List.countP_cons]
  | cons p ps ih =>
    unfold insertNote
    split
    · simp only [List.countP_cons, beq_iff_eq]
    · simp only [List.countP_cons, beq_iff_eq, ih]; omega

theorem pcount_pos {ps : List Note} {id : Nat} : 0 < pcount ps id ↔ ∃ n ∈ ps, n.event = id := by
  simp [pcount, List.countP_pos_iff]

theorem pcount_zero {ps : List Note} {id : Nat} : pcount ps id = 0 ↔ ∀ n ∈ ps, n.event ≠ id := by
  simp [pcount, List.countP_eq_zero]

theorem mem_insertPending {b : Bool} {n m : Note} {ps : List Note} (h : m ∈ insertPending b n ps) : m = n ∨ m ∈ ps := by
  unfold insertPending at h
  split at h
  · exact Or.inr h
  · exact mem_insertNote.1 h

theorem sub_insertPending {b : Bool} {n m : Note} {ps : List Note} (h : m ∈ ps) : m ∈ insertPending b n ps := by
  unfold insertPending
  split
  · exact h
  · exact mem_insertNote.2 (Or.inr h)

theorem pairwise_insertPending {b : Bool} {n : Note} {ps : List Note} (h : ps.Pairwise (fun a b => a.before b = true))
    (ht : ∀ m ∈ ps, m.tag < n.tag) : (insertPending b n ps).Pairwise (fun a b => a.before b = true) := by
  unfold insertPending
  split
  · exact h
  · exact pairwise_insertNote h ht

theorem pcount_insertPending_ne {b : Bool} {n : Note} {ps : List Note} {id : Nat} (h : n.event ≠ id) :
    pcount (insertPending b n ps) id = pcount ps id := by
  unfold insertPending
  split
  · rfl
  · rw [pcount_insertNote, if_neg h, Nat.add_zero]

theorem pcount_insertPending_new {b : Bool} {n : Note} {ps : List Note} (h : pcount ps n.event = 0) :
    pcount (insertPending b n ps) n.event = 1 := by
  unfold insertPending
  have : ps.any (fun m => m.event == n.event) = false := by
    rw [List.any_eq_false]
    intro m hm
    simpa using pcount_zero.1 h m hm
  rw [this, Bool.false_and, if_neg (by simp), pcount_insertNote, h, if_pos rfl]

/-! ### Lookup and update -/

theorem get_id {db : Db} {id : Nat} {e : Event} (h : db.get id = some e) : e.id = id := by
  have := List.find?_some h
  simpa using this

theorem get_mem {db : Db} {id : Nat} {e : Event} (h : db.get id = some e) : e ∈ db.events :=
  List.mem_of_find?_eq_some h

theorem get_modify (db : Db) (id j : Nat) (f : Event → Event) (hf : ∀ e, (f e).id = e.id) :
    (db.modify id f).get j = (db.get j).map (fun e => if j = id then f e else e) := by
  unfold Db.modify Db.get
  simp only
  induction db.events with
  | nil => rfl
  | cons e es ih =>
    have hid : (if e.id = id then f e else e).id = e.id := by split <;> simp [hf]
    simp only [List.map_cons, List.find?_cons, hid]
    by_cases hj : e.id = j
    · simp only [hj, beq_self_eq_true, Option.map_some]
    · have : (e.id == j) = false := by simpa using hj
      simp only [this]
      exact ih

theorem modify_ids (db : Db) (id : Nat) (f : Event → Event) (hf : ∀ e, (f e).id = e.id) :
    (db.modify id f).events.map (·.id) = db.events.map (·.id) := by
  unfold Db.modify
  simp only [List.map_map]
  apply List.map_congr_left
  intro e _
  simp only [Function.comp]
  split <;> simp [hf]

theorem get_isSome (db : Db) (id : Nat) : (db.get id).isSome ↔ id ∈ db.events.map (·.id) := by
  unfold Db.get
  rw [List.find?_isSome]
  simp

theorem get_of_mem {db : Db} (hs : db.events.Pairwise (fun a b => a.id < b.id)) {e : Event} (h : e ∈ db.events) :
    db.get e.id = some e := by
  unfold Db.get
  revert h hs
  generalize db.events = es
  intro hs h
  induction es with
  | nil => cases h
  | cons x xs ih =>
    obtain ⟨h1, h2⟩ := List.pairwise_cons.1 hs
    rw [List.find?_cons]
    rcases List.mem_cons.1 h with rfl | h
    · simp
    · have := h1 e h
      have hne : (x.id == e.id) = false := by simp; omega
      rw [hne]
      exact ih h2 h

theorem mem_unique {db : Db} (hs : db.events.Pairwise (fun a b => a.id < b.id)) {a b : Event} (ha : a ∈ db.events)
    (hb : b ∈ db.events) (h : a.id = b.id) : a = b := by
  have h1 := get_of_mem hs ha
  have h2 := get_of_mem hs hb
  rw [h, h2] at h1
  exact (Option.some.inj h1).symm

/-! ### The invariant -/

/-- The database together with the events whose notification has been taken out of the queue
(`consume_next_event_notify`) but whose signalled state has not been cleared yet (events.rs lines 251-270). -/
structure HState where
  db : Db
  inflight : List Nat

def notifiable (e : Event) : Prop := isNotifySignal e.type = true ∨ isNotifyWait e.type = true

structure Inv (db : Db) (inflight : List Nat) : Prop where
  sorted : db.events.Pairwise (fun a b => a.id < b.id)
  ids : ∀ e ∈ db.events, e.id < db.nextId
  next : db.nextId ≤ RT_EVENT
  wf : ∀ e ∈ db.events, notifiable e → e.fn.isSome ∧ 5 ≤ e.tpl ∧ e.tpl ≤ 31
  psorted : db.pending.Pairwise (fun a b => a.before b = true)
  tags : ∀ n ∈ db.pending, n.tag < db.tags
  pev : ∀ n ∈ db.pending, n.event < db.nextId ∧ 5 ≤ n.tpl ∧ n.tpl ≤ 31
  pmatch : ∀ n ∈ db.pending, ∀ e ∈ db.events, e.id = n.event → n.tpl = e.tpl ∧ n.fn = e.fn ∧ n.ctx = e.ctx
  ns : ∀ e ∈ db.events, isNotifySignal e.type = true →
    pcount db.pending e.id + inflight.count e.id = if e.signaled then 1 else 0
  infl : ∀ i ∈ inflight, i < db.nextId

theorem Inv.init (miss : Nat → Bool) : Inv (Db.init miss) [] := by
  constructor <;> simp [Db.init, RT_EVENT]

/-- Replacing events by events that agree on everything but the timer fields keeps the invariant. -/
theorem Inv.map {db : Db} {fl : List Nat} (h : Inv db fl) (f : Event → Event)
    (hf : ∀ e, (f e).id = e.id ∧ (f e).type = e.type ∧ (f e).tpl = e.tpl ∧ (f e).fn = e.fn ∧ (f e).ctx = e.ctx)
    (hs : ∀ e ∈ db.events, isNotifySignal e.type = true → (f e).signaled = e.signaled) :
    Inv { db with events := db.events.map f } fl := by
  have hid := fun e => (hf e).1
  have hty := fun e => (hf e).2.1
  have htp := fun e => (hf e).2.2.1
  have hfn := fun e => (hf e).2.2.2.1
  have hcx := fun e => (hf e).2.2.2.2
  constructor
  · simp only [List.pairwise_map, hid]; exact h.sorted
  · simp only [List.mem_map]
    rintro _ ⟨e, he, rfl⟩
    rw [hid]; exact h.ids e he
  · exact h.next
  · simp only [List.mem_map]
    rintro _ ⟨e, he, rfl⟩ hn
    rw [hfn, htp]
    refine h.wf e he ?_
    unfold notifiable at *
    rwa [hty] at hn
  · exact h.psorted
  · exact h.tags
  · exact h.pev
  · intro n hn
    simp only [List.mem_map]
    rintro _ ⟨e, he, rfl⟩ hne
    rw [hid] at hne
    rw [htp, hfn, hcx]
    exact h.pmatch n hn e he hne
  · simp only [List.mem_map]
    rintro _ ⟨e, he, rfl⟩ hn
    rw [hty] at hn
    rw [hid, hs e he hn]
    exact h.ns e he hn
  · exact h.infl

theorem Inv.modify {db : Db} {fl : List Nat} (h : Inv db fl) (id : Nat) (f : Event → Event)
    (hf : ∀ e, (f e).id = e.id ∧ (f e).type = e.type ∧ (f e).tpl = e.tpl ∧ (f e).fn = e.fn ∧ (f e).ctx = e.ctx)
    (hs : ∀ e ∈ db.events, e.id = id → isNotifySignal e.type = true → (f e).signaled = e.signaled) :
    Inv (db.modify id f) fl := by
  unfold Db.modify
  refine h.map _ ?_ ?_
  · intro e; split
    · exact hf e
    · exact ⟨rfl, rfl, rfl, rfl, rfl⟩
  · intro e he hn
    split
    · rename_i hid; exact hs e he hid hn
    · rfl

/-- Queueing a notification for an existing notifiable event (tags counter bumped) keeps everything but
the NOTIFY_SIGNAL bookkeeping, which is the caller's business. -/
theorem Inv.queue {db : Db} {fl : List Nat} (h : Inv db fl) (e : Event) (he : e ∈ db.events)
    (hns : isNotifySignal e.type = false) :
    Inv { db with pending := queueNote db.miss db.pending e db.tags, tags := db.tags + 1 } fl := by
  unfold queueNote
  simp only [hns, Bool.false_or]
  split
  · rename_i hw
    have hwf := h.wf e he (Or.inr hw)
    constructor
    · exact h.sorted
    · exact h.ids
    · exact h.next
    · exact h.wf
    · exact pairwise_insertPending h.psorted h.tags
    · intro n hn
      rcases mem_insertPending hn with rfl | hn
      · exact Nat.lt_succ_self _
      · exact Nat.lt_succ_of_lt (h.tags n hn)
    · intro n hn
      rcases mem_insertPending hn with rfl | hn
      · exact ⟨h.ids e he, hwf.2⟩
      · exact h.pev n hn
    · intro n hn x hx hid
      rcases mem_insertPending hn with rfl | hn
      · have := mem_unique h.sorted hx he hid
        subst this
        exact ⟨rfl, rfl, rfl⟩
      · exact h.pmatch n hn x hx hid
    · intro x hx hn
      have hne : e.id ≠ x.id := by
        intro hid
        have := get_of_mem h.sorted he
        rw [hid, get_of_mem h.sorted hx] at this
        cases this
        rw [hn] at hns; cases hns
      simp only
      rw [pcount_insertPending_ne hne]
      exact h.ns x hx hn
    · exact h.infl
  · exact ⟨h.sorted, h.ids, h.next, h.wf, h.psorted, fun n hn => Nat.lt_succ_of_lt (h.tags n hn), h.pev, h.pmatch, h.ns, h.infl⟩

theorem Inv.signalOne {db : Db} {fl : List Nat} (h : Inv db fl) (e : Event) (he : e ∈ db.events)
    (hs : e.signaled = false) : Inv (db.signalOne e) fl := by
  unfold Db.signalOne
  dsimp only
  split
  · rename_i hn
    have hwf := h.wf e he (Or.inl hn)
    have hns := h.ns e he hn
    simp only [hs, Bool.false_eq_true, if_false] at hns
    have hq : queueNote db.miss db.pending e db.tags =
        insertPending (db.miss db.tags) ⟨e.id, e.tpl, e.fn, e.ctx, db.tags⟩ db.pending := by
      simp [queueNote, hn]
    have hmem : ∀ x, x ∈ (db.modify e.id fun e => { e with signaled := true }).events ↔
        ∃ y ∈ db.events, x = if y.id = e.id then { y with signaled := true } else y := by
      intro x
      simp only [Db.modify, List.mem_map]
      constructor
      · rintro ⟨y, hy, rfl⟩; exact ⟨y, hy, rfl⟩
      · rintro ⟨y, hy, rfl⟩; exact ⟨y, hy, rfl⟩
    have hfld : ∀ y : Event, ∀ x, x = (if y.id = e.id then { y with signaled := true } else y) →
        x.id = y.id ∧ x.type = y.type ∧ x.tpl = y.tpl ∧ x.fn = y.fn ∧ x.ctx = y.ctx := by
      rintro y x rfl; split <;> exact ⟨rfl, rfl, rfl, rfl, rfl⟩
    show Inv { (db.modify e.id fun e => { e with signaled := true }) with
      pending := queueNote db.miss db.pending e db.tags, tags := db.tags + 1 } fl
    rw [hq]
    constructor
    · have : ((db.modify e.id fun e => { e with signaled := true }).events.map (·.id)).Pairwise (· < ·) := by
        rw [modify_ids db e.id (fun e => { e with signaled := true }) (fun _ => rfl), List.pairwise_map]; exact h.sorted
      rw [List.pairwise_map] at this
      exact this
    · intro x hx
      obtain ⟨y, hy, hxy⟩ := (hmem x).1 hx
      rw [(hfld y x hxy).1]; exact h.ids y hy
    · exact h.next
    · intro x hx hnot
      obtain ⟨y, hy, hxy⟩ := (hmem x).1 hx
      obtain ⟨_, f2, f3, f4, _⟩ := hfld y x hxy
      rw [f3, f4]
      unfold notifiable at hnot; rw [f2] at hnot
      exact h.wf y hy hnot
    · exact pairwise_insertPending h.psorted h.tags
    · intro n hn
      rcases mem_insertPending hn with rfl | hn
      · exact Nat.lt_succ_self _
      · exact Nat.lt_succ_of_lt (h.tags n hn)
    · intro n hn
      rcases mem_insertPending hn with rfl | hn
      · exact ⟨h.ids e he, hwf.2⟩
      · exact h.pev n hn
    · intro n hn x hx hid
      obtain ⟨y, hy, hxy⟩ := (hmem x).1 hx
      obtain ⟨f1, f2, f3, f4, f5⟩ := hfld y x hxy
      rw [f1] at hid
      rw [f3, f4, f5]
      rcases mem_insertPending hn with rfl | hn
      · have := mem_unique h.sorted hy he hid
        subst this
        exact ⟨rfl, rfl, rfl⟩
      · exact h.pmatch n hn y hy hid
    · intro x hx hnx
      obtain ⟨y, hy, hxy⟩ := (hmem x).1 hx
      obtain ⟨f1, f2, _⟩ := hfld y x hxy
      rw [f2] at hnx
      by_cases hid : y.id = e.id
      · have hye : y = e := by
          have := get_of_mem h.sorted he
          rw [← hid, get_of_mem h.sorted hy] at this
          cases this; rfl
        subst hye
        have hx' : x = { y with signaled := true } := by rw [hxy]; simp
        have hp0 : pcount db.pending y.id = 0 := by omega
        rw [hx']
        simp only [if_true]
        rw [pcount_insertPending_new (n := ⟨y.id, y.tpl, y.fn, y.ctx, db.tags⟩) hp0]
        omega
      · have hx' : x = y := by rw [hxy]; simp [hid]
        subst hx'
        simp only
        rw [pcount_insertPending_ne (fun h' => hid (Eq.symm h'))]
        exact h.ns x hy hnx
    · exact h.infl
  · rename_i hn
    refine h.modify _ _ (fun _ => ⟨rfl, rfl, rfl, rfl, rfl⟩) ?_
    intro x hx hid hnx
    have := get_of_mem h.sorted he
    rw [← hid, get_of_mem h.sorted hx] at this
    cases this
    exact absurd hnx hn

theorem Inv.signalMember {db : Db} {fl : List Nat} (h : Inv db fl) (g id : Nat) : Inv (db.signalMember g id) fl := by
  unfold Db.signalMember
  cases hg : db.get id with
  | none => exact h
  | some e =>
    dsimp only
    split
    · rename_i hc; exact h.signalOne e (get_mem hg) hc.2
    · exact h

theorem Inv.signalGroup {db : Db} {fl : List Nat} (h : Inv db fl) (g : Nat) : Inv (db.signalGroup g) fl := by
  unfold Db.signalGroup
  generalize (db.events.map (·.id)).reverse = l
  induction l generalizing db with
  | nil => exact h
  | cons i l ih => exact ih (h.signalMember g i)

theorem Inv.signal {db : Db} {fl : List Nat} (h : Inv db fl) (id : Nat) : Inv (db.signal id).2 fl := by
  unfold Db.signal
  cases hg : db.get id with
  | none => exact h
  | some e =>
    dsimp only
    split
    · exact h
    · rename_i hs
      cases hgr : e.group with
      | none => exact h.signalOne e (get_mem hg) (by simpa using hs)
      | some g => exact h.signalGroup g

theorem Inv.tickOne {db : Db} {fl : List Nat} (h : Inv db fl) (now i : Nat) : Inv (db.tickOne now i) fl := by
  unfold Db.tickOne
  cases hg : db.get i with
  | none => exact h
  | some e =>
    dsimp only
    split
    · exact (h.modify i (fun e => { e with trigger := e.period.map (now + ·) })
        (fun _ => ⟨rfl, rfl, rfl, rfl, rfl⟩) (fun _ _ _ _ => rfl)).signal i
    · exact h

theorem Inv.tick {db : Db} {fl : List Nat} (h : Inv db fl) (now : Nat) : Inv (db.tick now) fl := by
  unfold Db.tick
  generalize (db.events.map (·.id)).reverse = l
  induction l generalizing db with
  | nil => exact h
  | cons i l ih =>
    exact ih (h.tickOne now i)

theorem event_new_ok {id ty tpl : Nat} {fn ctx group : Option Nat} {e : Event}
    (h : Event.new id ty tpl fn ctx group = .ok e) :
    e = ⟨id, ty, group, false, tpl, fn, ctx, none, none⟩ ∧ (notifiable e → e.fn.isSome ∧ 5 ≤ e.tpl ∧ e.tpl ≤ 31) := by
  unfold Event.new at h
  dsimp only at h
  split at h
  · cases h
  rename_i hv
  split at h
  · cases h
  rename_i h1
  split at h
  · cases h
  rename_i h2
  cases h
  refine ⟨rfl, ?_⟩
  intro hn
  have hnb : (ty &&& (EVT_NOTIFY_SIGNAL + EVT_NOTIFY_WAIT) != 0) = true := by
    replace hv := Decidable.not_not.1 hv
    simp only [validType, Bool.or_eq_true, beq_iff_eq] at hv
    replace hn : isNotifySignal ty = true ∨ isNotifyWait ty = true := hn
    rcases hv with ((((rfl | rfl) | rfl) | rfl) | rfl) | rfl <;> first
      | decide
      | (exfalso; revert hn; decide)
  simp only [hnb, Bool.true_and] at h1 h2
  constructor
  · cases fn <;> simp_all
  · simp only [TPL_APPLICATION, TPL_HIGH_LEVEL, Bool.not_eq_true, Bool.not_eq_false', Bool.and_eq_true] at h2
    exact ⟨of_decide_eq_true h2.1, of_decide_eq_true h2.2⟩

theorem event_new_no_panic (id ty tpl : Nat) (fn ctx group : Option Nat) : Event.new id ty tpl fn ctx group ≠ .panic := by
  unfold Event.new
  dsimp only
  repeat' split
  all_goals simp

theorem Inv.mono {db : Db} {fl : List Nat} (h : Inv db fl) (hn : db.nextId + 1 ≤ RT_EVENT) (rt : List Nat) :
    Inv { db with nextId := db.nextId + 1, runtime := rt } fl :=
  ⟨h.sorted, fun e he => Nat.lt_succ_of_lt (h.ids e he), hn, h.wf, h.psorted, h.tags,
    fun n hn => ⟨Nat.lt_succ_of_lt (h.pev n hn).1, (h.pev n hn).2⟩, h.pmatch, h.ns, fun i hi => Nat.lt_succ_of_lt (h.infl i hi)⟩

theorem count_zero_of_ge {db : Db} {fl : List Nat} (h : Inv db fl) : pcount db.pending db.nextId = 0 ∧ fl.count db.nextId = 0 := by
  constructor
  · rw [pcount_zero]
    intro n hn
    have := (h.pev n hn).1
    omega
  · rw [List.count_eq_zero]
    intro hm
    have := h.infl _ hm
    omega

theorem Inv.create {db : Db} {fl : List Nat} (h : Inv db fl) (ty tpl : Nat) (fn ctx group : Option Nat) :
    Inv (db.create ty tpl fn ctx group).2 fl := by
  unfold Db.create
  split
  · exact h
  rename_i hne
  have hnext : db.nextId + 1 ≤ RT_EVENT := by have := h.next; omega
  dsimp only
  split
  · cases fn with
    | none => exact h.mono hnext _
    | some f => exact h.mono hnext _
  · rename_i hrt
    cases hnew : Event.new db.nextId ty tpl fn ctx group with
    | err e => exact h.mono hnext _
    | panic => exact absurd hnew (event_new_no_panic _ _ _ _ _ _)
    | ok e =>
      obtain ⟨he, hwf⟩ := event_new_ok hnew
      have hid : e.id = db.nextId := by rw [he]
      have hm := h.mono hnext db.runtime
      constructor
      · show (db.events ++ [e]).Pairwise _
        rw [List.pairwise_append]
        refine ⟨h.sorted, by simp, ?_⟩
        intro a ha b hb
        simp at hb; subst hb
        rw [hid]; exact h.ids a ha
      · intro x hx
        rcases List.mem_append.1 hx with hx | hx
        · exact hm.ids x hx
        · simp at hx; subst hx; rw [hid]; exact Nat.lt_succ_self _
      · exact hnext
      · intro x hx hn
        rcases List.mem_append.1 hx with hx | hx
        · exact h.wf x hx hn
        · simp at hx; subst hx; exact hwf hn
      · exact h.psorted
      · exact h.tags
      · exact hm.pev
      · intro n hn x hx hidn
        rcases List.mem_append.1 hx with hx | hx
        · exact h.pmatch n hn x hx hidn
        · simp at hx; subst hx
          have := (h.pev n hn).1
          omega
      · intro x hx hn
        rcases List.mem_append.1 hx with hx | hx
        · exact h.ns x hx hn
        · simp at hx; subst hx
          have := count_zero_of_ge h
          show pcount db.pending x.id + fl.count x.id = _
          rw [hid, this.1, this.2, he]; rfl
      · exact hm.infl

theorem Inv.close {db : Db} {fl : List Nat} (h : Inv db fl) (id : Nat) : Inv (db.close id).2 fl := by
  unfold Db.close
  split
  · exact ⟨h.sorted, h.ids, h.next, h.wf, h.psorted, h.tags, h.pev, h.pmatch, h.ns, h.infl⟩
  · cases db.get id with
    | none => exact h
    | some e =>
      dsimp only
      have hsub : ∀ x, x ∈ db.events.filter (fun e => decide (e.id ≠ id)) → x ∈ db.events :=
        fun x hx => (List.mem_filter.1 hx).1
      exact ⟨h.sorted.filter _, fun x hx => h.ids x (hsub x hx), h.next, fun x hx => h.wf x (hsub x hx),
        h.psorted, h.tags, h.pev, fun n hn x hx => h.pmatch n hn x (hsub x hx), fun x hx => h.ns x (hsub x hx), h.infl⟩

theorem Inv.setTimer {db : Db} {fl : List Nat} (h : Inv db fl) (id : Nat) (d : Delay) (t p : Option Nat) :
    Inv (db.setTimer id d t p).2 fl := by
  unfold Db.setTimer
  cases db.get id with
  | none => exact h
  | some e =>
    dsimp only
    split
    · exact h
    · split
      · exact h
      · exact h.modify _ _ (fun _ => ⟨rfl, rfl, rfl, rfl, rfl⟩) (fun _ _ _ _ => rfl)

theorem isValid_iff (db : Db) (id : Nat) : db.isValid id = true ↔ ∃ e ∈ db.events, e.id = id := by
  unfold Db.isValid
  rw [get_isSome]
  simp

theorem takeWhile_all {α : Type} (p : α → Bool) (l : List α) : ∀ x ∈ l.takeWhile p, p x = true := by
  induction l with
  | nil => simp
  | cons a l ih =>
    rw [List.takeWhile_cons]
    split
    · rename_i h; intro x hx
      rcases List.mem_cons.1 hx with rfl | hx
      · exact h
      · exact ih x hx
    · simp

/-- What `consume` takes out. -/
theorem consume_cases (db : Db) (lvl : Nat) :
    ∃ dead rest, db.pending = dead ++ rest ∧ (∀ n ∈ dead, db.isValid n.event = false) ∧
      ((rest = [] ∧ db.consume lvl = (none, { db with pending := [] })) ∨
       ∃ n tl, rest = n :: tl ∧ db.isValid n.event = true ∧
        ((n.tpl ≤ lvl ∧ db.consume lvl = (none, { db with pending := n :: tl })) ∨
         (lvl < n.tpl ∧ db.consume lvl = (some n, { db with pending := tl })))) := by
  refine ⟨db.pending.takeWhile (fun n => !db.isValid n.event), db.pending.dropWhile (fun n => !db.isValid n.event),
    (List.takeWhile_append_dropWhile).symm, ?_, ?_⟩
  · intro n hn
    have := takeWhile_all (fun n : Note => !db.isValid n.event) db.pending n hn
    simpa using this
  · unfold Db.consume
    dsimp only
    cases hd : db.pending.dropWhile (fun n => !db.isValid n.event) with
    | nil => left; exact ⟨rfl, rfl⟩
    | cons n tl =>
      right
      refine ⟨n, tl, rfl, ?_, ?_⟩
      · have hne : db.pending.dropWhile (fun n => !db.isValid n.event) ≠ [] := by rw [hd]; simp
        have := List.head_dropWhile_not (p := fun n => !db.isValid n.event) (l := db.pending) hne
        simp only [hd, List.head_cons] at this
        simpa using this
      · by_cases hl : n.tpl ≤ lvl
        · left; exact ⟨hl, by simp [hl]⟩
        · right; exact ⟨by omega, by simp [hl]⟩

/-- Dropping pending notifications of dead events keeps the invariant. -/
theorem Inv.pendingSub {db : Db} {fl : List Nat} (h : Inv db fl) (ps : List Note) (hs : ps.Sublist db.pending)
    (fl' : List Nat) (hfl : ∀ i ∈ fl', i < db.nextId)
    (hc : ∀ e ∈ db.events, isNotifySignal e.type = true → pcount ps e.id + fl'.count e.id = pcount db.pending e.id + fl.count e.id) :
    Inv { db with pending := ps } fl' :=
  ⟨h.sorted, h.ids, h.next, h.wf, h.psorted.sublist hs, fun n hn => h.tags n (hs.subset hn),
    fun n hn => h.pev n (hs.subset hn), fun n hn => h.pmatch n (hs.subset hn),
    fun e he hn => by rw [hc e he hn]; exact h.ns e he hn, hfl⟩

theorem pcount_append (a b : List Note) (id : Nat) : pcount (a ++ b) id = pcount a id + pcount b id := by
  simp [pcount]

theorem pcount_dead {db : Db} {dead : List Note} (h : ∀ n ∈ dead, db.isValid n.event = false) {e : Event}
    (he : e ∈ db.events) : pcount dead e.id = 0 := by
  rw [pcount_zero]
  intro n hn hid
  have h1 := h n hn
  have h2 := (isValid_iff db n.event).2 ⟨e, he, hid.symm⟩
  rw [h1] at h2; cases h2

/-- Is the event NOTIFY_SIGNAL? -/
def Db.isNS (db : Db) (id : Nat) : Bool :=
  match db.get id with
  | some e => isNotifySignal e.type
  | none => false

theorem Inv.consume {db : Db} {fl : List Nat} (h : Inv db fl) (lvl : Nat) :
    Inv (db.consume lvl).2
      (match (db.consume lvl).1 with | some n => if db.isNS n.event then n.event :: fl else fl | none => fl) := by
  obtain ⟨dead, rest, hp, hd, hc⟩ := consume_cases db lvl
  have hsub : rest.Sublist db.pending := by rw [hp]; exact List.sublist_append_right _ _
  have hcount : ∀ e ∈ db.events, pcount db.pending e.id = pcount rest e.id := by
    intro e he
    rw [hp, pcount_append, pcount_dead hd he, Nat.zero_add]
  rcases hc with ⟨hr, heq⟩ | ⟨n, tl, hr, hv, ⟨hl, heq⟩ | ⟨hl, heq⟩⟩
  · rw [heq]
    refine h.pendingSub [] (by simp) fl h.infl ?_
    intro e he _
    rw [hcount e he, hr]
  · rw [heq]
    refine h.pendingSub _ (hr ▸ hsub) fl h.infl ?_
    intro e he _
    rw [hcount e he, hr]
  · rw [heq]
    have hsub' : tl.Sublist db.pending := (List.sublist_cons_self n tl).trans (hr ▸ hsub)
    have hnmem : n ∈ db.pending := by rw [hp, hr]; simp
    refine h.pendingSub tl hsub' _ ?_ ?_
    · intro i hi
      dsimp only at hi
      split at hi
      · rcases List.mem_cons.1 hi with rfl | hi
        · exact (h.pev n hnmem).1
        · exact h.infl i hi
      · exact h.infl i hi
    · intro e he hns
      rw [hcount e he, hr]
      have hpc : pcount (n :: tl) e.id = pcount tl e.id + if n.event = e.id then 1 else 0 := by
        simp only [pcount, List.countP_cons, beq_iff_eq]
      rw [hpc]
      dsimp only
      by_cases hid : n.event = e.id
      · have : db.isNS n.event = true := by
          unfold Db.isNS
          rw [hid, get_of_mem h.sorted he]; exact hns
        rw [if_pos this, if_pos hid, hid, List.count_cons_self]
        omega
      · rw [if_neg hid]
        split
        · rw [List.count_cons_of_ne hid]; omega
        · omega

theorem Inv.clearNS {db : Db} {fl : List Nat} (h : Inv db fl) (id : Nat) (hm : id ∈ fl) :
    Inv (db.clearSignal id).2 (fl.erase id) := by
  have hcnt : (fl.erase id).count id = fl.count id - 1 := List.count_erase_self
  have hpos : 0 < fl.count id := List.count_pos_iff.2 hm
  have hinfl : ∀ i ∈ fl.erase id, i < db.nextId := fun i hi => h.infl i (List.mem_of_mem_erase hi)
  unfold Db.clearSignal
  cases hg : db.get id with
  | none =>
    refine ⟨h.sorted, h.ids, h.next, h.wf, h.psorted, h.tags, h.pev, h.pmatch, ?_, hinfl⟩
    intro e he hn
    have hne : e.id ≠ id := by
      intro hid
      have := get_of_mem h.sorted he
      rw [hid, hg] at this; cases this
    rw [List.count_erase_of_ne hne]
    exact h.ns e he hn
  | some x =>
    dsimp only
    have hmem : ∀ y, y ∈ (db.modify id fun e => { e with signaled := false }).events →
        ∃ e ∈ db.events, y = if e.id = id then { e with signaled := false } else e := by
      intro y hy
      simp only [Db.modify, List.mem_map] at hy
      obtain ⟨e, he, rfl⟩ := hy
      exact ⟨e, he, rfl⟩
    have h0 : Inv (db.modify id fun e => { e with trigger := e.trigger }) fl :=
      h.modify id _ (fun _ => ⟨rfl, rfl, rfl, rfl, rfl⟩) (fun _ _ _ _ => rfl)
    have hfld : ∀ e : Event, ∀ y, y = (if e.id = id then { e with signaled := false } else e) →
        y.id = e.id ∧ y.type = e.type ∧ y.tpl = e.tpl ∧ y.fn = e.fn ∧ y.ctx = e.ctx := by
      rintro e y rfl; split <;> exact ⟨rfl, rfl, rfl, rfl, rfl⟩
    constructor
    · have : ((db.modify id fun e => { e with signaled := false }).events.map (·.id)).Pairwise (· < ·) := by
        rw [modify_ids db id (fun e => { e with signaled := false }) (fun _ => rfl), List.pairwise_map]; exact h.sorted
      rw [List.pairwise_map] at this; exact this
    · intro y hy
      obtain ⟨e, he, hye⟩ := hmem y hy
      rw [(hfld e y hye).1]; exact h.ids e he
    · exact h.next
    · intro y hy hn
      obtain ⟨e, he, hye⟩ := hmem y hy
      obtain ⟨_, f2, f3, f4, _⟩ := hfld e y hye
      rw [f3, f4]; unfold notifiable at hn; rw [f2] at hn
      exact h.wf e he hn
    · exact h.psorted
    · exact h.tags
    · exact h.pev
    · intro n hn y hy hid
      obtain ⟨e, he, hye⟩ := hmem y hy
      obtain ⟨f1, f2, f3, f4, f5⟩ := hfld e y hye
      rw [f1] at hid; rw [f3, f4, f5]
      exact h.pmatch n hn e he hid
    · intro y hy hn
      obtain ⟨e, he, hye⟩ := hmem y hy
      obtain ⟨f1, f2, _⟩ := hfld e y hye
      rw [f2] at hn
      have hns := h.ns e he hn
      by_cases hid : e.id = id
      · have hy' : y = { e with signaled := false } := by rw [hye]; simp [hid]
        rw [hy']
        show pcount db.pending e.id + _ = _
        rw [hid] at hns ⊢
        rw [hcnt]
        split at hns
        · simp; omega
        · omega
      · have hy' : y = e := by rw [hye]; simp [hid]
        rw [hy', List.count_erase_of_ne hid]
        exact hns
    · exact hinfl

/-! ### Histories -/

/-- The calls on the database that the rest of the core makes. -/
inductive Op where
  | create (ty tpl : Nat) (fn ctx group : Option Nat)
  | close (id : Nat)
  | signal (id : Nat)
  | signalGroup (g : Nat)
  | setTimer (id : Nat) (d : Delay) (trigger period : Option Nat)
  | tick (now : Nat)
  /-- `check_event` (events.rs lines 154-192): only for events that are not NOTIFY_SIGNAL -/
  | readAndClear (id : Nat)
  /-- `check_event` -/
  | queueNotify (id : Nat)
  | consume (level : Nat)
  /-- `restore_tpl` (events.rs lines 268-270): clear the state of a NOTIFY_SIGNAL event taken from the queue -/
  | clear (id : Nat)
deriving DecidableEq, Repr

def HState.step (s : HState) : Op → HState
  | .create ty tpl fn ctx g => { s with db := (s.db.create ty tpl fn ctx g).2 }
  | .close id => { s with db := (s.db.close id).2 }
  | .signal id => { s with db := (s.db.signal id).2 }
  | .signalGroup g => { s with db := s.db.signalGroup g }
  | .setTimer id d t p => { s with db := (s.db.setTimer id d t p).2 }
  | .tick now => { s with db := s.db.tick now }
  | .readAndClear id => if s.db.isNS id then s else { s with db := (s.db.readAndClear id).2 }
  | .queueNotify id => if s.db.isNS id then s else { s with db := (s.db.queueNotify id).2 }
  | .consume lvl =>
    { db := (s.db.consume lvl).2,
      inflight := match (s.db.consume lvl).1 with
        | some n => if s.db.isNS n.event then n.event :: s.inflight else s.inflight
        | none => s.inflight }
  | .clear id => if id ∈ s.inflight then { db := (s.db.clearSignal id).2, inflight := s.inflight.erase id } else s

def HState.run (s : HState) (ops : List Op) : HState := ops.foldl HState.step s

theorem isNS_false {db : Db} {id : Nat} {e : Event} (h : db.isNS id = false) (hg : db.get id = some e) :
    isNotifySignal e.type = false := by
  unfold Db.isNS at h; rw [hg] at h; exact h

theorem Inv.step {s : HState} (h : Inv s.db s.inflight) (op : Op) : Inv (s.step op).db (s.step op).inflight := by
  cases op with
  | create ty tpl fn ctx g => exact h.create ty tpl fn ctx g
  | close id => exact h.close id
  | signal id => exact h.signal id
  | signalGroup g => exact h.signalGroup g
  | setTimer id d t p => exact h.setTimer id d t p
  | tick now => exact h.tick now
  | readAndClear id =>
    unfold HState.step
    dsimp only
    split
    · exact h
    · rename_i hns
      have hns : s.db.isNS id = false := by simpa using hns
      unfold Db.readAndClear
      split
      · unfold Db.clearSignal
        cases hg : s.db.get id with
        | none => exact h
        | some e =>
          dsimp only
          refine h.modify _ _ (fun _ => ⟨rfl, rfl, rfl, rfl, rfl⟩) ?_
          intro x hx hid hn
          have := get_of_mem h.sorted hx
          rw [hid, hg] at this
          cases this
          rw [isNS_false hns hg] at hn; cases hn
      · exact h
  | queueNotify id =>
    unfold HState.step
    dsimp only
    split
    · exact h
    · rename_i hns
      have hns : s.db.isNS id = false := by simpa using hns
      unfold Db.queueNotify
      cases hg : s.db.get id with
      | none => exact h
      | some e => exact h.queue e (get_mem hg) (isNS_false hns hg)
  | consume lvl => exact h.consume lvl
  | clear id =>
    unfold HState.step
    dsimp only
    split
    · rename_i hm; exact h.clearNS id hm
    · exact h

theorem Inv.run {s : HState} (h : Inv s.db s.inflight) (ops : List Op) : Inv (s.run ops).db (s.run ops).inflight := by
  unfold HState.run
  induction ops generalizing s with
  | nil => exact h
  | cons op ops ih => exact ih (h.step op)

/-- States reachable from the empty database. -/
def Reachable (s : HState) : Prop := ∃ miss ops, s = HState.run ⟨Db.init miss, []⟩ ops

theorem Reachable.inv {s : HState} (h : Reachable s) : Inv s.db s.inflight := by
  obtain ⟨miss, ops, rfl⟩ := h
  exact Inv.run (s := ⟨Db.init miss, []⟩) (Inv.init miss) ops

end Verif.Events
