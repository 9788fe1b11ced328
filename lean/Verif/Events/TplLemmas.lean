import Verif.Events.TplModel
import Verif.Events.History
namespace Verif.Events

/-! ### Immutable attributes -/

def SameStatic (e e' : Event) : Prop :=
  e.type = e'.type ∧ e.tpl = e'.tpl ∧ e.fn = e'.fn ∧ e.ctx = e'.ctx ∧ e.group = e'.group

theorem SameStatic.refl (e : Event) : SameStatic e e := ⟨rfl, rfl, rfl, rfl, rfl⟩

structure Static (db db' : Db) : Prop where
  next : db.nextId ≤ db'.nextId
  same : ∀ id e', id < db.nextId → db'.get id = some e' → ∃ e, db.get id = some e ∧ SameStatic e e'

theorem Static.refl (db : Db) : Static db db := ⟨Nat.le_refl _, fun _ e' _ h => ⟨e', h, SameStatic.refl e'⟩⟩

theorem Static.trans {a b c : Db} (h1 : Static a b) (h2 : Static b c) : Static a c := by
  refine ⟨Nat.le_trans h1.next h2.next, ?_⟩
  intro id e' hid he'
  obtain ⟨e1, he1, s1⟩ := h2.same id e' (Nat.lt_of_lt_of_le hid h1.next) he'
  obtain ⟨e0, he0, s0⟩ := h1.same id e1 hid he1
  refine ⟨e0, he0, ?_⟩
  obtain ⟨a1, a2, a3, a4, a5⟩ := s0
  obtain ⟨b1, b2, b3, b4, b5⟩ := s1
  exact ⟨a1.trans b1, a2.trans b2, a3.trans b3, a4.trans b4, a5.trans b5⟩

theorem Static.of_map {db db' : Db} (hn : db'.nextId = db.nextId) (f : Nat → Event → Event)
    (hf : ∀ i e, SameStatic e (f i e)) (h : ∀ i, db'.get i = (db.get i).map (f i)) : Static db db' := by
  refine ⟨Nat.le_of_eq hn.symm, ?_⟩
  intro id e' _ he'
  rw [h] at he'
  cases hg : db.get id with
  | none => rw [hg] at he'; cases he'
  | some e =>
    rw [hg] at he'
    simp only [Option.map_some, Option.some.injEq] at he'
    exact ⟨e, rfl, he' ▸ hf id e⟩

theorem Static.of_events {db db' : Db} (hn : db'.nextId = db.nextId) (h : db'.events = db.events) : Static db db' := by
  refine ⟨Nat.le_of_eq hn.symm, ?_⟩
  intro id e' _ he'
  unfold Db.get at he' ⊢; rw [h] at he'
  exact ⟨e', he', SameStatic.refl _⟩

theorem clearSignal_static (db : Db) (id : Nat) : Static db (db.clearSignal id).2 := by
  unfold Db.clearSignal
  cases db.get id with
  | none => exact Static.refl _
  | some e =>
    refine Static.of_map rfl (fun j e => if j = id then { e with signaled := false } else e) ?_ ?_
    · intro i e; split <;> exact SameStatic.refl _
    · intro i; exact get_modify db id i _ (fun _ => rfl)

theorem readAndClear_static (db : Db) (id : Nat) : Static db (db.readAndClear id).2 := by
  rcases readAndClear_snd db id with h | h
  · rw [h]; exact Static.refl _
  · rw [h]; exact clearSignal_static db id

theorem queueNotify_static (db : Db) (id : Nat) : Static db (db.queueNotify id).2 := by
  unfold Db.queueNotify
  cases db.get id with
  | none => exact Static.refl _
  | some e => exact Static.of_events rfl rfl

theorem step_static {s : HState} (hi : Inv s.db s.inflight) (op : Op) : Static s.db (s.step op).db := by
  cases op with
  | create ty tpl fn ctx g =>
    refine ⟨(step_mono s (.create ty tpl fn ctx g)).1, ?_⟩
    intro id e' hid he'
    have : (s.db.create ty tpl fn ctx g).2.get id = some e' := he'
    rw [create_get_old _ _ _ _ _ _ hid] at this
    exact ⟨e', this, SameStatic.refl _⟩
  | close j =>
    refine ⟨(step_mono s (.close j)).1, ?_⟩
    intro id e' hid he'
    have : (s.db.close j).2.get id = some e' := he'
    rw [close_get] at this
    split at this
    · cases this
    · exact ⟨e', this, SameStatic.refl _⟩
  | signal j =>
    show Static s.db (s.db.signal j).2
    cases hx : s.db.get j with
    | none => unfold Db.signal; rw [hx]; exact Static.refl _
    | some y =>
      cases hs : y.signaled with
      | true => unfold Db.signal; rw [hx]; simp only [hs, if_true]; exact Static.refl _
      | false =>
        refine Static.of_map (Frame.signal s.db j).next _ ?_ (fun i => signal_get s.db j i hx hs)
        intro i e; split <;> exact SameStatic.refl _
  | signalGroup g =>
    refine Static.of_map (Frame.signalGroup s.db g).next _ ?_ (fun i => signalGroup_get s.db g i)
    intro i e; split <;> exact SameStatic.refl _
  | setTimer id d t p =>
    show Static s.db (s.db.setTimer id d t p).2
    unfold Db.setTimer
    cases s.db.get id with
    | none => exact Static.refl _
    | some e =>
      dsimp only
      split
      · exact Static.refl _
      · split
        · exact Static.refl _
        · refine Static.of_map rfl (fun j e => if j = id then { e with trigger := t, period := p } else e) ?_ ?_
          · intro i e; split <;> exact SameStatic.refl _
          · intro i; exact get_modify s.db id i _ (fun _ => rfl)
  | tick now =>
    refine Static.of_map (Frame.tick s.db now).next _ ?_ (fun i => tick_get hi.sorted now i)
    intro i e; exact ⟨rfl, rfl, rfl, rfl, rfl⟩
  | readAndClear id =>
    unfold HState.step; dsimp only
    split
    · exact Static.refl _
    · exact readAndClear_static _ _
  | queueNotify id =>
    unfold HState.step; dsimp only
    split
    · exact Static.refl _
    · exact queueNotify_static _ _
  | consume l =>
    exact Static.of_events (consume_events s.db l).2.1 (consume_events s.db l).1
  | clear id =>
    unfold HState.step; dsimp only
    split
    · exact clearSignal_static _ _
    · exact Static.refl _

/-! ### Ghost in-flight list -/

theorem isNS_of_events {a b : Db} (h : a.events = b.events) (i : Nat) : a.isNS i = b.isNS i := by
  unfold Db.isNS Db.get; rw [h]

theorem ne_of_isNS_false {db : Db} {fl : List Nat} (h : Inv db fl) {i : Nat} (hn : db.isNS i = false) {e : Event}
    (he : e ∈ db.events) (hns : isNotifySignal e.type = true) : e.id ≠ i := by
  rintro rfl
  unfold Db.isNS at hn
  rw [get_of_mem h.sorted he] at hn
  have hn : isNotifySignal e.type = false := hn
  rw [hns] at hn; cases hn

theorem Inv.push {db : Db} {fl : List Nat} (h : Inv db fl) {i : Nat} (hn : db.isNS i = false) (hi : i < db.nextId) :
    Inv db (i :: fl) := by
  refine ⟨h.sorted, h.ids, h.next, h.wf, h.psorted, h.tags, h.pev, h.pmatch, ?_, ?_⟩
  · intro e he hns
    rw [List.count_cons_of_ne (Ne.symm (ne_of_isNS_false h hn he hns))]
    exact h.ns e he hns
  · intro j hj
    rcases List.mem_cons.1 hj with rfl | hj
    · exact hi
    · exact h.infl j hj

theorem Inv.pop {db : Db} {fl : List Nat} {i : Nat} (h : Inv db (i :: fl)) (hn : db.isNS i = false) : Inv db fl := by
  refine ⟨h.sorted, h.ids, h.next, h.wf, h.psorted, h.tags, h.pev, h.pmatch, ?_, fun j hj => h.infl j (by simp [hj])⟩
  intro e he hns
  have := h.ns e he hns
  rwa [List.count_cons_of_ne (Ne.symm (ne_of_isNS_false h hn he hns))] at this

theorem takeNote_inv {h : HState} (hi : Inv h.db h.inflight) (t : Nat) :
    Inv (takeNote t h).2.db (takeNote t h).2.inflight := by
  have := hi.consume t
  unfold takeNote
  dsimp only
  cases hc : (h.db.consume t).1 with
  | none => rw [hc] at this; exact this
  | some n =>
    rw [hc] at this
    dsimp only at this ⊢
    split at this
    · exact this
    · rename_i hns
      refine this.push ?_ ?_
      · rw [isNS_of_events (consume_events h.db t).1]; simpa using hns
      · rw [(consume_events h.db t).2.1]
        exact (hi.pev n (consume_valid hc).2.2).1

/-! ### Postconditions -/

def Post {α : Type} (P : α → Prop) (Q : Cause → Prop) (r : Res α) : Prop :=
  match r with
  | .fuel => True
  | .panic c => Q c
  | .ok a => P a

theorem Post.bind {α β : Type} {P : α → Prop} {P' : β → Prop} {Q : Cause → Prop} {r : Res α} {k : α → Res β}
    (h : Post P Q r) (hk : ∀ a, P a → Post P' Q (k a)) : Post P' Q (r.bind k) := by
  cases r with
  | fuel => trivial
  | panic c => exact h
  | ok a => exact hk a h

theorem Post.mono {α : Type} {P P' : α → Prop} {Q Q' : Cause → Prop} {r : Res α} (h : Post P Q r)
    (hp : ∀ a, P a → P' a) (hq : ∀ c, Q c → Q' c) : Post P' Q' r := by
  cases r with
  | fuel => trivial
  | panic c => exact hq c h
  | ok a => exact hp a h

theorem Post.and {α : Type} {P P' : α → Prop} {Q Q' : Cause → Prop} {r : Res α} (h : Post P Q r)
    (h' : Post P' Q' r) : Post (fun a => P a ∧ P' a) (fun c => Q c ∧ Q' c) r := by
  cases r with
  | fuel => trivial
  | panic c => exact ⟨h, h'⟩
  | ok a => exact ⟨h, h'⟩

/-! ### Partial correctness with interrupts -/

structure Good (s : Sys) : Prop where
  inv : Inv s.h.db s.h.inflight
  unl : s.locked = false
  le : s.tpl ≤ 31

structure RC (s s' : Sys) : Prop where
  good : Good s'
  log : ∃ l, s'.log = s.log ++ l ∧ ∀ c ∈ l, c.tpl = c.note.tpl
  stat : Static s.h.db s'.h.db

structure RA (s s' : Sys) : Prop extends RC s s' where
  busy : s'.busy = s.busy
  fl : s'.h.inflight = s.h.inflight

theorem RC.refl {s : Sys} (h : Good s) : RC s s := ⟨h, ⟨[], by simp⟩, Static.refl _⟩

theorem RA.refl {s : Sys} (h : Good s) : RA s s := ⟨RC.refl h, rfl, rfl⟩

theorem RC.trans {a b c : Sys} (h1 : RC a b) (h2 : RC b c) : RC a c := by
  refine ⟨h2.good, ?_, h1.stat.trans h2.stat⟩
  obtain ⟨l1, e1, p1⟩ := h1.log
  obtain ⟨l2, e2, p2⟩ := h2.log
  refine ⟨l1 ++ l2, by rw [e2, e1, List.append_assoc], ?_⟩
  intro x hx
  rcases List.mem_append.1 hx with hx | hx
  · exact p1 x hx
  · exact p2 x hx

theorem RA.trans {a b c : Sys} (h1 : RA a b) (h2 : RA b c) : RA a c :=
  ⟨h1.toRC.trans h2.toRC, h2.busy.trans h1.busy, h2.fl.trans h1.fl⟩

/-- Internal panics that never happen. -/
def CoreOk (c : Cause) : Prop := c ≠ .reentrantLock ∧ c ≠ .coreTpl

def Cmd.Pre (s : Sys) : Cmd → Prop
  | .restore t => t ≤ s.tpl
  | .loop t => t ≤ 31
  | _ => True

def Cmd.Tpl (s s' : Sys) : Cmd → Prop
  | .restore t => s'.tpl = t
  | .loop _ => True
  | .poll => s'.tpl = s.tpl
  | .ticks _ => s'.tpl = s.tpl
  | .tick _ => s'.tpl = s.tpl
  | .acts _ => True
  | .act (.raise t) => s'.tpl = t ∧ s.tpl ≤ t
  | .act (.restore t) => s'.tpl = t ∧ t ≤ s.tpl
  | .act _ => s'.tpl = s.tpl

theorem raise31 (s : Sys) (hg : Good s) (c : Cause) :
    ∃ b, s.raise c TPL_HIGH_LEVEL = .ok (s.tpl, { s with tpl := 31, ints := b }) := by
  unfold Sys.raise
  have := hg.le
  simp only [TPL_HIGH_LEVEL]
  rw [if_neg (by omega), if_neg (by omega)]
  exact ⟨_, rfl⟩

/-- A database call: the operation happens, then the TPL is restored from 31. -/
theorem withDb_post {α : Type} {rest : Nat → Sys → Res Sys} {g : HState → α × HState} {s : Sys} {P : Sys → Prop}
    {Q : Cause → Prop} (hg : Good s) (hr : ∀ b, Post P Q (rest s.tpl { s with h := (g s.h).2, tpl := 31, ints := b })) :
    Post (fun r => r.1 = (g s.h).1 ∧ P r.2) Q (withDb rest g s) := by
  unfold withDb
  obtain ⟨b, hb⟩ := raise31 s hg .coreTpl
  rw [hb]
  simp only [Res.bind, hg.unl, Bool.false_eq_true, if_false]
  have hr := hr b
  have heq : ({ s with h := (g s.h).2, tpl := 31, ints := b, locked := false } : Sys) = { s with h := (g s.h).2, tpl := 31, ints := b } := by
    have := hg.unl
    cases s; simp at this; simp [this]
  simp only [heq]
  cases hres : rest s.tpl { s with h := (g s.h).2, tpl := 31, ints := b } with
  | fuel => trivial
  | panic c => rw [hres] at hr; exact hr
  | ok a => rw [hres] at hr; exact ⟨rfl, hr⟩

/-- A database call under the partial-correctness specification. -/
theorem withDb_spec {α : Type} {rest : Nat → Sys → Res Sys} {g : HState → α × HState} {s : Sys} (hg : Good s)
    (hr : ∀ s1, Good s1 → s.tpl ≤ s1.tpl → Post (fun s' => RA s1 s' ∧ s'.tpl = s.tpl) CoreOk (rest s.tpl s1))
    (hi : Inv (g s.h).2.db (g s.h).2.inflight) (hs : Static s.h.db (g s.h).2.db) :
    Post (fun r => r.1 = (g s.h).1 ∧ RC s r.2 ∧ r.2.busy = s.busy ∧ r.2.h.inflight = (g s.h).2.inflight ∧
      Static (g s.h).2.db r.2.h.db ∧ r.2.tpl = s.tpl) CoreOk (withDb rest g s) := by
  refine withDb_post (P := fun s' => RC s s' ∧ s'.busy = s.busy ∧ s'.h.inflight = (g s.h).2.inflight ∧
      Static (g s.h).2.db s'.h.db ∧ s'.tpl = s.tpl) hg ?_
  intro b
  refine (hr { s with h := (g s.h).2, tpl := 31, ints := b } ⟨hi, hg.unl, Nat.le_refl _⟩ hg.le).mono ?_ (fun _ h => h)
  rintro s' ⟨ha, ht⟩
  refine ⟨?_, ha.busy, ha.fl, ha.stat, ht⟩
  exact ⟨ha.good, ha.log, hs.trans ha.stat⟩

/-- A database call that does not touch the ghost list. -/
theorem withDb_spec' {α : Type} {rest : Nat → Sys → Res Sys} {g : HState → α × HState} {s : Sys} (hg : Good s)
    (hr : ∀ s1, Good s1 → s.tpl ≤ s1.tpl → Post (fun s' => RA s1 s' ∧ s'.tpl = s.tpl) CoreOk (rest s.tpl s1))
    (hi : Inv (g s.h).2.db (g s.h).2.inflight) (hs : Static s.h.db (g s.h).2.db)
    (hf : (g s.h).2.inflight = s.h.inflight) :
    Post (fun r => r.1 = (g s.h).1 ∧ RA s r.2 ∧ Static (g s.h).2.db r.2.h.db ∧ r.2.tpl = s.tpl) CoreOk (withDb rest g s) := by
  refine (withDb_spec hg hr hi hs).mono ?_ (fun _ h => h)
  rintro ⟨v, s'⟩ ⟨h1, h2, h3, h4, h5, h6⟩
  exact ⟨h1, ⟨h2, h3, h4.trans hf⟩, h5, h6⟩

theorem raise31_post {s : Sys} (hg : Good s) {β : Type} {P : β → Prop} {Q : Cause → Prop} {k : Nat × Sys → Res β}
    (h : ∀ b, Post P Q (k (s.tpl, { s with tpl := 31, ints := b }))) : Post P Q ((s.raise .coreTpl TPL_HIGH_LEVEL).bind k) := by
  obtain ⟨b, hb⟩ := raise31 s hg .coreTpl
  rw [hb]
  exact h b

theorem step_inflight (h : HState) (op : Op) (h1 : ∀ l, op ≠ .consume l) (h2 : ∀ i, op ≠ .clear i) :
    (h.step op).inflight = h.inflight := by
  cases op with
  | consume l => exact absurd rfl (h1 l)
  | clear i => exact absurd rfl (h2 i)
  | readAndClear id => unfold HState.step; dsimp only; split <;> rfl
  | queueNotify id => unfold HState.step; dsimp only; split <;> rfl
  | _ => rfl

theorem getType_ok {db : Db} {id ty : Nat} (h : db.getType id = .ok ty) : ∃ e, db.get id = some e ∧ e.type = ty := by
  unfold Db.getType at h
  cases hg : db.get id with
  | none => rw [hg] at h; cases h
  | some e => rw [hg] at h; cases h; exact ⟨e, rfl, rfl⟩

/-- Through static attributes, a non-NOTIFY_SIGNAL event stays so. -/
theorem isNS_static {a b : Db} {fl : List Nat} (ha : Inv a fl) (h : Static a b) {id : Nat} {e : Event}
    (he : a.get id = some e) (hn : isNotifySignal e.type = false) : b.isNS id = false := by
  unfold Db.isNS
  cases hb : b.get id with
  | none => rfl
  | some e' =>
    have hid : id < a.nextId := by have := ha.ids e (get_mem he); rwa [get_id he] at this
    obtain ⟨x, hx, hs⟩ := h.same id e' hid hb
    rw [he] at hx; cases hx
    show isNotifySignal e'.type = false
    rw [← hs.1]; exact hn

theorem inv_readAndClear {h : HState} (hi : Inv h.db h.inflight) {id : Nat} (hn : h.db.isNS id = false) :
    Inv (h.db.readAndClear id).2 h.inflight := by
  have := hi.step (.readAndClear id)
  unfold HState.step at this
  simp only [hn, Bool.false_eq_true, if_false] at this
  exact this

theorem inv_queueNotify {h : HState} (hi : Inv h.db h.inflight) {id : Nat} (hn : h.db.isNS id = false) :
    Inv (h.db.queueNotify id).2 h.inflight := by
  have := hi.step (.queueNotify id)
  unfold HState.step at this
  simp only [hn, Bool.false_eq_true, if_false] at this
  exact this

variable (beh : Nat → List Act) (irq : Nat → List Nat)

def SpecA (f : Nat) : Prop := ∀ c s, Good s → Cmd.Pre s c →
  Post (fun s' => RA s s' ∧ Cmd.Tpl s s' c) CoreOk (exec beh irq f c s)

theorem specA_zero : SpecA beh irq 0 := by
  intro c s _ _; unfold exec; trivial

variable {beh irq} {f : Nat}

theorem SpecA.rest (ih : SpecA beh irq f) {t : Nat} {s1 : Sys} (hg : Good s1) (ht : t ≤ s1.tpl) :
    Post (fun s' => RA s1 s' ∧ s'.tpl = t) CoreOk (exec beh irq f (.restore t) s1) := ih (.restore t) s1 hg ht

theorem SpecA.poll (ih : SpecA beh irq f) {s1 : Sys} (hg : Good s1) :
    Post (fun s' => RA s1 s' ∧ s'.tpl = s1.tpl) CoreOk (exec beh irq f .poll s1) := ih .poll s1 hg trivial

theorem SpecA.step (ih : SpecA beh irq f) (op : Op) (h1 : ∀ l, op ≠ .consume l) (h2 : ∀ i, op ≠ .clear i) {s : Sys} (hg : Good s) :
    Post (fun r => r.1 = () ∧ RA s r.2 ∧ Static (s.h.step op).db r.2.h.db ∧ r.2.tpl = s.tpl) CoreOk
      (withDb (fun t => exec beh irq f (.restore t)) (fun h => ((), h.step op)) s) :=
  withDb_spec' hg (fun _ hg1 hle => ih.rest hg1 hle) (hg.inv.step op) (step_static hg.inv op) (step_inflight s.h op h1 h2)

theorem Good.ofEq {s s' : Sys} (h : Good s) (h1 : s'.h = s.h) (h2 : s'.locked = s.locked) (h3 : s'.tpl ≤ 31) : Good s' :=
  ⟨h1 ▸ h.inv, h2 ▸ h.unl, h3⟩

/-- Register-like fields do not matter. -/
theorem RA.ofEq {s s' : Sys} (h : Good s) (h1 : s'.h = s.h) (h2 : s'.locked = s.locked) (h3 : s'.tpl ≤ 31)
    (h4 : s'.log = s.log) (h5 : s'.busy = s.busy) : RA s s' :=
  ⟨⟨h.ofEq h1 h2 h3, ⟨[], by simp [h4]⟩, by rw [h1]; exact Static.refl _⟩, h5, by rw [h1]⟩

theorem RC.ofEq {s s' : Sys} (h : Good s) (h1 : s'.h = s.h) (h2 : s'.locked = s.locked) (h3 : s'.tpl ≤ 31)
    (h4 : s'.log = s.log) : RC s s' :=
  ⟨h.ofEq h1 h2 h3, ⟨[], by simp [h4]⟩, by rw [h1]; exact Static.refl _⟩

theorem specA_poll (ih : SpecA beh irq f) (s : Sys) (hg : Good s) :
    Post (fun s' => RA s s' ∧ s'.tpl = s.tpl) CoreOk (exec beh irq (f + 1) .poll s) := by
  unfold exec
  dsimp only
  have h0 : RA s { s with polls := s.polls + 1 } := RA.ofEq hg rfl rfl hg.le rfl rfl
  split
  · refine (ih (.ticks (irq s.polls)) _ h0.good trivial).mono ?_ (fun _ h => h)
    rintro s' ⟨h1, h2⟩
    exact ⟨h0.trans h1, h2⟩
  · exact ⟨h0, rfl⟩

theorem specA_ticks (ih : SpecA beh irq f) (l : List Nat) (s : Sys) (hg : Good s) :
    Post (fun s' => RA s s' ∧ s'.tpl = s.tpl) CoreOk (exec beh irq (f + 1) (.ticks l) s) := by
  cases l with
  | nil => unfold exec; exact ⟨RA.refl hg, rfl⟩
  | cons dt l =>
    unfold exec
    have h0 : RA s { s with ints := false } := RA.ofEq hg rfl rfl hg.le rfl rfl
    refine (ih (.tick dt) _ h0.good trivial).bind ?_
    rintro s1 ⟨h1, t1⟩
    have t1 : s1.tpl = s.tpl := t1
    have h2 : RA s1 { s1 with ints := true } := RA.ofEq h1.good rfl rfl h1.good.le rfl rfl
    refine (ih (.ticks l) _ h2.good trivial).mono ?_ (fun _ h => h)
    rintro s' ⟨h3, t3⟩
    have t3 : s'.tpl = s1.tpl := t3
    exact ⟨h0.trans (h1.trans (h2.trans h3)), t3.trans t1⟩

theorem specA_tick (ih : SpecA beh irq f) (dt : Nat) (s : Sys) (hg : Good s) :
    Post (fun s' => RA s s' ∧ s'.tpl = s.tpl) CoreOk (exec beh irq (f + 1) (.tick dt) s) := by
  unfold exec
  refine raise31_post hg ?_
  intro b
  dsimp only
  have h0 : RA s { s with tpl := 31, ints := b, now := s.now + dt } := RA.ofEq hg rfl rfl (Nat.le_refl _) rfl rfl
  refine (ih.step (.tick (s.now + dt)) (by simp) (by simp) h0.good).bind ?_
  rintro ⟨_, s1⟩ ⟨_, h1, _, t1⟩
  have t1 : s1.tpl = 31 := t1
  refine (ih.rest h1.good (t := s.tpl) (by rw [t1]; exact hg.le)).mono ?_ (fun _ h => h)
  rintro s' ⟨h2, t2⟩
  exact ⟨h0.trans (h1.trans h2), t2⟩

theorem specA_restore (ih : SpecA beh irq f) (t : Nat) (s : Sys) (hg : Good s) (ht : t ≤ s.tpl) :
    Post (fun s' => RA s s' ∧ s'.tpl = t) CoreOk (exec beh irq (f + 1) (.restore t) s) := by
  unfold exec
  rw [if_neg (by omega)]
  dsimp only
  have h31 : t ≤ 31 := Nat.le_trans ht hg.le
  have h0 : RA s { s with tpl := t } := RA.ofEq hg rfl rfl h31 rfl rfl
  refine (ih.poll h0.good).bind ?_
  rintro s1 ⟨h1, _⟩
  have hmid : Post (fun s' => RA s1 s') CoreOk (if t < s.tpl then exec beh irq f (.loop t) s1 else .ok s1) := by
    split
    · exact (ih (.loop t) s1 h1.good h31).mono (fun _ h => h.1) (fun _ h => h)
    · exact RA.refl h1.good
  refine hmid.bind ?_
  intro s2 h2
  have h3 : RA s2 (if t < TPL_HIGH_LEVEL then { s2 with ints := true } else s2) := by
    split
    · exact RA.ofEq h2.good rfl rfl h2.good.le rfl rfl
    · exact RA.refl h2.good
  refine (ih.poll h3.good).bind ?_
  rintro s3 ⟨h4, _⟩
  have h5 : RA s3 { s3 with tpl := t } := RA.ofEq h4.good rfl rfl h31 rfl rfl
  refine (ih.poll h5.good).mono ?_ (fun _ h => h)
  rintro s4 ⟨h6, t6⟩
  exact ⟨h0.trans (h1.trans (h2.trans (h3.trans (h4.trans (h5.trans h6))))), t6⟩

theorem specA_loop (ih : SpecA beh irq f) (t : Nat) (s : Sys) (hg : Good s) (ht : t ≤ 31) :
    Post (fun s' => RA s s') CoreOk (exec beh irq (f + 1) (.loop t) s) := by
  unfold exec
  by_cases hb : s.busy = true
  · rw [if_pos hb]; exact RA.refl hg
  have hb : s.busy = false := by simpa using hb
  rw [if_neg (by simp [hb])]
  dsimp only
  have c0 : RC s { s with busy := true } := RC.ofEq hg rfl rfl hg.le rfl
  refine (ih.poll c0.good).bind ?_
  rintro s1 ⟨a1, _⟩
  have c1 := c0.trans a1.toRC
  have f1 : s1.h.inflight = s.h.inflight := a1.fl
  refine (withDb_spec c1.good (g := takeNote t) (fun _ hg1 hle => ih.rest hg1 hle) (takeNote_inv c1.good.inv t)
    (Static.of_events (consume_events s1.h.db t).2.1 (consume_events s1.h.db t).1)).bind ?_
  rintro ⟨ev, s2⟩ ⟨hev, a2, _, f2, _, _⟩
  have c2 := c1.trans a2
  refine (ih.poll c2.good).bind ?_
  rintro s3 ⟨a3, _⟩
  have c3 := c2.trans a3.toRC
  have f3 : s3.h.inflight = _ := a3.fl.trans f2
  have a4 : RC s3 { s3 with busy := false } := RC.ofEq c3.good rfl rfl c3.good.le rfl
  refine (ih.poll a4.good).bind ?_
  rintro s4 ⟨a5, _⟩
  have c5 := c3.trans (a4.trans a5.toRC)
  have f5 : s4.h.inflight = _ := a5.fl.trans f3
  have b5 : s4.busy = false := a5.busy
  cases ev with
  | none =>
    refine ⟨c5, b5.trans hb.symm, ?_⟩
    rw [f5]
    have : (s1.h.db.consume t).1 = none := hev.symm
    unfold takeNote; rw [this]; exact f1
  | some n =>
    have hcn : (s1.h.db.consume t).1 = some n := hev.symm
    have f5 : s4.h.inflight = n.event :: s.h.inflight := by
      rw [f5]; unfold takeNote; rw [hcn]; simp [f1]
    have ntpl : n.tpl ≤ 31 := (c1.good.inv.pev n (consume_valid hcn).2.2).2.2
    dsimp only
    have a6 : RA s4 { s4 with ints := decide (n.tpl < TPL_HIGH_LEVEL) } := RA.ofEq c5.good rfl rfl c5.good.le rfl rfl
    refine (ih.poll a6.good).bind ?_
    rintro s5 ⟨a7, _⟩
    have a7' : RA s4 s5 := a6.trans a7
    have a8 : RA s5 { s5 with tpl := n.tpl } := RA.ofEq a7.good rfl rfl ntpl rfl rfl
    refine (ih.poll a8.good).bind ?_
    rintro s6 ⟨a9, t9⟩
    have a9' := a7'.trans (a8.trans a9)
    have t9 : s6.tpl = n.tpl := t9
    refine (withDb_spec' a9.good (g := fun h => (h.db.getType n.event, h)) (fun _ hg1 hle => ih.rest hg1 hle) a9.good.inv
      (Static.refl _) rfl).bind ?_
    rintro ⟨ty, s7⟩ ⟨hty, a10, st10, t10⟩
    have a10' := a9'.trans a10
    cases ty with
    | err e => exact ⟨by simp, by simp⟩
    | panic => exact ⟨by simp, by simp⟩
    | ok ty =>
      obtain ⟨e, he, hety⟩ := getType_ok hty.symm
      dsimp only
      refine (ih.poll a10.good).bind ?_
      rintro s8 ⟨a11, t11⟩
      have a11' := a10'.trans a11
      have f8 : s8.h.inflight = n.event :: s.h.inflight := a11'.fl.trans f5
      have b8 : s8.busy = false := a11'.busy.trans b5
      have t8 : s8.tpl = n.tpl := t11.trans (t10.trans t9)
      have hclear : Post (fun r : Unit × Sys => RC s8 r.2 ∧ r.2.busy = false ∧ r.2.h.inflight = s.h.inflight ∧ r.2.tpl = n.tpl) CoreOk
          (if isNotifySignal ty then withDb (fun t => exec beh irq f (.restore t)) (clearNote n.event) s8
            else .ok ((), { s8 with h := ⟨s8.h.db, s8.h.inflight.erase n.event⟩ })) := by
        split
        · have hinv : Inv (s8.h.db.clearSignal n.event).2 (s8.h.inflight.erase n.event) :=
            a11.good.inv.clearNS n.event (by rw [f8]; simp)
          refine (withDb_spec a11.good (g := clearNote n.event) (fun _ hg1 hle => ih.rest hg1 hle) hinv
            (clearSignal_static _ _)).mono ?_ (fun _ h => h)
          rintro ⟨_, s9⟩ ⟨_, h1, h2, h3, _, h5⟩
          refine ⟨h1, h2.trans b8, ?_, h5.trans t8⟩
          rw [h3]; unfold clearNote; simp [f8]
        · rename_i hns
          have hns : isNotifySignal ty = false := by simpa using hns
          have hisns : s8.h.db.isNS n.event = false :=
            isNS_static a9.good.inv (st10.trans a11.stat) he (by rw [hety]; exact hns)
          have hinv : Inv s8.h.db s.h.inflight := by
            have := a11.good.inv
            rw [f8] at this
            exact this.pop hisns
          have hfe : s8.h.inflight.erase n.event = s.h.inflight := by rw [f8]; simp
          rw [hfe]
          exact ⟨⟨⟨hinv, a11.good.unl, a11.good.le⟩, ⟨[], by simp⟩, Static.refl _⟩, b8, rfl, t8⟩
      refine hclear.bind ?_
      rintro ⟨_, s9⟩ ⟨a12, b9, f9, t9'⟩
      dsimp only at a12 b9 f9 t9' ⊢
      refine (ih.poll a12.good).bind ?_
      rintro s10 ⟨a13, t13⟩
      have t10' : s10.tpl = n.tpl := t13.trans t9'
      have hcall : Post (fun s' => RA s10 s') CoreOk
          (if n.fn.isSome then
            exec beh irq f (.acts (beh s10.calls))
              { s10 with calls := s10.calls + 1, log := s10.log ++ [⟨n, s10.tpl, s10.h.db.isValid n.event⟩] }
            else .ok s10) := by
        split
        · have hg' : Good { s10 with calls := s10.calls + 1, log := s10.log ++ [⟨n, s10.tpl, s10.h.db.isValid n.event⟩] } :=
            a13.good.ofEq rfl rfl a13.good.le
          refine (ih (.acts (beh s10.calls)) _ hg' trivial).mono ?_ (fun _ h => h)
          rintro s11 ⟨h1, _⟩
          refine ⟨⟨h1.good, ?_, h1.stat⟩, h1.busy, h1.fl⟩
          obtain ⟨l, hl, hp⟩ := h1.log
          refine ⟨⟨n, s10.tpl, s10.h.db.isValid n.event⟩ :: l, by rw [hl]; simp, ?_⟩
          intro c hc
          rcases List.mem_cons.1 hc with rfl | hc
          · exact t10'
          · exact hp c hc
        · exact RA.refl a13.good
      refine hcall.bind ?_
      intro s11 a14
      refine (ih (.loop t) s11 a14.good ht).mono ?_ (fun _ h => h)
      rintro s12 ⟨a15, _⟩
      refine ⟨c5.trans (a11'.toRC.trans (a12.trans (a13.toRC.trans (a14.toRC.trans a15.toRC)))), ?_, ?_⟩
      · rw [a15.busy, a14.busy, a13.busy, b9, hb]
      · rw [a15.fl, a14.fl, a13.fl, f9]

theorem specA_db (ih : SpecA beh irq f) (op : Op) (h1 : ∀ l, op ≠ .consume l) (h2 : ∀ i, op ≠ .clear i) {s : Sys} (hg : Good s) :
    Post (fun s' => RA s s' ∧ s'.tpl = s.tpl) CoreOk
      ((withDb (fun t => exec beh irq f (.restore t)) (fun h => ((), h.step op)) s).bind fun (_, s) => .ok s) := by
  refine (ih.step op h1 h2 hg).bind ?_
  rintro ⟨_, s1⟩ ⟨_, h1, _, t1⟩
  exact ⟨h1, t1⟩

theorem specA_act (ih : SpecA beh irq f) (a : Act) (s : Sys) (hg : Good s) :
    Post (fun s' => RA s s' ∧ Cmd.Tpl s s' (.act a)) CoreOk (exec beh irq (f + 1) (.act a) s) := by
  cases a with
  | raise t =>
    unfold exec Sys.raise
    split
    · exact ⟨by simp, by simp⟩
    · split
      · exact ⟨by simp, by simp⟩
      · rename_i h1 h2
        simp only [TPL_HIGH_LEVEL] at h1
        exact ⟨RA.ofEq hg rfl rfl (by simpa using h1) rfl rfl, rfl, by omega⟩
  | restore t =>
    unfold exec
    split
    · exact ⟨by simp, by simp⟩
    · rename_i h
      refine (ih.rest hg (t := t) (by omega)).mono ?_ (fun _ h => h)
      rintro s' ⟨h1, h2⟩
      exact ⟨h1, h2, by omega⟩
  | signal id =>
    unfold exec
    refine (ih.step (.signal id) (by simp) (by simp) hg).bind ?_
    rintro ⟨_, s1⟩ ⟨_, h1, _, t1⟩
    dsimp only at h1 t1 ⊢
    refine (ih.poll h1.good).bind ?_
    rintro s2 ⟨h2, t2⟩
    refine raise31_post h2.good ?_
    intro b
    dsimp only
    have h3 : RA s2 { s2 with tpl := 31, ints := b } := RA.ofEq h2.good rfl rfl (Nat.le_refl _) rfl rfl
    refine (ih.rest h3.good (t := s2.tpl) h2.good.le).mono ?_ (fun _ h => h)
    rintro s' ⟨h4, t4⟩
    exact ⟨h1.trans (h2.trans (h3.trans h4)), t4.trans (t2.trans t1)⟩
  | check id =>
    unfold exec
    refine (withDb_spec' hg (g := fun h => (h.db.getType id, h)) (fun _ hg1 hle => ih.rest hg1 hle) hg.inv
      (Static.refl _) rfl).bind ?_
    rintro ⟨ty, s1⟩ ⟨hty, a1, st1, t1⟩
    dsimp only at hty a1 st1 t1 ⊢
    cases ty with
    | err e => exact ⟨a1, t1⟩
    | panic => exact ⟨a1, t1⟩
    | ok ty =>
      obtain ⟨e, he, hety⟩ := getType_ok hty.symm
      dsimp only
      split
      · exact ⟨a1, t1⟩
      rename_i hns
      have hns : isNotifySignal ty = false := by simpa using hns
      have hNS : ∀ s', RA s s' → s'.h.db.isNS id = false := fun s' h =>
        isNS_static hg.inv h.stat he (by rw [hety]; exact hns)
      refine (ih.poll a1.good).bind ?_
      rintro s2 ⟨a2, t2⟩
      have a2' := a1.trans a2
      refine (withDb_spec' a2.good (g := fun h => ((h.db.readAndClear id).1, (⟨(h.db.readAndClear id).2, h.inflight⟩ : HState)))
        (fun _ hg1 hle => ih.rest hg1 hle) (inv_readAndClear a2.good.inv (hNS s2 a2')) (readAndClear_static _ _) rfl).bind ?_
      rintro ⟨r, s3⟩ ⟨_, a3, _, t3⟩
      dsimp only at a3 t3 ⊢
      have a3' := a2'.trans a3
      have t3' := t3.trans (t2.trans t1)
      split
      · refine (ih.poll a3.good).bind ?_
        rintro s4 ⟨a4, t4⟩
        have a4' := a3'.trans a4
        refine (withDb_spec' a4.good (g := fun h => ((h.db.queueNotify id).1, (⟨(h.db.queueNotify id).2, h.inflight⟩ : HState)))
          (fun _ hg1 hle => ih.rest hg1 hle) (inv_queueNotify a4.good.inv (hNS s4 a4')) (queueNotify_static _ _) rfl).bind ?_
        rintro ⟨r, s5⟩ ⟨_, a5, _, t5⟩
        dsimp only at a5 t5 ⊢
        have a5' := a4'.trans a5
        have t5' := t5.trans (t4.trans t3')
        split
        · refine (ih.poll a5.good).bind ?_
          rintro s6 ⟨a6, t6⟩
          refine raise31_post a6.good ?_
          intro b
          dsimp only
          have a7 : RA s6 { s6 with tpl := 31, ints := b } := RA.ofEq a6.good rfl rfl (Nat.le_refl _) rfl rfl
          refine (ih.rest a7.good (t := s6.tpl) a6.good.le).bind ?_
          rintro s7 ⟨a8, t8⟩
          have a8' := a5'.trans (a6.trans (a7.trans a8))
          refine (withDb_spec' a8.good (g := fun h => ((h.db.readAndClear id).1, (⟨(h.db.readAndClear id).2, h.inflight⟩ : HState)))
            (fun _ hg1 hle => ih.rest hg1 hle) (inv_readAndClear a8.good.inv (hNS s7 a8')) (readAndClear_static _ _) rfl).bind ?_
          rintro ⟨r, s8⟩ ⟨_, a9, _, t9⟩
          exact ⟨a8'.trans a9, t9.trans (t8.trans (t6.trans t5'))⟩
        · exact ⟨a5', t5'⟩
      · exact ⟨a3', t3'⟩
  | create ty tpl fn ctx g => unfold exec; exact specA_db ih _ (by simp) (by simp) hg
  | close id => unfold exec; exact specA_db ih _ (by simp) (by simp) hg
  | setTimer id d time => unfold exec; exact specA_db ih _ (by simp) (by simp) hg
  | signalGroup g => unfold exec; exact specA_db ih _ (by simp) (by simp) hg
  | tick dt => unfold exec; exact ih (.tick dt) s hg trivial

theorem specA_acts (ih : SpecA beh irq f) (l : List Act) (s : Sys) (hg : Good s) :
    Post (fun s' => RA s s') CoreOk (exec beh irq (f + 1) (.acts l) s) := by
  cases l with
  | nil => unfold exec; exact RA.refl hg
  | cons a l =>
    unfold exec
    refine (ih (.act a) s hg trivial).bind ?_
    rintro s1 ⟨h1, _⟩
    refine (ih.poll h1.good).bind ?_
    rintro s2 ⟨h2, _⟩
    refine (ih (.acts l) s2 h2.good trivial).mono ?_ (fun _ h => h)
    rintro s3 ⟨h3, _⟩
    exact h1.trans (h2.trans h3)

theorem specA (beh : Nat → List Act) (irq : Nat → List Nat) : ∀ f, SpecA beh irq f := by
  intro f
  induction f with
  | zero => exact specA_zero beh irq
  | succ f ih =>
    intro c s hg hp
    cases c with
    | restore t => exact specA_restore ih t s hg hp
    | loop t => exact (specA_loop ih t s hg hp).mono (fun _ h => ⟨h, trivial⟩) (fun _ h => h)
    | poll => exact specA_poll ih s hg
    | ticks l => exact specA_ticks ih l s hg
    | tick dt => exact specA_tick ih dt s hg
    | acts l => exact (specA_acts ih l s hg).mono (fun _ h => ⟨h, trivial⟩) (fun _ h => h)
    | act a => exact specA_act ih a s hg

end Verif.Events
