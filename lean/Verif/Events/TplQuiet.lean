import Verif.Events.TplLemmas
namespace Verif.Events

/-- No pending notification of an existing event is above `t`. -/
def Idle (t : Nat) (db : Db) : Prop := ∀ n ∈ db.pending, db.isValid n.event = true → n.tpl ≤ t

def Quiet (s : Sys) : Prop := Idle s.tpl s.h.db

/-- The new notify calls are all of existing events. -/
def Alive (s s' : Sys) : Prop := ∃ l, s'.log = s.log ++ l ∧ ∀ c ∈ l, c.alive = true

theorem Alive.refl (s : Sys) : Alive s s := ⟨[], by simp⟩
theorem Alive.ofEq {s s' : Sys} (h : s'.log = s.log) : Alive s s' := ⟨[], by simp [h]⟩
theorem Alive.trans {a b c : Sys} (h1 : Alive a b) (h2 : Alive b c) : Alive a c := by
  obtain ⟨l1, e1, p1⟩ := h1
  obtain ⟨l2, e2, p2⟩ := h2
  refine ⟨l1 ++ l2, by rw [e2, e1, List.append_assoc], ?_⟩
  intro x hx
  rcases List.mem_append.1 hx with hx | hx
  · exact p1 x hx
  · exact p2 x hx

theorem isValid_events {a b : Db} (h : a.events = b.events) (i : Nat) : a.isValid i = b.isValid i := by
  unfold Db.isValid Db.get; rw [h]

theorem isValid_ids {a b : Db} (h : a.events.map (·.id) = b.events.map (·.id)) (i : Nat) : a.isValid i = b.isValid i := by
  have h1 := get_isSome a i
  have h2 := get_isSome b i
  rw [h] at h1
  unfold Db.isValid
  rw [Bool.eq_iff_iff, h1, h2]

theorem idle31 {db : Db} {fl : List Nat} (h : Inv db fl) : Idle 31 db := fun n hn _ => (h.pev n hn).2.2

theorem consume_idle {db : Db} {t : Nat} (h : Idle t db) : (db.consume t).1 = none := by
  cases hc : (db.consume t).1 with
  | none => rfl
  | some n =>
    obtain ⟨h1, h2, h3⟩ := consume_valid hc
    have := h n h3 h1
    omega

theorem idle_consume_none {db : Db} {fl : List Nat} (hi : Inv db fl) {t : Nat} (hc : (db.consume t).1 = none) :
    Idle t (db.consume t).2 := by
  intro m hm hmv
  have hev := (consume_events db t).1
  rw [isValid_events hev] at hmv
  obtain ⟨dead, rest, hp, hd, hcs⟩ := consume_cases db t
  have hps := hi.psorted
  rw [hp] at hps
  rcases hcs with ⟨hr, heq⟩ | ⟨x, tl, hr, hv, ⟨hl, heq⟩ | ⟨hl, heq⟩⟩
  · rw [heq] at hm; cases hm
  · rw [heq] at hm
    rw [hr] at hps
    have hps' := (List.pairwise_append.1 hps).2.1
    rcases List.mem_cons.1 hm with rfl | hm
    · exact hl
    · have := (List.pairwise_cons.1 hps').1 m hm
      simp only [Note.before, Bool.or_eq_true, decide_eq_true_eq, Bool.and_eq_true, beq_iff_eq] at this
      omega
  · rw [heq] at hc; cases hc

theorem idle_consume_some {db : Db} {fl : List Nat} (hi : Inv db fl) {t : Nat} {n : Note} (hc : (db.consume t).1 = some n) :
    Idle n.tpl (db.consume t).2 := by
  intro m hm _
  obtain ⟨dead, rest, hp, hd, hcs⟩ := consume_cases db t
  have hps := hi.psorted
  rw [hp] at hps
  rcases hcs with ⟨hr, heq⟩ | ⟨x, tl, hr, hv, ⟨hl, heq⟩ | ⟨hl, heq⟩⟩
  · rw [heq] at hc; cases hc
  · rw [heq] at hc; cases hc
  · rw [heq] at hm hc
    cases hc
    rw [hr] at hps
    have hps' := (List.pairwise_append.1 hps).2.1
    have := (List.pairwise_cons.1 hps').1 m hm
    simp only [Note.before, Bool.or_eq_true, decide_eq_true_eq, Bool.and_eq_true, beq_iff_eq] at this
    omega

theorem clearSignal_shape (db : Db) (id : Nat) :
    (db.clearSignal id).2.pending = db.pending ∧ (db.clearSignal id).2.events.map (·.id) = db.events.map (·.id) := by
  unfold Db.clearSignal
  cases db.get id with
  | none => exact ⟨rfl, rfl⟩
  | some e => exact ⟨rfl, modify_ids db id _ (fun _ => rfl)⟩

/-- No interrupts. -/
def noIrq : Nat → List Nat := fun _ => []

variable {beh : Nat → List Act}

theorem poll_post (f : Nat) (s : Sys) :
    Post (fun s' => s' = { s with polls := s.polls + 1 }) (fun _ => False) (exec beh noIrq f .poll s) := by
  cases f with
  | zero => unfold exec; trivial
  | succ f =>
    unfold exec
    dsimp only
    split
    · cases f with
      | zero => unfold exec; trivial
      | succ f => unfold noIrq exec; rfl
    · rfl

/-- While a consume is in progress, restoring only changes the TPL and the interrupt flag. -/
theorem busyRestore (f : Nat) (t : Nat) (s : Sys) (hb : s.busy = true) (ht : t ≤ s.tpl) :
    Post (fun s' => s'.h = s.h ∧ s'.log = s.log ∧ s'.tpl = t ∧ s'.busy = true ∧ s'.locked = s.locked) (fun _ => False)
      (exec beh noIrq f (.restore t) s) := by
  cases f with
  | zero => unfold exec; trivial
  | succ f =>
    unfold exec
    rw [if_neg (by omega)]
    dsimp only
    refine (poll_post f _).bind ?_
    rintro s1 rfl
    have hmid : Post (fun s' : Sys => s'.h = s.h ∧ s'.log = s.log ∧ s'.busy = true ∧ s'.locked = s.locked) (fun _ => False)
        (if t < s.tpl then exec beh noIrq f (.loop t) { s with tpl := t, polls := s.polls + 1 }
          else .ok { s with tpl := t, polls := s.polls + 1 }) := by
      split
      · cases f with
        | zero => unfold exec; trivial
        | succ f => unfold exec; rw [if_pos (by exact hb)]; exact ⟨rfl, rfl, hb, rfl⟩
      · exact ⟨rfl, rfl, hb, rfl⟩
    refine hmid.bind ?_
    rintro s2 ⟨h1, h2, h3, h4⟩
    refine (poll_post f _).bind ?_
    rintro s3 rfl
    refine (poll_post f _).mono ?_ (fun _ h => h)
    rintro s4 rfl
    dsimp only
    split <;> exact ⟨h1, h2, rfl, h3, h4⟩

/-- Taking the next notification, without interrupts. -/
theorem take_post (f : Nat) (t : Nat) (s : Sys) (hg : Good s) (hb : s.busy = true) :
    Post (fun r => r.1 = (takeNote t s.h).1 ∧ r.2.h = (takeNote t s.h).2 ∧ r.2.log = s.log ∧ r.2.tpl = s.tpl ∧
      r.2.busy = true ∧ r.2.locked = s.locked) (fun _ => False)
      (withDb (fun t => exec beh noIrq f (.restore t)) (takeNote t) s) := by
  refine withDb_post (P := fun s' => s'.h = (takeNote t s.h).2 ∧ s'.log = s.log ∧ s'.tpl = s.tpl ∧
      s'.busy = true ∧ s'.locked = s.locked) hg ?_
  intro b
  exact busyRestore f s.tpl { s with h := (takeNote t s.h).2, tpl := 31, ints := b } hb hg.le

/-- The prefix of one loop iteration up to the point where the notification is known. -/
theorem idleLoop (f : Nat) (t : Nat) (s : Sys) (hg : Good s) (hb : s.busy = false) (hi : Idle t s.h.db) :
    Post (fun s' => s'.h.db.events = s.h.db.events ∧ Idle t s'.h.db ∧ s'.log = s.log) (fun _ => False)
      (exec beh noIrq f (.loop t) s) := by
  cases f with
  | zero => unfold exec; trivial
  | succ f =>
    unfold exec
    rw [if_neg (by simp [hb])]
    dsimp only
    refine (poll_post f _).bind ?_
    rintro s1 rfl
    have gX : Good { s with busy := true, polls := s.polls + 1 } := hg.ofEq rfl rfl hg.le
    refine (take_post f t _ gX rfl).bind ?_
    rintro ⟨ev, s2⟩ ⟨h1, h2, h3, _, _, _⟩
    dsimp only at h1 h2 h3 ⊢
    refine (poll_post f _).bind ?_
    rintro s3 rfl
    refine (poll_post f _).bind ?_
    rintro s4 rfl
    have hev : ev = none := by rw [h1]; unfold takeNote; exact consume_idle hi
    subst hev
    dsimp only
    rw [h2]
    unfold takeNote
    exact ⟨(consume_events _ _).1, idle_consume_none hg.inv (consume_idle hi), h3⟩

theorem idleRestore (f : Nat) (t : Nat) (s : Sys) (hg : Good s) (hb : s.busy = false) (ht : t ≤ s.tpl) (hi : Idle t s.h.db) :
    Post (fun s' => s'.h.db.events = s.h.db.events ∧ Idle t s'.h.db ∧ s'.log = s.log) (fun _ => False)
      (exec beh noIrq f (.restore t) s) := by
  cases f with
  | zero => unfold exec; trivial
  | succ f =>
    unfold exec
    rw [if_neg (by omega)]
    dsimp only
    refine (poll_post f _).bind ?_
    rintro s1 rfl
    have hmid : Post (fun s' : Sys => s'.h.db.events = s.h.db.events ∧ Idle t s'.h.db ∧ s'.log = s.log) (fun _ => False)
        (if t < s.tpl then exec beh noIrq f (.loop t) { s with tpl := t, polls := s.polls + 1 }
          else .ok { s with tpl := t, polls := s.polls + 1 }) := by
      split
      · exact idleLoop f t _ (hg.ofEq rfl rfl (Nat.le_trans ht hg.le)) hb hi
      · exact ⟨rfl, hi, rfl⟩
    refine hmid.bind ?_
    rintro s2 ⟨h1, h2, h3⟩
    refine (poll_post f _).bind ?_
    rintro s3 rfl
    refine (poll_post f _).mono ?_ (fun _ h => h)
    rintro s4 rfl
    dsimp only
    split <;> exact ⟨h1, h2, h3⟩

/-! ### The user-level invariant -/

def Cmd.PreB (s : Sys) : Cmd → Prop
  | .restore t => t ≤ s.tpl ∧ (t = s.tpl → Quiet s)
  | .loop t => t ≤ 31
  | .poll => False
  | .ticks _ => False
  | .tick _ => Quiet s
  | .acts _ => Quiet s
  | .act _ => Quiet s

def Cmd.PostB (s' : Sys) : Cmd → Prop
  | .restore t => Idle t s'.h.db
  | .loop t => Idle t s'.h.db
  | _ => Quiet s'

def NoPanic (c : Cause) : Prop := c = .misuse

def SpecB (beh : Nat → List Act) (f : Nat) : Prop := ∀ c s, Good s → s.busy = false → Cmd.PreB s c →
  Post (fun s' => Alive s s' ∧ Cmd.PostB s' c) (fun c => c ≠ .unwrapType) (exec beh noIrq f c s)

theorem PreB.pre {s : Sys} {c : Cmd} (h : Cmd.PreB s c) : Cmd.Pre s c := by
  cases c with
  | restore t => exact h.1
  | loop t => exact h
  | _ => trivial

/-- Both specifications together. -/
theorem SpecB.full {f : Nat} (ih : SpecB beh f) (c : Cmd) (s : Sys) (hg : Good s) (hb : s.busy = false) (hp : Cmd.PreB s c) :
    Post (fun s' => Good s' ∧ s'.busy = false ∧ Cmd.Tpl s s' c ∧ Alive s s' ∧ Cmd.PostB s' c) (fun c => c ≠ .unwrapType)
      (exec beh noIrq f c s) := by
  refine ((specA beh noIrq f c s hg (PreB.pre hp)).and (ih c s hg hb hp)).mono ?_ (fun _ h => h.2)
  rintro s' ⟨⟨h1, h2⟩, h3, h4⟩
  exact ⟨h1.good, h1.busy.trans hb, h2, h3, h4⟩

theorem preB_rest {s : Sys} (hg : Good s) (h' : HState) (hi : Inv h'.db h'.inflight) (b : Bool) :
    Cmd.PreB { s with h := h', tpl := 31, ints := b } (.restore s.tpl) := by
  refine ⟨hg.le, ?_⟩
  intro _
  exact idle31 hi

/-- A database call made at user level ends quiet. -/
theorem SpecB.db {f : Nat} (ih : SpecB beh f) {α : Type} (g : HState → α × HState) {s : Sys} (hg : Good s)
    (hb : s.busy = false) (hi : Inv (g s.h).2.db (g s.h).2.inflight) :
    Post (fun r => r.1 = (g s.h).1 ∧ Good r.2 ∧ r.2.busy = false ∧ r.2.tpl = s.tpl ∧ Alive s r.2 ∧ Quiet r.2 ∧
        Static (g s.h).2.db r.2.h.db)
      (fun c => c ≠ .unwrapType) (withDb (fun t => exec beh noIrq f (.restore t)) g s) := by
  refine withDb_post (P := fun s' => Good s' ∧ s'.busy = false ∧ s'.tpl = s.tpl ∧ Alive s s' ∧ Quiet s' ∧ Static (g s.h).2.db s'.h.db) hg ?_
  intro b
  have hg1 : Good { s with h := (g s.h).2, tpl := 31, ints := b } := ⟨hi, hg.unl, Nat.le_refl _⟩
  have hp := preB_rest hg (g s.h).2 hi b
  refine ((specA beh noIrq f (.restore s.tpl) _ hg1 hp.1).and (ih _ _ hg1 hb hp)).mono ?_ (fun _ h => h.2)
  rintro s' ⟨⟨h1, h2⟩, h3, h4⟩
  have h2 : s'.tpl = s.tpl := h2
  refine ⟨h1.good, h1.busy.trans hb, h2, h3, ?_, h1.stat⟩
  unfold Quiet; rw [h2]; exact h4

theorem specB_restore {f : Nat} (ih : SpecB beh f) (t : Nat) (s : Sys) (hg : Good s) (hb : s.busy = false)
    (hp : t ≤ s.tpl ∧ (t = s.tpl → Quiet s)) :
    Post (fun s' => Alive s s' ∧ Idle t s'.h.db) (fun c => c ≠ .unwrapType) (exec beh noIrq (f + 1) (.restore t) s) := by
  unfold exec
  rw [if_neg (by omega)]
  dsimp only
  have h31 : t ≤ 31 := Nat.le_trans hp.1 hg.le
  refine ((poll_post f _).mono (fun _ h => h) (fun _ h => h.elim)).bind ?_
  rintro s1 rfl
  have hmid : Post (fun s' : Sys => Alive s s' ∧ Idle t s'.h.db) (fun c => c ≠ .unwrapType)
      (if t < s.tpl then exec beh noIrq f (.loop t) { s with tpl := t, polls := s.polls + 1 }
        else .ok { s with tpl := t, polls := s.polls + 1 }) := by
    split
    · exact ih (.loop t) { s with tpl := t, polls := s.polls + 1 } (hg.ofEq rfl rfl h31) hb h31
    · have : t = s.tpl := by omega
      refine ⟨Alive.ofEq rfl, ?_⟩
      rw [this]; exact hp.2 this
  refine hmid.bind ?_
  rintro s2 ⟨h1, h2⟩
  refine ((poll_post f _).mono (fun _ h => h) (fun _ h => h.elim)).bind ?_
  rintro s3 rfl
  refine (poll_post f _).mono ?_ (fun _ h => h.elim)
  rintro s4 rfl
  dsimp only
  split
  · exact ⟨h1.trans (Alive.ofEq rfl), h2⟩
  · exact ⟨h1.trans (Alive.ofEq rfl), h2⟩

theorem Post.noPanic {α : Type} {P : α → Prop} {Q : Cause → Prop} {r : Res α} (h : Post P (fun _ => False) r) : Post P Q r :=
  h.mono (fun _ h => h) (fun _ h => h.elim)

/-- A database call made by the dispatcher at the notification's TPL, when nothing above it is pending. -/
theorem idleDb (f : Nat) {α : Type} (g : HState → α × HState) {s : Sys} (hg : Good s) (hb : s.busy = false)
    (hi : Inv (g s.h).2.db (g s.h).2.inflight) (hq : Idle s.tpl (g s.h).2.db) :
    Post (fun r => r.1 = (g s.h).1 ∧ Good r.2 ∧ r.2.busy = false ∧ r.2.tpl = s.tpl ∧ r.2.log = s.log ∧ Quiet r.2 ∧
        r.2.h.db.events = (g s.h).2.db.events ∧ r.2.h.inflight = (g s.h).2.inflight)
      (fun c => c ≠ .unwrapType) (withDb (fun t => exec beh noIrq f (.restore t)) g s) := by
  refine withDb_post (P := fun s' => Good s' ∧ s'.busy = false ∧ s'.tpl = s.tpl ∧ s'.log = s.log ∧ Quiet s' ∧
    s'.h.db.events = (g s.h).2.db.events ∧ s'.h.inflight = (g s.h).2.inflight) hg ?_
  intro b
  have hg1 : Good { s with h := (g s.h).2, tpl := 31, ints := b } := ⟨hi, hg.unl, Nat.le_refl _⟩
  refine ((specA beh noIrq f (.restore s.tpl) _ hg1 hg.le).and (idleRestore f s.tpl _ hg1 hb hg.le hq)).mono ?_
    (fun _ h => h.2.elim)
  rintro s' ⟨⟨h1, h2⟩, h3, h4, h5⟩
  have h2 : s'.tpl = s.tpl := h2
  refine ⟨h1.good, h1.busy.trans hb, h2, h5, ?_, h3, h1.fl⟩
  unfold Quiet; rw [h2]; exact h4

theorem specB_loop {f : Nat} (ih : SpecB beh f) (t : Nat) (s : Sys) (hg : Good s) (hb : s.busy = false) (ht : t ≤ 31) :
    Post (fun s' => Alive s s' ∧ Idle t s'.h.db) (fun c => c ≠ .unwrapType) (exec beh noIrq (f + 1) (.loop t) s) := by
  unfold exec
  rw [if_neg (by simp [hb])]
  dsimp only
  refine (poll_post f _).noPanic.bind ?_
  rintro s1 rfl
  have gX : Good { s with busy := true, polls := s.polls + 1 } := hg.ofEq rfl rfl hg.le
  refine (take_post f t _ gX rfl).noPanic.bind ?_
  rintro ⟨ev, s2⟩ ⟨h1, h2, h3, _, _, h6⟩
  dsimp only at h1 h2 h3 h6 ⊢
  refine (poll_post f _).noPanic.bind ?_
  rintro s3 rfl
  refine (poll_post f _).noPanic.bind ?_
  rintro s4 rfl
  cases ev with
  | none =>
    have hc : (s.h.db.consume t).1 = none := h1.symm
    refine ⟨Alive.ofEq h3, ?_⟩
    dsimp only
    rw [h2]
    exact idle_consume_none hg.inv hc
  | some n =>
    have hc : (s.h.db.consume t).1 = some n := h1.symm
    obtain ⟨hv, _, hmem⟩ := consume_valid hc
    have ntpl : n.tpl ≤ 31 := (hg.inv.pev n hmem).2.2
    have hinv2 : Inv s2.h.db s2.h.inflight := by rw [h2]; exact takeNote_inv hg.inv t
    have hev2 : s2.h.db.events = s.h.db.events := by rw [h2]; exact (consume_events _ _).1
    have hidle2 : Idle n.tpl s2.h.db := by rw [h2]; exact idle_consume_some hg.inv hc
    have hfl2 : s2.h.inflight = n.event :: s.h.inflight := by rw [h2]; unfold takeNote; rw [hc]
    dsimp only
    refine (poll_post f _).noPanic.bind ?_
    rintro s5 rfl
    refine (poll_post f _).noPanic.bind ?_
    rintro s6 rfl
    dsimp only
    -- the state at the notification's TPL
    generalize hs6 : ({ s2 with polls := _, busy := false, ints := _, tpl := n.tpl } : Sys) = s6
    have g6 : Good s6 := by
      rw [← hs6]; exact ⟨hinv2, by exact h6.trans hg.unl, ntpl⟩
    have b6 : s6.busy = false := by rw [← hs6]
    have t6 : s6.tpl = n.tpl := by rw [← hs6]
    have l6 : s6.log = s.log := by rw [← hs6]; exact h3
    have h6' : s6.h = s2.h := by rw [← hs6]
    refine (idleDb f (fun h => (h.db.getType n.event, h)) g6 b6 g6.inv (by rw [t6, h6']; exact hidle2)).bind ?_
    rintro ⟨ty, s7⟩ ⟨hty, g7, b7, t7, l7, q7, e7, f7⟩
    dsimp only at hty g7 b7 t7 l7 q7 e7 f7 ⊢
    have hv6 : s6.h.db.isValid n.event = true := by
      rw [h6', isValid_events hev2]; exact hv
    obtain ⟨e, he⟩ := Option.isSome_iff_exists.1 hv6
    have hty' : ty = .ok e.type := by rw [hty]; unfold Db.getType; rw [he]
    subst hty'
    dsimp only
    refine (poll_post f _).noPanic.bind ?_
    rintro s8 rfl
    have g8 : Good { s7 with polls := s7.polls + 1 } := g7.ofEq rfl rfl g7.le
    have hclear : Post (fun r : Unit × Sys => Good r.2 ∧ r.2.busy = false ∧ r.2.tpl = n.tpl ∧ r.2.log = s.log ∧ Quiet r.2 ∧
          r.2.h.db.isValid n.event = true) (fun c => c ≠ .unwrapType)
        (if isNotifySignal e.type then withDb (fun t => exec beh noIrq f (.restore t)) (clearNote n.event) { s7 with polls := s7.polls + 1 }
          else .ok ((), { s7 with polls := s7.polls + 1, h := ⟨s7.h.db, s7.h.inflight.erase n.event⟩ })) := by
      have hfl7 : s7.h.inflight = n.event :: s.h.inflight := by rw [f7, h6', hfl2]
      split
      · have hinv : Inv (clearNote n.event s7.h).2.db (clearNote n.event s7.h).2.inflight :=
          g7.inv.clearNS n.event (by rw [hfl7]; simp)
        have hshape := clearSignal_shape s7.h.db n.event
        have hq : Idle s7.tpl (clearNote n.event s7.h).2.db := by
          intro m hm hmv
          have hm : m ∈ (s7.h.db.clearSignal n.event).2.pending := hm
          have hmv : (s7.h.db.clearSignal n.event).2.isValid m.event = true := hmv
          rw [hshape.1] at hm
          rw [isValid_ids hshape.2] at hmv
          exact q7 m hm hmv
        refine (idleDb f (clearNote n.event) g8 b7 hinv hq).mono ?_ (fun _ h => h)
        rintro ⟨_, s9⟩ ⟨_, g9, b9, t9, l9, q9, e9, _⟩
        dsimp only at g9 b9 t9 l9 q9 e9 ⊢
        refine ⟨g9, b9, t9.trans (t7.trans t6), l9.trans (l7.trans l6), q9, ?_⟩
        have h1 : s9.h.db.isValid n.event = (s7.h.db.clearSignal n.event).2.isValid n.event := isValid_events e9 _
        rw [h1, isValid_ids hshape.2, isValid_events e7]; exact hv6
      · rename_i hns
        have hns : isNotifySignal e.type = false := by simpa using hns
        have hfe : s7.h.inflight.erase n.event = s.h.inflight := by rw [hfl7]; simp
        have hisns : s7.h.db.isNS n.event = false := by
          rw [isNS_of_events e7]
          show s6.h.db.isNS n.event = false
          unfold Db.isNS; rw [he]; exact hns
        have hinv : Inv s7.h.db s.h.inflight := by
          have := g7.inv
          rw [hfl7] at this
          exact this.pop hisns
        rw [hfe]
        refine ⟨⟨hinv, g7.unl, g7.le⟩, b7, t7.trans t6, l7.trans l6, q7, ?_⟩
        show s7.h.db.isValid n.event = true
        rw [isValid_events e7]; exact hv6
    refine hclear.bind ?_
    rintro ⟨_, s9⟩ ⟨g9, b9, t9, l9, q9, v9⟩
    dsimp only at g9 b9 t9 l9 q9 v9 ⊢
    refine (poll_post f _).noPanic.bind ?_
    rintro s10 rfl
    have hcall : Post (fun s' => Good s' ∧ s'.busy = false ∧ Alive s s') (fun c => c ≠ .unwrapType)
        (if n.fn.isSome then
          exec beh noIrq f (.acts (beh s9.calls))
            { s9 with polls := s9.polls + 1, calls := s9.calls + 1, log := s9.log ++ [⟨n, s9.tpl, s9.h.db.isValid n.event⟩] }
          else .ok { s9 with polls := s9.polls + 1 }) := by
      split
      · have g10 : Good { s9 with polls := s9.polls + 1, calls := s9.calls + 1, log := s9.log ++ [⟨n, s9.tpl, s9.h.db.isValid n.event⟩] } :=
          g9.ofEq rfl rfl g9.le
        refine (ih.full (.acts (beh s9.calls)) _ g10 b9 q9).mono ?_ (fun _ h => h)
        rintro s11 ⟨g11, b11, _, a11, _⟩
        refine ⟨g11, b11, Alive.trans ?_ a11⟩
        refine ⟨[⟨n, s9.tpl, s9.h.db.isValid n.event⟩], by show s9.log ++ _ = _; rw [l9], ?_⟩
        intro c hc
        simp only [List.mem_singleton] at hc
        subst hc; exact v9
      · exact ⟨g9.ofEq rfl rfl g9.le, b9, Alive.ofEq l9⟩
    refine hcall.bind ?_
    rintro s11 ⟨g11, b11, a11⟩
    refine (ih (.loop t) s11 g11 b11 ht).mono ?_ (fun _ h => h)
    rintro s12 ⟨a12, i12⟩
    exact ⟨a11.trans a12, i12⟩

theorem specB_dbact {f : Nat} (ih : SpecB beh f) (op : Op) {s : Sys} (hg : Good s) (hb : s.busy = false) :
    Post (fun s' => Alive s s' ∧ Quiet s') (fun c => c ≠ .unwrapType)
      ((withDb (fun t => exec beh noIrq f (.restore t)) (fun h => ((), h.step op)) s).bind fun (_, s) => .ok s) := by
  refine (ih.db (fun h => ((), h.step op)) hg hb (hg.inv.step op)).bind ?_
  rintro ⟨_, s1⟩ ⟨_, _, _, _, h1, h2, _⟩
  exact ⟨h1, h2⟩

/-- Raise to TPL_HIGH_LEVEL and restore. -/
theorem specB_bounce {f : Nat} (ih : SpecB beh f) {s : Sys} (hg : Good s) (hb : s.busy = false) (b : Bool) :
    Post (fun s' => Good s' ∧ s'.busy = false ∧ s'.tpl = s.tpl ∧ Alive s s' ∧ Quiet s' ∧ Static s.h.db s'.h.db) (fun c => c ≠ .unwrapType)
      (exec beh noIrq f (.restore s.tpl) { s with tpl := 31, ints := b }) := by
  have hg1 : Good { s with tpl := 31, ints := b } := hg.ofEq rfl rfl (Nat.le_refl _)
  have hp : Cmd.PreB { s with tpl := 31, ints := b } (.restore s.tpl) := ⟨hg.le, fun _ => idle31 hg.inv⟩
  refine ((specA beh noIrq f (.restore s.tpl) _ hg1 hp.1).and (ih _ _ hg1 hb hp)).mono ?_ (fun _ h => h.2)
  rintro s' ⟨⟨h1, h2⟩, h3, h4⟩
  have h2 : s'.tpl = s.tpl := h2
  refine ⟨h1.good, h1.busy.trans hb, h2, h3, ?_, h1.stat⟩
  unfold Quiet; rw [h2]; exact h4

theorem specB_tick {f : Nat} (ih : SpecB beh f) (dt : Nat) (s : Sys) (hg : Good s) (hb : s.busy = false) :
    Post (fun s' => Alive s s' ∧ Quiet s') (fun c => c ≠ .unwrapType) (exec beh noIrq (f + 1) (.tick dt) s) := by
  unfold exec
  refine raise31_post hg ?_
  intro b
  dsimp only
  have g0 : Good { s with tpl := 31, ints := b, now := s.now + dt } := hg.ofEq rfl rfl (Nat.le_refl _)
  refine (ih.db (fun h => ((), h.step (.tick (s.now + dt)))) g0 hb (hg.inv.step _)).bind ?_
  rintro ⟨_, s1⟩ ⟨_, g1, b1, t1, a1, q1, _⟩
  dsimp only at g1 b1 t1 a1 q1 ⊢
  have hp : Cmd.PreB s1 (.restore s.tpl) := ⟨by rw [t1]; exact hg.le, fun _ => q1⟩
  refine (ih.full _ s1 g1 b1 hp).mono ?_ (fun _ h => h)
  rintro s' ⟨_, _, t2, a2, i2⟩
  have t2 : s'.tpl = s.tpl := t2
  refine ⟨Alive.trans a1 a2, ?_⟩
  unfold Quiet; rw [t2]; exact i2

theorem specB_act {f : Nat} (ih : SpecB beh f) (a : Act) (s : Sys) (hg : Good s) (hb : s.busy = false) (hq : Quiet s) :
    Post (fun s' => Alive s s' ∧ Quiet s') (fun c => c ≠ .unwrapType) (exec beh noIrq (f + 1) (.act a) s) := by
  cases a with
  | raise t =>
    unfold exec Sys.raise
    split
    · exact Cause.noConfusion
    · split
      · exact Cause.noConfusion
      · rename_i h1 h2
        refine ⟨Alive.ofEq rfl, ?_⟩
        intro n hn hv
        have := hq n hn hv
        show n.tpl ≤ t
        omega
  | restore t =>
    unfold exec
    split
    · exact Cause.noConfusion
    · rename_i h
      have hp : Cmd.PreB s (.restore t) := ⟨by omega, fun _ => hq⟩
      refine (ih.full (.restore t) s hg hb hp).mono ?_ (fun _ h => h)
      rintro s' ⟨_, _, t2, a2, i2⟩
      have t2 : s'.tpl = t := t2
      refine ⟨a2, ?_⟩
      unfold Quiet; rw [t2]; exact i2
  | signal id =>
    unfold exec
    refine (ih.db (fun h => ((), h.step (.signal id))) hg hb (hg.inv.step _)).bind ?_
    rintro ⟨_, s1⟩ ⟨_, g1, b1, t1, a1, q1, _⟩
    dsimp only at g1 b1 t1 a1 q1 ⊢
    refine (poll_post f _).noPanic.bind ?_
    rintro s2 rfl
    have g2 : Good { s1 with polls := s1.polls + 1 } := g1.ofEq rfl rfl g1.le
    refine raise31_post g2 ?_
    intro b
    refine (specB_bounce ih g2 b1 b).mono ?_ (fun _ h => h)
    rintro s' ⟨_, _, _, a2, q2, _⟩
    exact ⟨a1.trans ((Alive.ofEq rfl).trans a2), q2⟩
  | check id =>
    unfold exec
    refine (ih.db (fun h => (h.db.getType id, h)) hg hb hg.inv).bind ?_
    rintro ⟨ty, s1⟩ ⟨hty, g1, b1, t1, a1, q1, st1⟩
    dsimp only at hty g1 b1 t1 a1 q1 st1 ⊢
    cases ty with
    | err e => exact ⟨a1, q1⟩
    | panic => exact ⟨a1, q1⟩
    | ok ty =>
      obtain ⟨e, he, hety⟩ := getType_ok hty.symm
      dsimp only
      split
      · exact ⟨a1, q1⟩
      rename_i hns
      have hns : isNotifySignal ty = false := by simpa using hns
      have hNS : ∀ db, Static s.h.db db → db.isNS id = false := fun db h =>
        isNS_static hg.inv h he (by rw [hety]; exact hns)
      refine (poll_post f _).noPanic.bind ?_
      rintro s2 rfl
      have g2 : Good { s1 with polls := s1.polls + 1 } := g1.ofEq rfl rfl g1.le
      refine (ih.db (fun h => ((h.db.readAndClear id).1, (⟨(h.db.readAndClear id).2, h.inflight⟩ : HState))) g2 b1
        (inv_readAndClear g2.inv (hNS _ st1))).bind ?_
      rintro ⟨r, s3⟩ ⟨_, g3, b3, t3, a3, q3, st3⟩
      dsimp only at g3 b3 t3 a3 q3 st3 ⊢
      have st3' := st1.trans ((readAndClear_static s1.h.db id).trans st3)
      have a3' : Alive s s3 := a1.trans ((Alive.ofEq rfl).trans a3)
      split
      · refine (poll_post f _).noPanic.bind ?_
        rintro s4 rfl
        have g4 : Good { s3 with polls := s3.polls + 1 } := g3.ofEq rfl rfl g3.le
        refine (ih.db (fun h => ((h.db.queueNotify id).1, (⟨(h.db.queueNotify id).2, h.inflight⟩ : HState))) g4 b3
          (inv_queueNotify g4.inv (hNS _ st3'))).bind ?_
        rintro ⟨r, s5⟩ ⟨_, g5, b5, t5, a5, q5, st5⟩
        dsimp only at g5 b5 t5 a5 q5 st5 ⊢
        have st5' := st3'.trans ((queueNotify_static s3.h.db id).trans st5)
        have a5' : Alive s s5 := a3'.trans ((Alive.ofEq rfl).trans a5)
        split
        · refine (poll_post f _).noPanic.bind ?_
          rintro s6 rfl
          have g6 : Good { s5 with polls := s5.polls + 1 } := g5.ofEq rfl rfl g5.le
          refine raise31_post g6 ?_
          intro b
          refine (specB_bounce ih g6 b5 b).bind ?_
          rintro s7 ⟨g7, b7, _, a7, q7, st7⟩
          have st7' := st5'.trans st7
          have a7' : Alive s s7 := a5'.trans ((Alive.ofEq rfl).trans a7)
          refine (ih.db (fun h => ((h.db.readAndClear id).1, (⟨(h.db.readAndClear id).2, h.inflight⟩ : HState))) g7 b7
            (inv_readAndClear g7.inv (hNS _ st7'))).bind ?_
          rintro ⟨r, s8⟩ ⟨_, _, _, _, a8, q8, _⟩
          exact ⟨a7'.trans a8, q8⟩
        · exact ⟨a5', q5⟩
      · exact ⟨a3', q3⟩
  | create ty tpl fn ctx g => unfold exec; exact specB_dbact ih _ hg hb
  | close id => unfold exec; exact specB_dbact ih _ hg hb
  | setTimer id d time => unfold exec; exact specB_dbact ih _ hg hb
  | signalGroup g => unfold exec; exact specB_dbact ih _ hg hb
  | tick dt => unfold exec; exact ih (.tick dt) s hg hb hq

theorem specB_acts {f : Nat} (ih : SpecB beh f) (l : List Act) (s : Sys) (hg : Good s) (hb : s.busy = false) (hq : Quiet s) :
    Post (fun s' => Alive s s' ∧ Quiet s') (fun c => c ≠ .unwrapType) (exec beh noIrq (f + 1) (.acts l) s) := by
  cases l with
  | nil => unfold exec; exact ⟨Alive.refl s, hq⟩
  | cons a l =>
    unfold exec
    refine (ih.full (.act a) s hg hb hq).bind ?_
    rintro s1 ⟨g1, b1, _, a1, q1⟩
    refine (poll_post f _).noPanic.bind ?_
    rintro s2 rfl
    refine (ih (.acts l) { s1 with polls := s1.polls + 1 } (g1.ofEq rfl rfl g1.le) b1 q1).mono ?_ (fun _ h => h)
    rintro s3 ⟨a3, q3⟩
    exact ⟨a1.trans ((Alive.ofEq rfl).trans a3), q3⟩

theorem specB (beh : Nat → List Act) : ∀ f, SpecB beh f := by
  intro f
  induction f with
  | zero => intro c s _ _ _; unfold exec; trivial
  | succ f ih =>
    intro c s hg hb hp
    cases c with
    | restore t => exact specB_restore ih t s hg hb hp
    | loop t => exact specB_loop ih t s hg hb hp
    | poll => exact hp.elim
    | ticks l => exact hp.elim
    | tick dt => exact specB_tick ih dt s hg hb
    | acts l => exact specB_acts ih l s hg hb hp
    | act a => exact specB_act ih a s hg hb hp

end Verif.Events
