import Verif.Events.TplQuiet
namespace Verif.Events

/-- With enough fuel the computation ends in one fixed state, which satisfies `P`. -/
def Term {α : Type} (r : Nat → Res α) (P : α → Prop) : Prop := ∃ F a, P a ∧ ∀ f, F ≤ f → r f = .ok a

theorem Term.pure {α : Type} {P : α → Prop} {a : α} (h : P a) : Term (fun _ => .ok a) P := ⟨0, a, h, fun _ _ => rfl⟩

theorem Term.mono {α : Type} {P Q : α → Prop} {r : Nat → Res α} (h : Term r P) (hpq : ∀ a, P a → Q a) : Term r Q := by
  obtain ⟨F, a, h1, h2⟩ := h
  exact ⟨F, a, hpq a h1, h2⟩

theorem Term.bind {α β : Type} {P : α → Prop} {Q : β → Prop} {r : Nat → Res α} {k : α → Nat → Res β}
    (h : Term r P) (hk : ∀ a, P a → Term (k a) Q) : Term (fun f => (r f).bind fun a => k a f) Q := by
  obtain ⟨F, a, h1, h2⟩ := h
  obtain ⟨G, b, h3, h4⟩ := hk a h1
  refine ⟨max F G, b, h3, ?_⟩
  intro f hf
  have hF : F ≤ f := by omega
  have hG : G ≤ f := by omega
  show (r f).bind (fun a => k a f) = _
  rw [h2 f hF]
  exact h4 f hG

variable {beh : Nat → List Act}

theorem term_exec {c : Cmd} {s : Sys} {P : Sys → Prop} {body : Nat → Res Sys}
    (h : Term body P) (he : ∀ f, exec beh noIrq (f + 1) c s = body f) : Term (fun f => exec beh noIrq f c s) P := by
  obtain ⟨F, a, h1, h2⟩ := h
  refine ⟨F + 1, a, h1, ?_⟩
  intro f hf
  obtain ⟨g, rfl⟩ : ∃ g, f = g + 1 := ⟨f - 1, by omega⟩
  show exec beh noIrq (g + 1) c s = _
  rw [he]
  exact h2 g (by omega)

theorem poll_term (s : Sys) : Term (fun f => exec beh noIrq f .poll s) (fun s' => s' = { s with polls := s.polls + 1 }) := by
  refine ⟨2, _, rfl, ?_⟩
  intro f hf
  obtain ⟨g, rfl⟩ : ∃ g, f = g + 2 := ⟨f - 2, by omega⟩
  show exec beh noIrq (g + 2) .poll s = _
  unfold exec
  dsimp only
  split
  · unfold noIrq exec; rfl
  · rfl

theorem withDb_term {α : Type} {g : HState → α × HState} {s : Sys} {rest : Nat → Nat → Sys → Res Sys} {P : Sys → Prop}
    (hg : Good s)
    (hr : ∀ b, Term (fun f => rest f s.tpl { s with h := (g s.h).2, tpl := 31, ints := b }) P) :
    Term (fun f => withDb (rest f) g s) (fun r => r.1 = (g s.h).1 ∧ P r.2) := by
  unfold withDb
  obtain ⟨b, hb⟩ := raise31 s hg .coreTpl
  rw [hb]
  simp only [Res.bind, hg.unl, Bool.false_eq_true, if_false]
  have hr := hr b
  have heq : ({ s with h := (g s.h).2, tpl := 31, ints := b, locked := false } : Sys) = { s with h := (g s.h).2, tpl := 31, ints := b } := by
    have := hg.unl
    cases s; simp at this; simp [this]
  simp only [heq]
  obtain ⟨F, a, h1, h2⟩ := hr
  refine ⟨F, ((g s.h).1, a), ⟨rfl, h1⟩, ?_⟩
  intro f hf
  have h3 : rest f s.tpl { s with h := (g s.h).2, tpl := 31, ints := b } = .ok a := h2 f hf
  dsimp only
  rw [h3]

theorem busyRestore_term (t : Nat) (s : Sys) (hb : s.busy = true) (ht : t ≤ s.tpl) :
    Term (fun f => exec beh noIrq f (.restore t) s)
      (fun s' => s'.h = s.h ∧ s'.log = s.log ∧ s'.tpl = t ∧ s'.busy = true ∧ s'.locked = s.locked) := by
  refine term_exec ?_ (fun f => by unfold exec; rw [if_neg (by omega)])
  dsimp only
  refine (poll_term _).bind ?_
  rintro s1 rfl
  have hmid : Term (fun f => if t < s.tpl then exec beh noIrq f (.loop t) { s with tpl := t, polls := s.polls + 1 }
        else .ok { s with tpl := t, polls := s.polls + 1 })
      (fun s' : Sys => s'.h = s.h ∧ s'.log = s.log ∧ s'.busy = true ∧ s'.locked = s.locked) := by
    split
    · refine term_exec (body := fun _ => .ok { s with tpl := t, polls := s.polls + 1 }) (Term.pure ⟨rfl, rfl, hb, rfl⟩)
        (fun f => by unfold exec; rw [if_pos (by exact hb)])
    · exact Term.pure ⟨rfl, rfl, hb, rfl⟩
  refine hmid.bind ?_
  rintro s2 ⟨h1, h2, h3, h4⟩
  refine (poll_term _).bind ?_
  rintro s3 rfl
  refine (poll_term _).mono ?_
  rintro s4 rfl
  dsimp only
  split <;> exact ⟨h1, h2, rfl, h3, h4⟩

theorem take_term (t : Nat) (s : Sys) (hg : Good s) (hb : s.busy = true) :
    Term (fun f => withDb (fun t => exec beh noIrq f (.restore t)) (takeNote t) s)
      (fun r => r.1 = (takeNote t s.h).1 ∧ r.2.h = (takeNote t s.h).2 ∧ r.2.log = s.log ∧ r.2.tpl = s.tpl ∧
      r.2.busy = true ∧ r.2.locked = s.locked) := by
  refine withDb_term (rest := fun f t => exec beh noIrq f (.restore t))
    (P := fun s' => s'.h = (takeNote t s.h).2 ∧ s'.log = s.log ∧ s'.tpl = s.tpl ∧
      s'.busy = true ∧ s'.locked = s.locked) hg ?_
  intro b
  exact busyRestore_term s.tpl { s with h := (takeNote t s.h).2, tpl := 31, ints := b } hb hg.le

/-- The pending notifications of existing events, in queue order. -/
def Db.live (db : Db) : List Note := db.pending.filter (fun n => db.isValid n.event)

theorem live_congr {a b : Db} (hp : a.pending = b.pending) (hi : a.events.map (·.id) = b.events.map (·.id)) : a.live = b.live := by
  unfold Db.live
  rw [hp]
  refine List.filter_congr ?_
  intro n _
  exact isValid_ids hi n.event

theorem consume_live (db : Db) (t : Nat) :
    db.live = (match (db.consume t).1 with | some n => [n] | none => []) ++ (db.consume t).2.live := by
  have hev := (consume_events db t).1
  have hval : ∀ n : Note, (db.consume t).2.isValid n.event = db.isValid n.event := fun n => isValid_events hev n.event
  obtain ⟨dead, rest, hp, hd, hcs⟩ := consume_cases db t
  have hdead : dead.filter (fun n => db.isValid n.event) = [] := by
    rw [List.filter_eq_nil_iff]
    intro n hn
    rw [hd n hn]
    simp
  unfold Db.live
  simp only [hval]
  rw [hp, List.filter_append, hdead, List.nil_append]
  rcases hcs with ⟨hr, heq⟩ | ⟨x, tl, hr, hv, ⟨hl, heq⟩ | ⟨hl, heq⟩⟩
  · rw [heq, hr]; rfl
  · rw [heq, hr]; rfl
  · rw [heq, hr]
    simp [hv]

/-- Everything but the poll counter and the interrupt flag is as before; the dead part of the queue may be gone. -/
structure Still (s s' : Sys) : Prop where
  events : s'.h.db.events = s.h.db.events
  live : s'.h.db.live = s.h.db.live
  log : s'.log = s.log
  busy : s'.busy = false

theorem idleLoop_term (t : Nat) (s : Sys) (hg : Good s) (hb : s.busy = false) (hi : Idle t s.h.db) :
    Term (fun f => exec beh noIrq f (.loop t) s) (Still s) := by
  refine term_exec ?_ (fun f => by unfold exec; rw [if_neg (by simp [hb])])
  dsimp only
  refine (poll_term _).bind ?_
  rintro s1 rfl
  have gX : Good { s with busy := true, polls := s.polls + 1 } := hg.ofEq rfl rfl hg.le
  refine (take_term t _ gX rfl).bind ?_
  rintro ⟨ev, s2⟩ ⟨h1, h2, h3, _, _, _⟩
  dsimp only at h1 h2 h3 ⊢
  refine (poll_term _).bind ?_
  rintro s3 rfl
  refine (poll_term _).bind ?_
  rintro s4 rfl
  have hc := consume_idle hi
  have hev : ev = none := by rw [h1]; unfold takeNote; exact hc
  subst hev
  dsimp only
  refine Term.pure ⟨?_, ?_, h3, rfl⟩
  · dsimp only; rw [h2]; exact (consume_events _ _).1
  · dsimp only; rw [h2]
    have := consume_live s.h.db t
    rw [hc] at this
    exact this.symm

theorem idleRestore_term (t : Nat) (s : Sys) (hg : Good s) (hb : s.busy = false) (ht : t ≤ s.tpl) (hi : Idle t s.h.db) :
    Term (fun f => exec beh noIrq f (.restore t) s) (Still s) := by
  refine term_exec ?_ (fun f => by unfold exec; rw [if_neg (by omega)])
  dsimp only
  refine (poll_term _).bind ?_
  rintro s1 rfl
  have hmid : Term (fun f => if t < s.tpl then exec beh noIrq f (.loop t) { s with tpl := t, polls := s.polls + 1 }
        else .ok { s with tpl := t, polls := s.polls + 1 }) (Still s) := by
    split
    · have g1 : Good { s with tpl := t, polls := s.polls + 1 } := hg.ofEq rfl rfl (Nat.le_trans ht hg.le)
      exact (idleLoop_term t _ g1 hb hi).mono (fun _ h => ⟨h.events, h.live, h.log, h.busy⟩)
    · exact Term.pure ⟨rfl, rfl, rfl, hb⟩
  refine hmid.bind ?_
  rintro s2 ⟨h1, h2, h3, h4⟩
  refine (poll_term _).bind ?_
  rintro s3 rfl
  refine (poll_term _).mono ?_
  rintro s4 rfl
  dsimp only
  split <;> exact ⟨h1, h2, h3, h4⟩

/-- `Term` and `Post` together. -/
theorem term_and {c : Cmd} {s : Sys} {P Q : Sys → Prop} {R : Cause → Prop} (h : Term (fun f => exec beh noIrq f c s) P)
    (hp : ∀ f, Post Q R (exec beh noIrq f c s)) : Term (fun f => exec beh noIrq f c s) (fun s' => P s' ∧ Q s') := by
  obtain ⟨F, a, h1, h2⟩ := h
  refine ⟨F, a, ⟨h1, ?_⟩, h2⟩
  have := hp F
  have h3 : exec beh noIrq F c s = .ok a := h2 F (Nat.le_refl _)
  rw [h3] at this
  exact this

theorem idleDb_term {α : Type} (g : HState → α × HState) {s : Sys} (hg : Good s) (hb : s.busy = false)
    (hi : Inv (g s.h).2.db (g s.h).2.inflight) (hq : Idle s.tpl (g s.h).2.db) :
    Term (fun f => withDb (fun t => exec beh noIrq f (.restore t)) g s)
      (fun r => r.1 = (g s.h).1 ∧ Good r.2 ∧ r.2.busy = false ∧ r.2.tpl = s.tpl ∧ r.2.log = s.log ∧ Quiet r.2 ∧
        r.2.h.db.events = (g s.h).2.db.events ∧ r.2.h.inflight = (g s.h).2.inflight ∧ r.2.h.db.live = (g s.h).2.db.live) := by
  refine withDb_term (rest := fun f t => exec beh noIrq f (.restore t))
    (P := fun s' => Good s' ∧ s'.busy = false ∧ s'.tpl = s.tpl ∧ s'.log = s.log ∧ Quiet s' ∧
      s'.h.db.events = (g s.h).2.db.events ∧ s'.h.inflight = (g s.h).2.inflight ∧ s'.h.db.live = (g s.h).2.db.live) hg ?_
  intro b
  have hg1 : Good { s with h := (g s.h).2, tpl := 31, ints := b } := ⟨hi, hg.unl, Nat.le_refl _⟩
  have ht := term_and (idleRestore_term (beh := beh) s.tpl _ hg1 hb hg.le hq)
    (fun f => (specA beh noIrq f (.restore s.tpl) _ hg1 hg.le).and (idleRestore f s.tpl _ hg1 hb hg.le hq))
  refine ht.mono ?_
  rintro s' ⟨⟨e1, e2, e3, e4⟩, ⟨h1, h2⟩, h3, h4, h5⟩
  have h2 : s'.tpl = s.tpl := h2
  refine ⟨h1.good, e4, h2, h5, ?_, h3, h1.fl, e2⟩
  unfold Quiet; rw [h2]; exact h4

/-- Pending notifications of existing events above `t`, in queue order. -/
def Db.above (t : Nat) (db : Db) : List Note := db.live.filter (fun n => decide (t < n.tpl))

theorem above_idle {t : Nat} {db : Db} (h : Idle t db) : db.above t = [] := by
  unfold Db.above Db.live
  rw [List.filter_eq_nil_iff]
  intro n hn
  obtain ⟨h1, h2⟩ := List.mem_filter.1 hn
  have := h n h1 h2
  simp
  omega

/-- What the dispatch loop calls when notify functions leave the event services alone. -/
theorem loop_term (hbeh : ∀ k, beh k = []) (t : Nat) (ht : t ≤ 31) : ∀ (k : Nat) (s : Sys), s.h.db.live.length ≤ k →
    Good s → s.busy = false →
    Term (fun f => exec beh noIrq f (.loop t) s)
      (fun s' => s'.log = s.log ++ ((s.h.db.above t).filter (·.fn.isSome)).map (fun n => ⟨n, n.tpl, true⟩)) := by
  intro k
  induction k with
  | zero =>
    intro s hk hg hb
    have hl : s.h.db.live = [] := List.eq_nil_of_length_eq_zero (by omega)
    have hi : Idle t s.h.db := by
      intro n hn hv
      have : n ∈ s.h.db.live := List.mem_filter.2 ⟨hn, hv⟩
      rw [hl] at this
      cases this
    refine (idleLoop_term t s hg hb hi).mono ?_
    intro s' h
    rw [h.log, above_idle hi]; simp
  | succ k ih =>
    intro s hk hg hb
    refine term_exec ?_ (fun f => by unfold exec; rw [if_neg (by simp [hb])])
    dsimp only
    refine (poll_term _).bind ?_
    rintro s1 rfl
    have gX : Good { s with busy := true, polls := s.polls + 1 } := hg.ofEq rfl rfl hg.le
    refine (take_term t _ gX rfl).bind ?_
    rintro ⟨ev, s2⟩ ⟨h1, h2, h3, _, _, h6⟩
    dsimp only at h1 h2 h3 h6 ⊢
    refine (poll_term _).bind ?_
    rintro s3 rfl
    refine (poll_term _).bind ?_
    rintro s4 rfl
    have hlive := consume_live s.h.db t
    cases ev with
    | none =>
      have hc : (s.h.db.consume t).1 = none := h1.symm
      rw [hc] at hlive
      have hlive : s.h.db.live = (s.h.db.consume t).2.live := hlive
      have hidle : Idle t s.h.db := by
        intro n hn hv
        have hm : n ∈ s.h.db.live := List.mem_filter.2 ⟨hn, hv⟩
        rw [hlive] at hm
        obtain ⟨h1, h2⟩ := List.mem_filter.1 hm
        exact idle_consume_none hg.inv hc n h1 h2
      dsimp only
      refine Term.pure ?_
      rw [above_idle hidle]; simp only [List.filter_nil, List.map_nil, List.append_nil]
      exact h3
    | some n =>
      have hc : (s.h.db.consume t).1 = some n := h1.symm
      rw [hc] at hlive
      have hlive : s.h.db.live = n :: (s.h.db.consume t).2.live := hlive
      obtain ⟨hv, hnt, hmem⟩ := consume_valid hc
      have ntpl : n.tpl ≤ 31 := (hg.inv.pev n hmem).2.2
      have hinv2 : Inv s2.h.db s2.h.inflight := by rw [h2]; exact takeNote_inv hg.inv t
      have hev2 : s2.h.db.events = s.h.db.events := by rw [h2]; exact (consume_events _ _).1
      have hidle2 : Idle n.tpl s2.h.db := by rw [h2]; exact idle_consume_some hg.inv hc
      have hfl2 : s2.h.inflight = n.event :: s.h.inflight := by rw [h2]; unfold takeNote; rw [hc]
      have hlive2 : s2.h.db.live = (s.h.db.consume t).2.live := by rw [h2]; rfl
      dsimp only
      refine (poll_term _).bind ?_
      rintro s5 rfl
      refine (poll_term _).bind ?_
      rintro s6 rfl
      dsimp only
      generalize hs6 : ({ s2 with polls := _, busy := false, ints := _, tpl := n.tpl } : Sys) = s6
      have g6 : Good s6 := by
        rw [← hs6]; exact ⟨hinv2, by exact h6.trans hg.unl, ntpl⟩
      have b6 : s6.busy = false := by rw [← hs6]
      have t6 : s6.tpl = n.tpl := by rw [← hs6]
      have l6 : s6.log = s.log := by rw [← hs6]; exact h3
      have h6' : s6.h = s2.h := by rw [← hs6]
      refine (idleDb_term (fun h => (h.db.getType n.event, h)) g6 b6 g6.inv (by rw [t6, h6']; exact hidle2)).bind ?_
      rintro ⟨ty, s7⟩ ⟨hty, g7, b7, t7, l7, q7, e7, f7, lv7⟩
      dsimp only at hty g7 b7 t7 l7 q7 e7 f7 lv7 ⊢
      have hv6 : s6.h.db.isValid n.event = true := by
        rw [h6', isValid_events hev2]; exact hv
      obtain ⟨e, he⟩ := Option.isSome_iff_exists.1 hv6
      have hty' : ty = .ok e.type := by rw [hty]; unfold Db.getType; rw [he]
      subst hty'
      dsimp only
      refine (poll_term _).bind ?_
      rintro s8 rfl
      have g8 : Good { s7 with polls := s7.polls + 1 } := g7.ofEq rfl rfl g7.le
      have hclear : Term (fun f => if isNotifySignal e.type then withDb (fun t => exec beh noIrq f (.restore t)) (clearNote n.event) { s7 with polls := s7.polls + 1 }
            else .ok ((), { s7 with polls := s7.polls + 1, h := ⟨s7.h.db, s7.h.inflight.erase n.event⟩ }))
          (fun r : Unit × Sys => Good r.2 ∧ r.2.busy = false ∧ r.2.tpl = n.tpl ∧ r.2.log = s.log ∧
            r.2.h.db.isValid n.event = true ∧ r.2.h.db.live = s7.h.db.live ∧
            r.2.h.db.events.map (·.id) = s.h.db.events.map (·.id)) := by
        have hfl7 : s7.h.inflight = n.event :: s.h.inflight := by rw [f7, h6', hfl2]
        have hids : s7.h.db.events.map (·.id) = s.h.db.events.map (·.id) := by
          rw [e7, h6', hev2]
        split
        · have hinv : Inv (clearNote n.event s7.h).2.db (clearNote n.event s7.h).2.inflight :=
            g7.inv.clearNS n.event (by rw [hfl7]; simp)
          have hshape := clearSignal_shape s7.h.db n.event
          have hq : Idle s7.tpl (clearNote n.event s7.h).2.db := by
            intro m hm hmv
            have hm : m ∈ (s7.h.db.clearSignal n.event).2.pending := hm
            have hmv : (s7.h.db.clearSignal n.event).2.isValid m.event = true := hmv
            rw [hshape.1] at hm
            rw [isValid_ids hshape.2] at hmv
            exact q7 m hm hmv
          refine (idleDb_term (clearNote n.event) g8 b7 hinv hq).mono ?_
          rintro ⟨_, s9⟩ ⟨_, g9, b9, t9, l9, q9, e9, _, lv9⟩
          dsimp only at g9 b9 t9 l9 q9 e9 lv9 ⊢
          refine ⟨g9, b9, t9.trans (t7.trans t6), l9.trans (l7.trans l6), ?_, ?_, ?_⟩
          · have h1 : s9.h.db.isValid n.event = (s7.h.db.clearSignal n.event).2.isValid n.event := isValid_events e9 _
            rw [h1, isValid_ids hshape.2, isValid_events e7]; exact hv6
          · rw [lv9]; exact live_congr hshape.1 hshape.2
          · rw [e9]; exact hshape.2.trans hids
        · rename_i hns
          have hns : isNotifySignal e.type = false := by simpa using hns
          have hfe : s7.h.inflight.erase n.event = s.h.inflight := by rw [hfl7]; simp
          have hisns : s7.h.db.isNS n.event = false := by
            rw [isNS_of_events e7]
            show s6.h.db.isNS n.event = false
            unfold Db.isNS; rw [he]; exact hns
          have hinv : Inv s7.h.db s.h.inflight := by
            have := g7.inv
            rw [hfl7] at this
            exact this.pop hisns
          rw [hfe]
          refine Term.pure ⟨⟨hinv, g7.unl, g7.le⟩, b7, t7.trans t6, l7.trans l6, ?_, rfl, hids⟩
          show s7.h.db.isValid n.event = true
          rw [isValid_events e7]; exact hv6
      refine hclear.bind ?_
      rintro ⟨_, s9⟩ ⟨g9, b9, t9, l9, v9, lv9, id9⟩
      dsimp only at g9 b9 t9 l9 v9 lv9 id9 ⊢
      have lvs : s9.h.db.live = (s.h.db.consume t).2.live := by
        rw [lv9, lv7, h6', hlive2]
      refine (poll_term _).bind ?_
      rintro s10 rfl
      have hcall : Term (fun f => if n.fn.isSome then
            exec beh noIrq f (.acts (beh s9.calls))
              { s9 with polls := s9.polls + 1, calls := s9.calls + 1, log := s9.log ++ [⟨n, s9.tpl, s9.h.db.isValid n.event⟩] }
            else .ok { s9 with polls := s9.polls + 1 })
          (fun s' => Good s' ∧ s'.busy = false ∧ s'.h.db = s9.h.db ∧
            s'.log = s.log ++ (if n.fn.isSome then [⟨n, n.tpl, true⟩] else [])) := by
        split
        · rw [hbeh]
          have hnil : ∀ (x : Sys) (P : Sys → Prop), P x → Term (fun f => exec beh noIrq f (.acts []) x) P := fun x P h =>
            term_exec (body := fun _ => .ok x) (Term.pure h) (fun f => by unfold exec; rfl)
          refine hnil _ _ ⟨g9.ofEq rfl rfl g9.le, b9, rfl, ?_⟩
          dsimp only
          rw [l9, t9, v9]
        · exact Term.pure ⟨g9.ofEq rfl rfl g9.le, b9, rfl, by simpa using l9⟩
      refine hcall.bind ?_
      rintro s11 ⟨g11, b11, d11, l11⟩
      have hlv11 : s11.h.db.live = (s.h.db.consume t).2.live := by rw [d11, lvs]
      refine (ih s11 (by rw [hlv11]; rw [hlive] at hk; simp at hk; omega) g11 b11).mono ?_
      intro s12 h12
      rw [h12, l11]
      have hab : s.h.db.above t = n :: s11.h.db.above t := by
        unfold Db.above
        rw [hlive, hlv11, List.filter_cons_of_pos (by simpa using hnt)]
      rw [hab]
      cases hfn : n.fn.isSome with
      | true => rw [List.filter_cons_of_pos (by exact hfn)]; simp
      | false => rw [List.filter_cons_of_neg (by simp [hfn])]; simp

theorem restore_term (hbeh : ∀ k, beh k = []) (t : Nat) (s : Sys) (hg : Good s) (hb : s.busy = false) (ht : t < s.tpl) :
    Term (fun f => exec beh noIrq f (.restore t) s)
      (fun s' => s'.log = s.log ++ ((s.h.db.above t).filter (·.fn.isSome)).map (fun n => ⟨n, n.tpl, true⟩)) := by
  refine term_exec ?_ (fun f => by unfold exec; rw [if_neg (by omega)])
  dsimp only
  refine (poll_term _).bind ?_
  rintro s1 rfl
  have h31 : t ≤ 31 := Nat.le_trans (Nat.le_of_lt ht) hg.le
  simp only [ht, if_true]
  have g1 : Good { s with tpl := t, polls := s.polls + 1 } := hg.ofEq rfl rfl h31
  refine (loop_term hbeh t h31 _ { s with tpl := t, polls := s.polls + 1 } (Nat.le_refl _) g1 hb).bind ?_
  intro s2 h2
  refine (poll_term _).bind ?_
  rintro s3 rfl
  refine (poll_term _).mono ?_
  rintro s4 rfl
  dsimp only
  split <;> exact h2

end Verif.Events
