import Verif.Dispatcher.Preserve
/-! Making the schedule of a pass preserves the invariant. -/
namespace Verif.Dispatcher
open Verif.Depex (Guid Opcode Expr)
variable {W α : Type} {dbg : Bool}

theorem judge_same {p : List Guid} {arch v : Bool} {d d' : Drv} (h : judge dbg p arch d = .ok (v, d')) :
    d'.uid = d.uid ∧ d'.fv = d.fv ∧ d'.name = d.name ∧ d'.image = d.image ∧ d'.sec = d.sec ∧
      d'.readable = d.readable := by
  unfold judge at h
  split at h
  · cases h; exact ⟨rfl, rfl, rfl, rfl, rfl, rfl⟩
  · split at h
    · cases h; exact ⟨rfl, rfl, rfl, rfl, rfl, rfl⟩
    · cases h

theorem judge_fact {p : List Guid} {arch v : Bool} {d d' : Drv} {l : List Ev} (f : Fact dbg l d)
    (ha : arch = true ↔ ArchSeen l) (h : judge dbg p arch d = .ok (v, d')) :
    Fact dbg (l ++ [.judged d.uid p v]) d' ∧ Justified dbg l (.judged d.uid p v) := by
  obtain ⟨dx, hf, hd⟩ := f.found
  obtain ⟨e1, e2, e3, e4, e5, _⟩ := judge_same h
  refine ⟨⟨⟨dx, ?_, ?_⟩, ?_, ?_, ?_, ?_⟩, d.fv, d.name, dx, hf, ?_⟩
  · rw [e1, e2, e3]; simp [hf]
  · rw [e1]
    unfold judge at h
    split at h
    · rename_i hn
      cases h
      rw [hn] at hd ⊢
      cases dx with
      | none => rfl
      | some b => cases hd
    · rename_i ops hn
      cases dx with
      | none => rw [hn] at hd; cases hd
      | some b =>
        rw [hn] at hd
        injection hd with hd
        split at h
        · rename_i b' ops' he
          cases h
          simp only [Option.map_some, Option.some.injEq]
          rw [replay_snoc]
          simp only [evolve, if_true, ← hd, he]
        · cases h
  · rw [e1]; exact not_started_snoc f.fresh (by intro h; cases h)
  · intro hi
    rw [e1]
    exact not_loaded_snoc (f.unloaded (e4 ▸ hi)) (by intro _ h; cases h)
  · intro hi hs
    rw [e1]
    exact (f.cleared (e4 ▸ hi) (e5 ▸ hs)).append _
  · intro e hi hs
    rw [e1]
    simp [f.objected e (e4 ▸ hi) (e5 ▸ hs)]
  · unfold judge at h
    split at h
    · rename_i hn
      cases h
      rw [hn] at hd
      cases dx with
      | none => exact ha
      | some b => cases hd
    · rename_i ops hn
      cases dx with
      | none => rw [hn] at hd; cases hd
      | some b =>
        rw [hn] at hd
        injection hd with hd
        split at h
        · rename_i b' ops' he
          cases h
          simp only [Truth, ← hd, he]
        · cases h

theorem Base.judged {X : List Drv} {s : St W} {d d' : Drv} {p : List Guid} {v : Bool}
    (b : Base dbg (d :: X) s) (h : judge dbg p s.ctx.arch d = .ok (v, d')) :
    Base dbg (d' :: X) (s.note (.judged d.uid p v)) := by
  have hne := b.ne
  obtain ⟨hf, hj⟩ := judge_fact (b.facts d (by simp)) b.arch h
  refine b.note ?_ ?_ ?_ hj (by intro _ h; cases h) (by intro _ h; cases h) ?_
  · intro x hx
    rcases List.mem_cons.1 hx with rfl | hx
    · exact hf
    · refine (b.facts x (by simp [hx])).other ?_
      intro h
      injection h with h
      exact hne x (by simp [hx]) h.symm
  · intro u
    simp only [cnt_cons, (judge_same h).1]
    exact Nat.le_refl _
  · intro x hx h
    injection h with h
    exact hne x (by simp [hx]) h.symm
  · intro u hu
    injection hu with hu
    subst hu
    exact b.lt (by simp)

theorem Base.shelve {X : List Drv} {s : St W} {d : Drv} (b : Base dbg (d :: X) s)
    (hw : d.image ≠ none → d.sec = none ∨ d.sec = some .securityViolation) :
    Base dbg X { s with ctx := Dispatcher.shelve d s.ctx } := by
  have mem : ∀ x ∈ (Dispatcher.shelve d s.ctx).known, x = d ∨ x ∈ s.ctx.known := by
    intro x hx
    unfold Dispatcher.shelve at hx
    split at hx
    all_goals
      simp only [Ctx.known, List.map_append, List.map_cons, List.map_nil, List.mem_append,
        List.mem_cons, List.not_mem_nil, or_false] at hx ⊢
    · rcases hx with h | (h | h) | h
      · exact .inr (.inl h)
      · exact .inr (.inr (.inl h))
      · exact .inl h
      · exact .inr (.inr (.inr h))
    · rcases hx with h | h | h | h
      · exact .inr (.inl h)
      · exact .inr (.inr (.inl h))
      · exact .inr (.inr (.inr h))
      · exact .inl h
    · rcases hx with (h | h) | h
      · exact .inr (.inl h)
      · exact .inl h
      · exact .inr (.inr h)
  have arch : (Dispatcher.shelve d s.ctx).arch = s.ctx.arch := by unfold Dispatcher.shelve; split <;> rfl
  have next : (Dispatcher.shelve d s.ctx).next = s.ctx.next := by unfold Dispatcher.shelve; split <;> rfl
  have proc : (Dispatcher.shelve d s.ctx).processed = s.ctx.processed := by unfold Dispatcher.shelve; split <;> rfl
  refine ⟨?_, ?_, ?_, ?_, ?_, by simp only [arch]; exact b.arch, by simp only [next]; exact b.bound,
    by simp only [proc]; exact b.processed, b.history⟩
  · intro u
    have h1 := b.once u
    unfold Dispatcher.shelve
    split <;>
      simp only [Ctx.known, List.map_append, List.map_cons, List.map_nil, cnt_append, cnt_cons, cnt_nil] at h1 ⊢ <;>
      omega
  · intro x hx
    simp only [List.mem_append] at hx
    apply b.facts
    simp only [List.mem_append, List.mem_cons]
    rcases hx with hx | hx
    · rcases mem x hx with rfl | h
      · exact .inr (.inl rfl)
      · exact .inl h
    · exact .inr (.inr hx)
  · intro x hx hi
    rcases mem x hx with rfl | h
    · exact hw hi
    · exact b.waiting x h hi
  · intro q hq
    unfold Dispatcher.shelve at hq
    split at hq
    · rename_i g hg
      simp only [List.mem_append, List.mem_singleton] at hq
      rcases hq with hq | rfl
      · exact b.before q hq
      · exact hg
    · exact b.before q hq
    · exact b.before q hq
  · intro q hq
    unfold Dispatcher.shelve at hq
    split at hq
    · exact b.after q hq
    · rename_i g hg
      simp only [List.mem_append, List.mem_singleton] at hq
      rcases hq with hq | rfl
      · exact b.after q hq
      · exact hg
    · exact b.after q hq

theorem Base.sift {p : List Guid} (ds : List Drv) : ∀ (X : List Drv) (s : St W) (es : List Drv) (s' : St W),
    Base dbg (ds ++ X) s →
    (∀ d ∈ ds, d.image ≠ none → d.sec = none ∨ d.sec = some .securityViolation) →
    sift dbg p ds s = .ok (es, s') →
    Base dbg (es ++ X) s' ∧ (∀ d ∈ es, .judged d.uid p true ∈ s'.log) ∧ ∃ l, s'.log = s.log ++ l := by
  induction ds with
  | nil =>
    intro X s es s' b _ h
    simp only [Dispatcher.sift] at h
    cases h
    exact ⟨b, by simp, [], by simp⟩
  | cons d ds ih =>
    intro X s es s' b hw h
    simp only [Dispatcher.sift] at h
    cases hj : judge dbg p s.ctx.arch d with
    | err e => rw [hj] at h; cases h
    | panic => rw [hj] at h; cases h
    | ok r =>
      obtain ⟨v, d'⟩ := r
      rw [hj] at h
      have b1 : Base dbg (d' :: (ds ++ X)) (s.note (.judged d.uid p v)) := b.judged hj
      cases v with
      | true =>
        simp only [] at h
        cases hs : Dispatcher.sift dbg p ds (s.note (.judged d.uid p true)) with
        | err e => rw [hs] at h; cases h
        | panic => rw [hs] at h; cases h
        | ok r =>
          obtain ⟨es1, s1⟩ := r
          rw [hs] at h
          cases h
          have b2 : Base dbg (ds ++ d' :: X) (s.note (.judged d.uid p true)) := by
            refine b1.weaken ?_ ?_
            · intro x hx
              simp only [List.mem_append, List.mem_cons] at hx ⊢
              rcases hx with h | h | h
              · exact .inr (.inl h)
              · exact .inl h
              · exact .inr (.inr h)
            · intro u; simp only [cnt_append, cnt_cons]; omega
          obtain ⟨b3, h3, l, hl⟩ := ih _ _ _ _ b2 (fun x hx => hw x (.tail _ hx)) hs
          refine ⟨?_, ?_, .judged d.uid p true :: l, by rw [hl]; simp [St.note]⟩
          · refine b3.weaken ?_ ?_
            · intro x hx
              simp only [List.cons_append, List.mem_append, List.mem_cons] at hx ⊢
              rcases hx with h | h | h
              · exact .inr (.inl h)
              · exact .inl h
              · exact .inr (.inr h)
            · intro u; simp only [List.cons_append, cnt_append, cnt_cons]; omega
          · intro x hx
            rcases List.mem_cons.1 hx with rfl | hx
            · rw [hl, (judge_same hj).1]; simp [St.note]
            · exact h3 x hx
      | false =>
        simp only [] at h
        have hw' : d'.image ≠ none → d'.sec = none ∨ d'.sec = some .securityViolation := by
          rw [(judge_same hj).2.2.2.1, (judge_same hj).2.2.2.2.1]
          exact hw d (.head _)
        obtain ⟨b3, h3, l, hl⟩ := ih _ _ _ _ (b1.shelve hw') (fun x hx => hw x (.tail _ hx)) h
        exact ⟨b3, h3, .judged d.uid p false :: l, by rw [hl]; simp [St.note]⟩

theorem cnt_take_leave (u : Nat) (n : Guid) (m : List (Guid × Drv)) :
    cnt u (take n m) + cnt u ((leave n m).map (·.2)) = cnt u (m.map (·.2)) := by
  induction m with
  | nil => rfl
  | cons q m ih =>
    simp only [take, leave] at ih ⊢
    cases hq : (q.1 == n) <;> simp [List.filter_cons, hq, cnt_cons] <;> omega

theorem mem_take {n : Guid} {m : List (Guid × Drv)} {d : Drv} : d ∈ take n m ↔ (n, d) ∈ m := by
  simp only [take, List.mem_map, List.mem_filter, beq_iff_eq]
  constructor
  · rintro ⟨⟨g, x⟩, ⟨h1, h2⟩, h3⟩
    simp only [] at h2 h3
    subst h2 h3
    exact h1
  · intro h
    exact ⟨(n, d), ⟨h, rfl⟩, rfl⟩

theorem mem_leave {n : Guid} {m : List (Guid × Drv)} {q : Guid × Drv} : q ∈ leave n m ↔ q ∈ m ∧ q.1 ≠ n := by
  simp [leave, List.mem_filter]

/-- What `expand` schedules, and what it leaves. -/
theorem expand_spec (es : List Drv) : ∀ c : Ctx,
    (∀ u, cnt u (expand es c).2.known + cnt u (expand es c).1 = cnt u c.known + cnt u es) ∧
    (∀ d ∈ (expand es c).1, d ∈ es ∨ ∃ t ∈ es, (t.name, d) ∈ c.before ∨ (t.name, d) ∈ c.after) ∧
    (expand es c).2.pending = c.pending ∧ (∀ q ∈ (expand es c).2.before, q ∈ c.before) ∧
    (∀ q ∈ (expand es c).2.after, q ∈ c.after) ∧ (expand es c).2.arch = c.arch ∧
    (expand es c).2.next = c.next ∧ (expand es c).2.processed = c.processed ∧
    (expand es c).2.images = c.images := by
  induction es with
  | nil => intro c; simp [expand]
  | cons d es ih =>
    intro c
    obtain ⟨h1, h2, h3, h4, h5, h6, h7, h8, h9⟩ := ih { c with before := leave d.name c.before, after := leave d.name c.after }
    simp only [expand]
    refine ⟨?_, ?_, h3, fun q hq => (mem_leave.1 (h4 q hq)).1, fun q hq => (mem_leave.1 (h5 q hq)).1, h6, h7, h8, h9⟩
    · intro u
      have e1 := h1 u
      have e2 := cnt_take_leave u d.name c.before
      have e3 := cnt_take_leave u d.name c.after
      simp only [Ctx.known, cnt_append, cnt_cons, List.append_assoc, List.cons_append] at e1 ⊢
      omega
    · intro x hx
      simp only [List.append_assoc, List.cons_append, List.mem_append, List.mem_cons] at hx
      rcases hx with h | rfl | h | h
      · exact .inr ⟨d, .head _, .inl (mem_take.1 h)⟩
      · exact .inl (.head _)
      · exact .inr ⟨d, .head _, .inr (mem_take.1 h)⟩
      · rcases h2 x h with h | ⟨t, ht, h⟩
        · exact .inl (.tail _ h)
        · exact .inr ⟨t, .tail _ ht, h.imp (fun h => (mem_leave.1 h).1) (fun h => (mem_leave.1 h).1)⟩

theorem Base.expand {X es : List Drv} {s : St W} (b : Base dbg (es ++ X) s) :
    Base dbg ((expand es s.ctx).1 ++ X) { s with ctx := (expand es s.ctx).2 } := by
  obtain ⟨h1, h2, h3, h4, h5, h6, h7, h8, _⟩ := expand_spec es s.ctx
  have known : ∀ x ∈ (Dispatcher.expand es s.ctx).2.known, x ∈ s.ctx.known := by
    intro x hx
    simp only [Ctx.known, List.mem_append, List.mem_map] at hx ⊢
    rcases hx with h | ⟨q, hq, rfl⟩ | ⟨q, hq, rfl⟩
    · exact .inl (h3 ▸ h)
    · exact .inr (.inl ⟨q, h4 q hq, rfl⟩)
    · exact .inr (.inr ⟨q, h5 q hq, rfl⟩)
  refine ⟨?_, ?_, ?_, fun q hq => b.before q (h4 q hq), fun q hq => b.after q (h5 q hq),
    by simp only [h6]; exact b.arch, by simp only [h7]; exact b.bound, by simp only [h8]; exact b.processed, b.history⟩
  · intro u
    have e1 := h1 u
    have e2 := b.once u
    simp only [cnt_append] at e1 e2 ⊢
    omega
  · intro x hx
    apply b.facts
    simp only [List.mem_append] at hx ⊢
    rcases hx with h | h | h
    · exact .inl (known x h)
    · rcases h2 x h with h | ⟨t, _, h | h⟩
      · exact .inr (.inl h)
      · exact .inl (by simp only [Ctx.known, List.mem_append, List.mem_map]; exact .inr (.inl ⟨_, h, rfl⟩))
      · exact .inl (by simp only [Ctx.known, List.mem_append, List.mem_map]; exact .inr (.inr ⟨_, h, rfl⟩))
    · exact .inr (.inr h)
  · intro x hx hi
    exact b.waiting x (known x hx) hi

theorem eligible_of_assoc {l : List Ev} {d t : Drv} {p : List Guid} (fd : Fact dbg l d) (ft : Fact dbg l t)
    (h : d.depex.bind Depex.isAssociated = some (.before t.name) ∨
      d.depex.bind Depex.isAssociated = some (.after t.name))
    (hj : .judged t.uid p true ∈ l) : Eligible l d.uid := by
  obtain ⟨dx, hf, hd⟩ := fd.found
  obtain ⟨tx, htf, _⟩ := ft.found
  cases dx with
  | none => rw [hd] at h; rcases h with h | h <;> cases h
  | some b =>
    rw [hd] at h
    exact .inr ⟨d.fv, d.name, b, t.name, t.uid, t.fv, tx, p, hf, replay_says h, htf, hj⟩

theorem latchArch_spec {p : List Guid} {c c' : Ctx} {l : List Ev} (ha : c.arch = true ↔ ArchSeen l)
    (h : latchArch dbg p c = .ok c') :
    (c'.arch = true ↔ ArchSeen (l ++ [.pass p])) ∧ c'.pending = c.pending ∧ c'.before = c.before ∧
    c'.after = c.after ∧ c'.next = c.next ∧ c'.processed = c.processed ∧ c'.images = c.images := by
  obtain ⟨b, hb, hv⟩ := archNow_eq dbg p
  unfold latchArch at h
  split at h
  · rename_i hc
    cases h
    refine ⟨⟨fun _ => ?_, fun _ => hc⟩, rfl, rfl, rfl, rfl, rfl, rfl⟩
    obtain ⟨q, h1, h2⟩ := ha.1 hc
    exact ⟨q, by simp [h1], h2⟩
  · rename_i hc
    rw [hb] at h
    cases h
    refine ⟨?_, rfl, rfl, rfl, rfl, rfl, rfl⟩
    simp only [hv]
    constructor
    · intro h; exact ⟨p, by simp, h⟩
    · rintro ⟨q, h1, h2⟩
      simp only [List.mem_append, List.mem_singleton] at h1
      rcases h1 with h1 | h1
      · exact absurd (ha.2 ⟨q, h1, h2⟩) hc
      · injection h1 with h1; subst h1; exact h2

/-- The state in which candidates are judged: the pending drivers are out of the context. -/
theorem Base.begin {F : List Drv} {s : St W} {p : List Guid} {c : Ctx} (b : Base dbg F s)
    (hc : latchArch dbg p s.ctx = .ok c) :
    Base dbg (c.pending ++ F) { s with ctx := { c with pending := [] }, log := s.log ++ [.pass p] } := by
  obtain ⟨e1, e2, e3, e4, e5, e6, _⟩ := latchArch_spec b.arch hc
  refine ⟨?_, ?_, ?_, by simp only [e3]; exact b.before, by simp only [e4]; exact b.after, e1, ?_, ?_,
    b.history.snoc trivial⟩
  · intro u
    have := b.once u
    simp only [Ctx.known, e2, e3, e4, cnt_append, cnt_nil] at this ⊢
    omega
  · intro x hx
    refine (b.facts x ?_).other (by intro h; cases h)
    simp only [Ctx.known, e2, e3, e4, List.mem_append, List.not_mem_nil, false_or] at hx ⊢
    rcases hx with h | h | h
    · exact .inl (.inr h)
    · exact .inl (.inl h)
    · exact .inr h
  · intro x hx hi
    refine b.waiting x ?_ hi
    simp only [Ctx.known, e3, e4, List.mem_append, List.not_mem_nil, false_or] at hx ⊢
    exact .inr hx
  · simp only [e5]
    exact bound_snoc b.bound (Nat.le_refl _) (by intro u hu; cases hu)
  · simp only [e6]
    exact processed_snoc b.processed (by intro _ h; cases h)

theorem Inv.plan {F : List Drv} {s : St W} {p : List Guid} {ds : List Drv} {s' : St W} (i : Inv dbg F s)
    (h : plan dbg p s = .ok (ds, s')) : Inv dbg (ds ++ F) s' := by
  obtain ⟨b, hF⟩ := i
  unfold Dispatcher.plan at h
  cases hc : latchArch dbg p s.ctx with
  | err e => rw [hc] at h; cases h
  | panic => rw [hc] at h; cases h
  | ok c =>
    rw [hc] at h
    simp only [] at h
    have b1 := b.begin hc
    have hw : ∀ d ∈ c.pending, d.image ≠ none → d.sec = none ∨ d.sec = some .securityViolation := by
      intro d hd
      refine b.waiting d ?_
      rw [(latchArch_spec b.arch hc).2.1] at hd
      simp [Ctx.known, hd]
    cases hs : sift dbg p c.pending { s with ctx := { c with pending := [] }, log := s.log ++ [.pass p] } with
    | err e => rw [hs] at h; cases h
    | panic => rw [hs] at h; cases h
    | ok r =>
      obtain ⟨es, s1⟩ := r
      rw [hs] at h
      cases h
      obtain ⟨b2, hj, l, hl⟩ := b1.sift _ _ _ _ _ hw hs
      refine ⟨b2.expand, ?_⟩
      intro d hd
      simp only [List.mem_append] at hd
      rcases hd with hd | hd
      · rcases (expand_spec es s1.ctx).2.1 d hd with h | ⟨t, ht, h⟩
        · exact .inl ⟨p, hj d h⟩
        · have ft := b2.facts t (by simp [ht])
          have hd' : d ∈ s1.ctx.known := by
            simp only [Ctx.known, List.mem_append, List.mem_map]
            rcases h with h | h
            · exact .inr (.inl ⟨_, h, rfl⟩)
            · exact .inr (.inr ⟨_, h, rfl⟩)
          refine eligible_of_assoc (b2.facts d (by simp [hd'])) ft ?_ (hj t ht)
          exact h.imp (fun h => b2.before _ h) (fun h => b2.after _ h)
      · rw [show s1.log = s.log ++ (.pass p :: l) by rw [hl]; simp]
        exact (hF d hd).append _

/-- The invariant survives every call. -/
theorem inv_closed (env : Env W) : Closed env (Inv (W := W) env.dbg) where
  world := fun F s w h => ⟨⟨h.1.once, h.1.facts, h.1.waiting, h.1.before, h.1.after, h.1.arch, h.1.bound,
    h.1.processed, h.1.history⟩, h.2⟩
  file := fun F s h f i => ⟨i.1.file h f, fun d hd => by
    have : ∃ l, (addFile h f s).log = s.log ++ l := by
      cases f with
      | driver _ _ _ => exact ⟨_, rfl⟩
      | image _ _ _ => simp only [addFile]; split <;> exact ⟨[], by simp⟩
      | _ => exact ⟨[], by simp [addFile]⟩
    obtain ⟨l, hl⟩ := this
    rw [hl]
    exact (i.2 d hd).append _⟩
  mark := fun F s h i hn => ⟨i.1.mark hn, fun d hd => (i.2 d hd).append _⟩
  schedule := fun F s h n i => ⟨i.1.schedule h n, fun d hd => by
    unfold schedule
    generalize updateFirst (wantsSchedule h n) (fun d => { d with depex := d.depex.map Depex.schedule }) s.ctx.pending = r
    obtain ⟨o, l⟩ := r
    cases o with
    | none => exact i.2 d hd
    | some u => exact (i.2 d hd).append _⟩
  trust := fun F s h n i => ⟨i.1.trust h n, fun d hd => by
    unfold trust
    generalize updateFirst (fun d => d.fv == h && d.name == n) (fun d => { d with sec := none }) s.ctx.pending = r
    obtain ⟨o, l⟩ := r
    cases o with
    | none => exact i.2 d hd
    | some u => exact (i.2 d hd).append _⟩
  plan := fun F s ds s' i h => i.plan h
  loaded := fun F s d h sec i hi => ⟨i.1.loaded h sec hi, fun x hx => by
    rcases List.mem_cons.1 hx with rfl | hx
    · exact (i.2 d (.head _)).append _
    · exact (i.2 x (.tail _ hx)).append _⟩
  started := fun F s d h i hi hs => ⟨i.1.started hi hs (i.2 d (.head _)), fun x hx => (i.2 x (.tail _ hx)).append _⟩
  dropped := fun F s d v i hv => ⟨i.1.dropped (by rcases hv with rfl | rfl <;> intro h <;> cases h),
    fun x hx => (i.2 x (.tail _ hx)).append _⟩
  deferred := fun F s d h i hi hs => ⟨i.1.deferred hs, fun x hx => (i.2 x (.tail _ hx)).append _⟩
  lost := fun F s d i => ⟨i.1.weaken (fun x hx => .tail _ hx) (fun u => by simp only [cnt_cons]; omega),
    fun x hx => i.2 x (.tail _ hx)⟩
  images := fun F s l h => ⟨⟨h.1.once, h.1.facts, h.1.waiting, h.1.before, h.1.after, h.1.arch, h.1.bound,
    h.1.processed, h.1.history⟩, h.2⟩
  installed := fun F s u i => ⟨i.1.note (fun d hd => (i.1.facts d (by simp [hd])).other (by intro h; cases h))
    (fun u => Nat.le_refl _) (fun d hd => by intro h; cases h) trivial (by intro _ h; cases h)
    (by intro _ h; cases h) (by intro u hu; cases hu), fun x hx => (i.2 x hx).append _⟩

theorem inv_init (dbg : Bool) (w : W) : Inv dbg [] (⟨w, .new, []⟩ : St W) := by
  refine ⟨⟨?_, ?_, ?_, ?_, ?_, ?_, ?_, ?_, ?_⟩, ?_⟩
  · intro u; exact Nat.zero_le _
  · intro d hd; cases hd
  · intro d hd; cases hd
  · intro d hd; cases hd
  · intro d hd; cases hd
  · simp [Ctx.new, ArchSeen]
  · intro d hd; cases hd
  · intro h; simp [Ctx.new, scannedIn]
  · intro a e b h; cases a <;> cases h
  · intro d hd; cases hd

end Verif.Dispatcher
