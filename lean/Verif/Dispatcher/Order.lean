import Verif.Dispatcher.Props
/-!
C35: drivers that say BEFORE or AFTER a driver are dealt with in the pass in which that driver becomes
eligible, right before (after) it.
-/
namespace Verif.Dispatcher
open Verif.Depex (Guid Opcode Expr)
variable {W α : Type}

/-! ### The log only grows -/

def Extends (l0 : List Ev) (_ : List Drv) (s : St W) : Prop := ∃ l, s.log = l0 ++ l

theorem Extends.snoc {l0 : List Ev} {F G : List Drv} {s s' : St W} {e : Ev} (h : Extends l0 F s)
    (he : s'.log = s.log ++ [e]) : Extends l0 G s' := by
  obtain ⟨l, hl⟩ := h
  exact ⟨l ++ [e], by rw [he, hl]; simp⟩

theorem noteUpdate_log (ev : Nat → Ev) (s : St W) (r : Option Nat × List Drv) :
    (∃ u, (noteUpdate ev s r).2.log = s.log ++ [ev u]) ∨ (noteUpdate ev s r).2 = s := by
  obtain ⟨o, l⟩ := r
  cases o with
  | none => exact .inr rfl
  | some u => exact .inl ⟨u, rfl⟩

theorem sift_log {dbg : Bool} {p : List Guid} (ds : List Drv) : ∀ (s : St W) (es : List Drv) (s' : St W),
    sift dbg p ds s = .ok (es, s') → ∃ l, s'.log = s.log ++ l := by
  induction ds with
  | nil => intro s es s' h; simp only [sift] at h; cases h; exact ⟨[], by simp⟩
  | cons d ds ih =>
    intro s es s' h
    simp only [sift] at h
    cases hj : judge dbg p s.ctx.arch d with
    | err e => rw [hj] at h; cases h
    | panic => rw [hj] at h; cases h
    | ok r =>
      obtain ⟨v, d'⟩ := r
      rw [hj] at h
      cases v with
      | true =>
        simp only [] at h
        cases hs : sift dbg p ds (s.note (.judged d.uid p true)) with
        | err e => rw [hs] at h; cases h
        | panic => rw [hs] at h; cases h
        | ok r =>
          obtain ⟨es1, s1⟩ := r
          rw [hs] at h
          cases h
          obtain ⟨l, hl⟩ := ih _ _ _ hs
          exact ⟨.judged d.uid p true :: l, by rw [hl]; simp [St.note]⟩
      | false =>
        obtain ⟨l, hl⟩ := ih _ _ _ h
        exact ⟨.judged d.uid p false :: l, by rw [hl]; simp⟩

theorem plan_log {dbg : Bool} {p : List Guid} {s s' : St W} {ds : List Drv}
    (h : plan dbg p s = .ok (ds, s')) : ∃ l, s'.log = s.log ++ .pass p :: l := by
  unfold plan at h
  cases hc : latchArch dbg p s.ctx with
  | err e => rw [hc] at h; cases h
  | panic => rw [hc] at h; cases h
  | ok c =>
    rw [hc] at h
    simp only [] at h
    cases hs : sift dbg p c.pending { s with ctx := { c with pending := [] }, log := s.log ++ [.pass p] } with
    | err e => rw [hs] at h; cases h
    | panic => rw [hs] at h; cases h
    | ok r =>
      obtain ⟨es, s1⟩ := r
      rw [hs] at h
      cases h
      obtain ⟨l, hl⟩ := sift_log _ _ _ _ hs
      exact ⟨l, by simp only [hl]; simp⟩

theorem extends_closed (env : Env W) (l0 : List Ev) : Closed env (Extends (W := W) l0) where
  world := fun _ _ _ h => h
  file := fun F s h f i => by
    cases f with
    | driver _ _ _ => exact i.snoc rfl
    | image _ _ _ => simp only [addFile]; split <;> exact i
    | _ => exact i
  mark := fun _ _ _ i _ => i.snoc rfl
  schedule := fun F s h n i => by
    rcases noteUpdate_log .requested s (updateFirst (wantsSchedule h n)
      (fun d => { d with depex := d.depex.map Depex.schedule }) s.ctx.pending) with ⟨u, hu⟩ | hu
    · exact i.snoc hu
    · unfold schedule; rw [hu]; exact i
  trust := fun F s h n i => by
    rcases noteUpdate_log .trusted s (updateFirst (fun d => d.fv == h && d.name == n)
      (fun d => { d with sec := none }) s.ctx.pending) with ⟨u, hu⟩ | hu
    · exact i.snoc hu
    · unfold trust; rw [hu]; exact i
  plan := fun F s ds s' i h => by
    obtain ⟨l, hl⟩ := i
    obtain ⟨l', hl'⟩ := plan_log h
    exact ⟨l ++ .pass (env.protos s.w) :: l', by rw [hl', hl]; simp⟩
  loaded := fun _ _ _ _ _ i _ => i.snoc rfl
  started := fun _ _ _ _ i _ _ => i.snoc rfl
  dropped := fun _ _ _ _ i _ => i.snoc rfl
  deferred := fun _ _ _ _ i _ _ => i.snoc rfl
  lost := fun _ _ _ i => i
  images := fun _ _ _ i => i
  installed := fun _ _ _ i => i.snoc rfl

/-- Calls only extend the log. -/
def Grows (f : St W → Res W α) : Prop := ∀ s r s', f s = some (r, s') → ∃ l, s'.log = s.log ++ l

theorem Keeps.grows {f : St W → Res W α} (h : ∀ l0, Keeps (Extends l0) f) : Grows f :=
  fun s r s' e => h s.log [] s r s' ⟨[], by simp⟩ e

theorem entry_grows (env : Env W) (n : Nat) (one : Bool) : Grows (entry env n one) :=
  Keeps.grows (fun l0 => (extends_closed env l0).entry n one)

theorem run_grows (env : Env W) {api : Bool → St W → Res W Bool} (ha : ∀ one, Grows (api one))
    (c : Code W α) : Grows (run api c) := by
  refine Keeps.grows (fun l0 => (extends_closed env l0).run (fun one F s r s' i h => ?_) c)
  obtain ⟨l, hl⟩ := i
  obtain ⟨l', hl'⟩ := ha one s r s' h
  exact ⟨l ++ l', by rw [hl', hl]; simp⟩

/-! ### Scheduled drivers are dealt with in order -/

/-- The dispatcher dealt with `d` after the history `l` with verdict `v`: it was started, unless it could
not be loaded or drew an objection. -/
def Fate (d : Drv) (l : List Ev) (v : Verdict) : Prop :=
  v = .started ∨ v = .failed ∨ ∃ e, (d.image ≠ none ∧ d.sec = some e) ∨ .loaded d.uid (some e) ∈ l

/-- `l` consists of one stretch per driver, in order, in which the dispatcher deals with it. -/
inductive Stretches : List Drv → List Ev → Prop where
  | nil : Stretches [] []
  | cons {d ds v a b l} : Fate d a v → Stretches ds l → Stretches (d :: ds) (a ++ .handled d.uid v :: b ++ l)

theorem Res.as_some {b : Bool} {x : Res W Unit} {r : Outcome EfiError Bool} {s : St W} (h : Res.as b x = some (r, s)) :
    ∃ o, x = some (o, s) := by
  cases x with
  | none => cases h
  | some y =>
    obtain ⟨o, s1⟩ := y
    cases o <;> · cases h; exact ⟨_, rfl⟩

theorem settle_log {env : Env W} {api : Bool → St W → Res W Bool} (ha : ∀ one, Grows (api one)) {d : Drv} {h : Nat}
    {s s' : St W} {r : Outcome EfiError Bool} (e : settle env api d h s = some (r, s')) :
    ∃ v l, s'.log = s.log ++ .handled d.uid v :: l ∧ (v = .started ∨ ∃ e, d.sec = some e) := by
  unfold settle at e
  split at e
  · obtain ⟨o, e⟩ := Res.as_some e
    obtain ⟨l, hl⟩ := run_grows env ha _ _ _ _ e
    exact ⟨.started, l, by rw [hl]; simp [St.note], .inl rfl⟩
  · rename_i hs
    obtain ⟨o, e⟩ := Res.as_some e
    obtain ⟨l, hl⟩ := run_grows env ha _ _ _ _ e
    exact ⟨.deferred, l, by rw [hl]; simp [putBack], .inr ⟨_, hs⟩⟩
  · rename_i x hs _
    cases e
    exact ⟨.refused, [], by simp [St.note], .inr ⟨_, by assumption⟩⟩

theorem handle_log {env : Env W} {api : Bool → St W → Res W Bool} (ha : ∀ one, Grows (api one)) {d : Drv}
    {s s' : St W} {b : Bool} (e : handle env api d s = some (.ok b, s')) :
    ∃ x v y, s'.log = s.log ++ (x ++ .handled d.uid v :: y) ∧ Fate d x v := by
  unfold handle at e
  split at e
  · rename_i h hi
    obtain ⟨v, l, hl, hv⟩ := settle_log ha e
    refine ⟨[], v, l, by simp [hl], ?_⟩
    rcases hv with h | ⟨x, h⟩
    · exact .inl h
    · exact .inr (.inr ⟨x, .inl ⟨by simp [hi], h⟩⟩)
  · split at e
    · cases h1 : run api (env.load s.w d) s with
      | none => rw [h1] at e; cases e
      | some q =>
        obtain ⟨o, s1⟩ := q
        obtain ⟨l1, hl1⟩ := run_grows env ha _ _ _ _ h1
        rw [h1] at e
        cases o with
        | err x => cases e
        | panic => cases e
        | ok x =>
          cases x with
          | none =>
            simp only [afterLoad] at e
            cases e
            exact ⟨l1, .failed, [], by simp [St.note, hl1], .inr (.inl rfl)⟩
          | some q =>
            obtain ⟨h, sec⟩ := q
            obtain ⟨v, l, hl, hv⟩ := settle_log ha (d := withImage d h sec) e
            refine ⟨l1 ++ [.loaded d.uid sec], v, l, ?_, ?_⟩
            · rw [hl]; simp [St.note, hl1, withImage]
            · rcases hv with h | ⟨x, h⟩
              · exact .inl h
              · simp only [withImage] at h
                exact .inr (.inr ⟨x, .inr (by simp [h])⟩)
    · cases e

theorem handleAll_log {env : Env W} {api : Bool → St W → Res W Bool} (ha : ∀ one, Grows (api one)) (ds : List Drv) :
    ∀ (b : Bool) (s : St W) (b' : Bool) (s' : St W), handleAll env api ds b s = some (.ok b', s') →
    ∃ l, s'.log = s.log ++ l ∧ Stretches ds l := by
  induction ds with
  | nil => intro b s b' s' h; simp only [handleAll] at h; cases h; exact ⟨[], by simp, .nil⟩
  | cons d ds ih =>
    intro b s b' s' h
    simp only [handleAll] at h
    cases h1 : handle env api d s with
    | none => rw [h1] at h; cases h
    | some q =>
      obtain ⟨o, s1⟩ := q
      rw [h1] at h
      cases o with
      | err x => cases h
      | panic => cases h
      | ok a =>
        obtain ⟨x, v, y, e1, hf⟩ := handle_log ha h1
        obtain ⟨l, hl, hs⟩ := ih _ _ _ _ h
        exact ⟨x ++ .handled d.uid v :: y ++ l, by rw [hl, e1]; simp, .cons hf hs⟩

/-- A completed pass deals with every scheduled driver, in order. -/
theorem pass_log {env : Env W} {api : Bool → St W → Res W Bool} (ha : ∀ one, Grows (api one)) {s s' : St W}
    {b : Bool} (h : pass env api s = some (.ok b, s')) :
    ∃ ds s1 l0 l l1, plan env.dbg (env.protos s.w) s = .ok (ds, s1) ∧
      s'.log = s.log ++ (l0 ++ l ++ l1) ∧ Stretches ds l := by
  unfold pass at h
  cases hp : plan env.dbg (env.protos s.w) s with
  | err e => rw [hp] at h; cases h
  | panic => rw [hp] at h; cases h
  | ok q =>
    obtain ⟨ds, s1⟩ := q
    obtain ⟨lp, hlp⟩ := plan_log hp
    rw [hp] at h
    simp only [perform] at h
    cases ht : run api (env.tick s1.w) s1 with
    | none => rw [ht] at h; cases h
    | some q =>
      obtain ⟨o, s2⟩ := q
      obtain ⟨lt, hlt⟩ := run_grows env ha _ _ _ _ ht
      rw [ht] at h
      cases o with
      | err x => cases h
      | panic => cases h
      | ok x =>
        simp only [] at h
        cases hh : handleAll env api ds false s2 with
        | none => rw [hh] at h; cases h
        | some q =>
          obtain ⟨o, s3⟩ := q
          rw [hh] at h
          cases o with
          | err x => cases h
          | panic => cases h
          | ok b1 =>
            obtain ⟨l, hl, hs⟩ := handleAll_log ha _ _ _ _ _ hh
            have hfin : ∃ lf, s'.log = s3.log ++ lf := by
              refine Keeps.grows (f := finish env api b1) (fun l0 => ?_) _ _ _ h
              refine (extends_closed env l0).finish (fun one F s r s' i h => ?_) b1
              obtain ⟨l, hl⟩ := i
              obtain ⟨l', hl'⟩ := ha one s r s' h
              exact ⟨l ++ l', by rw [hl', hl]; simp⟩
            obtain ⟨lf, hlf⟩ := hfin
            exact ⟨ds, s1, .pass (env.protos s.w) :: lp ++ lt, l, lf, rfl, by rw [hlf, hl, hlt, hlp]; simp, hs⟩

theorem Stretches.split {ds : List Drv} {l : List Ev} (h : Stretches ds l) {x : List Drv} {d : Drv} {y : List Drv}
    (e : ds = x ++ d :: y) : ∃ a v b, l = a ++ .handled d.uid v :: b ∧ (∃ a1 a2, a = a1 ++ a2 ∧ Fate d a2 v ∧ Stretches x a1) ∧
      ∃ b1 b2, b = b1 ++ b2 ∧ Stretches y b2 := by
  induction h generalizing x with
  | nil => cases x <;> cases e
  | @cons d' ds' v a b l hf hs ih =>
    cases x with
    | nil =>
      injection e with e1 e2
      subst e1 e2
      exact ⟨a, v, b ++ l, by simp, ⟨[], a, by simp, hf, .nil⟩, b, l, rfl, hs⟩
    | cons z x =>
      injection e with e1 e2
      subst e1
      obtain ⟨a', v', b', e3, ⟨a1, a2, e4, hf', hs'⟩, hb⟩ := ih e2
      exact ⟨a ++ .handled d'.uid v :: b ++ a', v', b', by rw [e3]; simp,
        ⟨a ++ .handled d'.uid v :: b ++ a1, a2, by rw [e4]; simp, hf', .cons hf hs'⟩, hb⟩

/-- Two drivers of the schedule are dealt with in order. -/
theorem Stretches.order {ds : List Drv} {l : List Ev} (h : Stretches ds l) {x y z : List Drv} {d e : Drv}
    (hd : ds = x ++ d :: y ++ e :: z) :
    ∃ a v b v' c, l = a ++ .handled d.uid v :: b ++ .handled e.uid v' :: c ∧ Fate d a v ∧ Fate e b v' := by
  obtain ⟨a, v, b, e1, ⟨a1, a2, e2, hf, _⟩, b1, b2, e3, hs⟩ := h.split (x := x) (d := d) (y := y ++ e :: z) (by simp [hd])
  obtain ⟨a', v', b', e4, ⟨c1, c2, e5, hf', _⟩, _⟩ := hs.split rfl
  have mono : ∀ {d : Drv} {x y : List Ev} {v : Verdict}, Fate d y v → Fate d (x ++ y) v := by
    intro d x y v hf
    rcases hf with h | h | ⟨q, h | h⟩
    · exact .inl h
    · exact .inr (.inl h)
    · exact .inr (.inr ⟨q, .inl h⟩)
    · exact .inr (.inr ⟨q, .inr (by simp [h])⟩)
  refine ⟨a, v, b1 ++ a', v', b', by rw [e1, e3, e4]; simp, e2 ▸ mono hf, ?_⟩
  rw [e5, ← List.append_assoc]
  exact mono hf'

/-! ### The schedule -/

theorem take_leave {n m : Guid} (h : n ≠ m) (l : List (Guid × Drv)) : take n (leave m l) = take n l := by
  unfold take leave
  rw [List.filter_filter]
  congr 1
  apply List.filter_congr
  intro q _
  by_cases hq : q.1 = n
  · have : q.1 ≠ m := fun e => h (hq.symm.trans e)
    simp [hq, h]
  · simp [hq]

/-- The companions of a driver surround it in the schedule. -/
theorem expand_block (x : List Drv) (t : Drv) (y : List Drv) (c : Ctx) (h : ∀ d ∈ x, d.name ≠ t.name) :
    ∃ a b, (expand (x ++ t :: y) c).1 = a ++ (take t.name c.before ++ t :: take t.name c.after) ++ b := by
  induction x generalizing c with
  | nil => exact ⟨[], _, rfl⟩
  | cons d x ih =>
    obtain ⟨a, b, e⟩ := ih { c with before := leave d.name c.before, after := leave d.name c.after }
      (fun d hd => h d (.tail _ hd))
    have hn : t.name ≠ d.name := fun e => h d (.head _) e.symm
    simp only [take_leave hn] at e
    refine ⟨take d.name c.before ++ d :: take d.name c.after ++ a, b, ?_⟩
    simp only [List.cons_append, expand]
    rw [e]
    simp

/-- What becomes of each candidate. -/
theorem sift_split {dbg : Bool} {p : List Guid} (ds : List Drv) : ∀ (s : St W) (es : List Drv) (s' : St W),
    sift dbg p ds s = .ok (es, s') →
    (∀ q ∈ s.ctx.before, q ∈ s'.ctx.before) ∧ (∀ q ∈ s.ctx.after, q ∈ s'.ctx.after) ∧
    (∀ x t y, ds = x ++ t :: y → ∃ v t', judge dbg p s.ctx.arch t = .ok (v, t') ∧
      (v = true → ∃ ex ey, es = ex ++ t' :: ey ∧
        ∀ e ∈ ex, ∃ d ∈ x, judge dbg p s.ctx.arch d = .ok (true, e)) ∧
      (v = false → ∀ g, (t'.depex.bind Depex.isAssociated = some (.before g) → (g, t') ∈ s'.ctx.before) ∧
        (t'.depex.bind Depex.isAssociated = some (.after g) → (g, t') ∈ s'.ctx.after))) := by
  induction ds with
  | nil =>
    intro s es s' h
    simp only [sift] at h
    cases h
    exact ⟨fun _ h => h, fun _ h => h, fun x t y e => by cases x <;> cases e⟩
  | cons d ds ih =>
    intro s es s' h
    simp only [sift] at h
    cases hj : judge dbg p s.ctx.arch d with
    | err e => rw [hj] at h; cases h
    | panic => rw [hj] at h; cases h
    | ok r =>
      obtain ⟨v, d'⟩ := r
      rw [hj] at h
      cases v with
      | true =>
        simp only [] at h
        cases hs : sift dbg p ds (s.note (.judged d.uid p true)) with
        | err e => rw [hs] at h; cases h
        | panic => rw [hs] at h; cases h
        | ok r =>
          obtain ⟨es1, s1⟩ := r
          rw [hs] at h
          cases h
          obtain ⟨h1, h2, h3⟩ := ih _ _ _ hs
          refine ⟨h1, h2, ?_⟩
          intro x t y e
          cases x with
          | nil =>
            injection e with e1 e2
            subst e1 e2
            exact ⟨true, d', hj, fun _ => ⟨[], es1, rfl, by simp⟩, fun h => by cases h⟩
          | cons z x =>
            injection e with e1 e2
            subst e1
            obtain ⟨v, t', e3, h4, h5⟩ := h3 x t y e2
            refine ⟨v, t', e3, fun hv => ?_, h5⟩
            obtain ⟨ex, ey, e4, h6⟩ := h4 hv
            refine ⟨d' :: ex, ey, by rw [e4]; rfl, ?_⟩
            intro e he
            rcases List.mem_cons.1 he with rfl | he
            · exact ⟨d, .head _, hj⟩
            · obtain ⟨q, hq, hq'⟩ := h6 e he
              exact ⟨q, .tail _ hq, hq'⟩
      | false =>
        have arch : (shelve d' s.ctx).arch = s.ctx.arch := by unfold shelve; split <;> rfl
        have hb : ∀ q ∈ s.ctx.before, q ∈ (shelve d' s.ctx).before := by
          intro q hq; unfold shelve; split <;> simp [hq]
        have haf : ∀ q ∈ s.ctx.after, q ∈ (shelve d' s.ctx).after := by
          intro q hq; unfold shelve; split <;> simp [hq]
        obtain ⟨h1, h2, h3⟩ := ih _ _ _ h
        simp only [arch] at h3
        refine ⟨fun q hq => h1 q (hb q hq), fun q hq => h2 q (haf q hq), ?_⟩
        intro x t y e
        cases x with
        | nil =>
          injection e with e1 e2
          subst e1 e2
          refine ⟨false, d', hj, fun h => (by cases h), fun _ g => ⟨fun hg => h1 _ ?_, fun hg => h2 _ ?_⟩⟩
          · simp only [shelve, hg]; simp
          · simp only [shelve, hg]; simp
        | cons z x =>
          injection e with e1 e2
          subst e1
          obtain ⟨v, t', e3, h4, h5⟩ := h3 x t y e2
          refine ⟨v, t', e3, fun hv => ?_, h5⟩
          obtain ⟨ex, ey, e4, h6⟩ := h4 hv
          refine ⟨ex, ey, e4, ?_⟩
          intro e he
          obtain ⟨q, hq, hq'⟩ := h6 e he
          exact ⟨q, .tail _ hq, hq'⟩

/-- The dependency of `d` is met when the protocols `p` are registered; `arch` says whether all
architectural protocols were registered at an earlier pass. -/
def Met (dbg : Bool) (p : List Guid) (arch : Bool) (d : Drv) : Prop :=
  match d.depex with
  | none => arch = true ∨ ∀ g ∈ archGuids, g ∈ p
  | some ops => (Depex.eval dbg p ops).1 = .ok true

/-- The dependency of `d` says BEFORE (`b`) or AFTER the driver `g`. -/
def Names (b : Bool) (g : Guid) (d : Drv) : Prop :=
  ∃ rest, d.depex = some ((if b then .before g else .after g) :: rest)

/-- `d` says BEFORE (`b`) or AFTER `g` and waits in the dispatcher, among the pending drivers or already set
aside by an earlier pass. -/
def Waits (b : Bool) (g : Guid) (d : Drv) (c : Ctx) : Prop :=
  (d ∈ c.pending ∧ Names b g d) ∨ (g, d) ∈ (if b then c.before else c.after)

theorem judge_met {dbg : Bool} {p : List Guid} {arch arch' : Bool} {d : Drv} {v : Bool} {d' : Drv}
    (ha : arch' = true ↔ arch = true ∨ ∀ g ∈ archGuids, g ∈ p)
    (h : judge dbg p arch' d = .ok (v, d')) : v = true ↔ Met dbg p arch d := by
  unfold judge at h
  unfold Met
  split at h
  · rename_i hn
    cases h
    simp only [hn]
    exact ha
  · rename_i ops hn
    simp only [hn]
    split at h
    · rename_i b ops' he
      cases h
      simp [he]
    · cases h

theorem latch_arch {dbg : Bool} {p : List Guid} {c c' : Ctx} (h : latchArch dbg p c = .ok c') :
    (c'.arch = true ↔ c.arch = true ∨ ∀ g ∈ archGuids, g ∈ p) ∧ c'.pending = c.pending ∧
      c'.before = c.before ∧ c'.after = c.after ∧ c'.images = c.images := by
  obtain ⟨b, hb, hv⟩ := archNow_eq dbg p
  unfold latchArch at h
  split at h
  · rename_i hc; cases h; simp [hc]
  · rename_i hc
    rw [hb] at h
    cases h
    simp [hc, hv]

theorem judge_names {dbg : Bool} {p : List Guid} {arch : Bool} {b : Bool} {g : Guid} {d : Drv} {v : Bool} {d' : Drv}
    (hn : Names b g d) (h : judge dbg p arch d = .ok (v, d')) : v = false ∧ d' = d := by
  obtain ⟨rest, hd⟩ := hn
  unfold judge at h
  rw [hd] at h
  simp only [] at h
  split at h
  · rename_i b' ops' he
    cases h
    cases b
    all_goals
      simp only [Bool.false_eq_true, if_true, if_false, Depex.eval, Depex.evalLoop] at he
      split at he
      · cases he
      · cases he
        refine ⟨rfl, ?_⟩
        cases d
        simp_all
  · cases h

/-- The schedule of a pass: an eligible driver, the first of its name, is surrounded by the drivers that wait
for it. -/
theorem plan_block {dbg : Bool} {p : List Guid} {s s' : St W} {ds : List Drv} (h : plan dbg p s = .ok (ds, s'))
    {x y : List Drv} {t : Drv} (ht : s.ctx.pending = x ++ t :: y) (hm : Met dbg p s.ctx.arch t)
    (hx : ∀ d ∈ x, d.name = t.name → ¬ Met dbg p s.ctx.arch d) :
    ∃ a bs t' as b, ds = a ++ (bs ++ t' :: as) ++ b ∧ t'.uid = t.uid ∧ t'.image = t.image ∧ t'.sec = t.sec ∧
      (∀ u, Waits true t.name u s.ctx → u ∈ bs) ∧ (∀ u, Waits false t.name u s.ctx → u ∈ as) := by
  unfold plan at h
  cases hc : latchArch dbg p s.ctx with
  | err e => rw [hc] at h; cases h
  | panic => rw [hc] at h; cases h
  | ok c =>
    obtain ⟨ha, hp, hb, haf, _⟩ := latch_arch hc
    rw [hc] at h
    simp only [] at h
    cases hs : sift dbg p c.pending { s with ctx := { c with pending := [] }, log := s.log ++ [.pass p] } with
    | err e => rw [hs] at h; cases h
    | panic => rw [hs] at h; cases h
    | ok r =>
      obtain ⟨es, s1⟩ := r
      rw [hs] at h
      cases h
      obtain ⟨h1, h2, h3⟩ := sift_split _ _ _ _ hs
      simp only [] at h1 h2 h3
      obtain ⟨v, t', hj, h4, _⟩ := h3 x t y (hp.trans ht)
      obtain ⟨ex, ey, e1, h5⟩ := h4 ((judge_met ha hj).2 hm)
      obtain ⟨j1, j2, j3, j4, j5, _⟩ := judge_same hj
      have hex : ∀ d ∈ ex, d.name ≠ t'.name := by
        intro d hd e
        obtain ⟨q, hq, hq'⟩ := h5 d hd
        refine hx q hq ?_ ((judge_met ha hq').1 rfl)
        rw [← (judge_same hq').2.2.1, e, j3]
      obtain ⟨a, b, e2⟩ := expand_block ex t' ey s1.ctx hex
      refine ⟨a, _, t', _, b, by rw [e1, e2], j1, j4, j5, ?_, ?_⟩
      · intro u hu
        rw [mem_take, j3]
        rcases hu with ⟨hu, hn⟩ | hu
        · obtain ⟨x', y', e3⟩ := List.append_of_mem hu
          obtain ⟨v', u', hj', _, h6⟩ := h3 x' u y' (hp.trans e3)
          obtain ⟨rfl, rfl⟩ := judge_names hn hj'
          obtain ⟨rest, hr⟩ := hn
          exact (h6 rfl t.name).1 (by rw [hr]; rfl)
        · exact h1 _ (by rw [hb]; exact hu)
      · intro u hu
        rw [mem_take, j3]
        rcases hu with ⟨hu, hn⟩ | hu
        · obtain ⟨x', y', e3⟩ := List.append_of_mem hu
          obtain ⟨v', u', hj', _, h6⟩ := h3 x' u y' (hp.trans e3)
          obtain ⟨rfl, rfl⟩ := judge_names hn hj'
          obtain ⟨rest, hr⟩ := hn
          exact (h6 rfl t.name).2 (by rw [hr]; rfl)
        · exact h2 _ (by rw [haf]; exact hu)

/-- C35: in the pass in which `t` becomes eligible (and is the first eligible driver of its name), every driver
that says BEFORE `t` is dealt with before `t` is: started, unless it cannot be loaded or draws an objection. -/
theorem before_in_same_pass {env : Env W} {n : Nat} {s s' : St W} {b : Bool}
    (h : entry env n true s = some (.ok b, s')) {x y : List Drv} {t u : Drv}
    (ht : s.ctx.pending = x ++ t :: y) (hm : Met env.dbg (env.protos s.w) s.ctx.arch t)
    (hx : ∀ d ∈ x, d.name = t.name → ¬ Met env.dbg (env.protos s.w) s.ctx.arch d)
    (hu : Waits true t.name u s.ctx) :
    ∃ l0 vu l1 vt l2, s'.log = s.log ++ (l0 ++ .handled u.uid vu :: l1 ++ .handled t.uid vt :: l2) ∧
      Fate u l0 vu ∧ Fate t l1 vt := by
  cases n with
  | zero => cases h
  | succ n =>
    obtain ⟨ds, s1, l0, l, l1, hp, hl, hs⟩ := pass_log (entry_grows env n) h
    obtain ⟨a, bs, t', as, c, e1, e2, e3, e4, hb, _⟩ := plan_block hp ht hm hx
    obtain ⟨b1, b2, e5⟩ := List.append_of_mem (hb u hu)
    obtain ⟨q1, vu, q2, vt, q3, e6, f1, f2⟩ := hs.order (x := a ++ b1) (d := u) (y := b2) (e := t') (z := as ++ c)
      (by rw [e1, e5]; simp)
    refine ⟨l0 ++ q1, vu, q2, vt, q3 ++ l1, by rw [hl, e6, e2]; simp, ?_, ?_⟩
    · rcases f1 with h | h | ⟨e, h | h⟩
      · exact .inl h
      · exact .inr (.inl h)
      · exact .inr (.inr ⟨e, .inl h⟩)
      · exact .inr (.inr ⟨e, .inr (by simp [h])⟩)
    · simp only [Fate, e2, e3, e4] at f2
      exact f2

/-- C35: likewise every driver that says AFTER `t` is dealt with after `t`, in the same pass. -/
theorem after_in_same_pass {env : Env W} {n : Nat} {s s' : St W} {b : Bool}
    (h : entry env n true s = some (.ok b, s')) {x y : List Drv} {t u : Drv}
    (ht : s.ctx.pending = x ++ t :: y) (hm : Met env.dbg (env.protos s.w) s.ctx.arch t)
    (hx : ∀ d ∈ x, d.name = t.name → ¬ Met env.dbg (env.protos s.w) s.ctx.arch d)
    (hu : Waits false t.name u s.ctx) :
    ∃ l0 vt l1 vu l2, s'.log = s.log ++ (l0 ++ .handled t.uid vt :: l1 ++ .handled u.uid vu :: l2) ∧
      Fate t l0 vt ∧ Fate u l1 vu := by
  cases n with
  | zero => cases h
  | succ n =>
    obtain ⟨ds, s1, l0, l, l1, hp, hl, hs⟩ := pass_log (entry_grows env n) h
    obtain ⟨a, bs, t', as, c, e1, e2, e3, e4, _, hb⟩ := plan_block hp ht hm hx
    obtain ⟨b1, b2, e5⟩ := List.append_of_mem (hb u hu)
    obtain ⟨q1, vt, q2, vu, q3, e6, f1, f2⟩ := hs.order (x := a ++ bs) (d := t') (y := b1) (e := u) (z := b2 ++ c)
      (by rw [e1, e5]; simp)
    refine ⟨l0 ++ q1, vt, q2, vu, q3 ++ l1, by rw [hl, e6, e2]; simp, ?_, f2⟩
    simp only [Fate, e2, e3, e4] at f1
    rcases f1 with h | h | ⟨e, h | h⟩
    · exact .inl h
    · exact .inr (.inl h)
    · exact .inr (.inr ⟨e, .inl h⟩)
    · exact .inr (.inr ⟨e, .inr (by simp [h])⟩)

end Verif.Dispatcher
