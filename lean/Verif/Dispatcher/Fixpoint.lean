import Verif.Dispatcher.Order
/-!
C36: when the dispatcher reports that there is nothing more to do, nothing eligible is left.
-/
namespace Verif.Dispatcher
open Verif.Depex (Guid Opcode Expr)
variable {W α : Type}

/-! ### Evaluating twice -/

theorem forget_fin {l l' : List Opcode} (h : l.map forget = l'.map forget) (i : Nat) :
    (l[i]? == some .fin) = (l'[i]? == some .fin) := by
  have key : ∀ m : List Opcode, (m[i]? == some .fin) = ((m.map forget)[i]? == some .fin) := by
    intro m
    rw [List.getElem?_map]
    cases m[i]? with
    | none => rfl
    | some o => cases o <;> rfl
  rw [key l, key l', h]

theorem evalLoop_twice (dbg : Bool) (p : List Guid) (all all' : List Opcode) (ha : all.map forget = all'.map forget)
    (ops : List Opcode) : ∀ i st, (Depex.evalLoop dbg p all' i st (Depex.evalLoop dbg p all i st ops).2).1 =
      (Depex.evalLoop dbg p all i st ops).1 := by
  have hlen : all.length = all'.length := by simpa using congrArg List.length ha
  have hfin := forget_fin ha 1
  induction ops with
  | nil => intro i st; rfl
  | cons op ops ih =>
    intro i st
    cases op with
    | push g b =>
      simp only [Depex.evalLoop]
      split
      · simp [Depex.evalLoop, ih]
      · rename_i hb
        split
        · simp [Depex.evalLoop, ih]
        · rename_i hg
          simp only [Bool.not_eq_true] at hb hg
          simp only [Depex.evalLoop, hg, Bool.false_eq_true, if_false]
          exact ih _ _
    | before g =>
      simp only [Depex.evalLoop]
      split
      · rename_i hc
        simp only [Depex.evalLoop]
        rw [hlen, hfin] at hc
        rw [if_pos hc]
      · rename_i hc
        simp only [Depex.evalLoop]
        rw [hlen, hfin] at hc
        rw [if_neg hc]
    | after g =>
      simp only [Depex.evalLoop]
      split
      · rename_i hc
        simp only [Depex.evalLoop]
        rw [hlen, hfin] at hc
        rw [if_pos hc]
      · rename_i hc
        simp only [Depex.evalLoop]
        rw [hlen, hfin] at hc
        rw [if_neg hc]
    | sor =>
      simp only [Depex.evalLoop]
      split
      · rename_i hc; simp only [Depex.evalLoop]; rw [if_pos hc]
      · rename_i hc; simp only [Depex.evalLoop]; rw [if_neg hc]
    | unknown =>
      simp only [Depex.evalLoop]
      split
      · rename_i hc; simp only [Depex.evalLoop]; rw [if_pos hc]
      · rename_i hc; simp only [Depex.evalLoop]; rw [if_neg hc]
    | malformed _ _ =>
      simp only [Depex.evalLoop]
      split
      · rename_i hc; simp only [Depex.evalLoop]; rw [if_pos hc]
      · rename_i hc; simp only [Depex.evalLoop]; rw [if_neg hc]
    | fin => rfl
    | _ => simp [Depex.evalLoop, ih]

theorem eval_twice (dbg : Bool) (p : List Guid) (ops : List Opcode) :
    (Depex.eval dbg p (Depex.eval dbg p ops).2).1 = (Depex.eval dbg p ops).1 :=
  evalLoop_twice dbg p ops _ (eval_forget dbg p ops).symm ops 0 []

theorem judge_unmet {dbg : Bool} {p : List Guid} {arch' : Bool} {d d' : Drv}
    (ha : arch' = false → ¬ ∀ g ∈ archGuids, g ∈ p)
    (h : judge dbg p arch' d = .ok (false, d')) : ¬ Met dbg p arch' d' := by
  unfold judge at h
  split at h
  · rename_i hn
    cases h
    simp only [Met, hn, not_or]
    exact ⟨by simp, ha rfl⟩
  · rename_i ops hn
    split at h
    · rename_i b ops' he
      cases h
      have := eval_twice dbg p ops
      simp only [he] at this
      simp [Met, this]
    · cases h

/-! ### Every waiting driver was examined -/

/-- Since the history `l0`, every pending driver was evaluated and found unmet, or deferred, or discovered. -/
def Examined (l0 : List Ev) (_ : List Drv) (s : St W) : Prop :=
  ∃ new, s.log = l0 ++ new ∧ ∀ d ∈ s.ctx.pending,
    (∃ p, .judged d.uid p false ∈ new) ∨ .handled d.uid .deferred ∈ new ∨ ∃ fv n dx, .found d.uid fv n dx ∈ new

theorem Examined.grow {l0 : List Ev} {F G : List Drv} {s s' : St W} {l : List Ev} (h : Examined l0 F s)
    (hl : s'.log = s.log ++ l) (hp : ∀ d ∈ s'.ctx.pending, (∃ d0 ∈ s.ctx.pending, d.uid = d0.uid) ∨
      (∃ p, .judged d.uid p false ∈ l) ∨ .handled d.uid .deferred ∈ l ∨ ∃ fv n dx, .found d.uid fv n dx ∈ l) :
    Examined l0 G s' := by
  obtain ⟨new, hn, hd⟩ := h
  refine ⟨new ++ l, by rw [hl, hn]; simp, ?_⟩
  intro d hd'
  rcases hp d hd' with ⟨d0, h0, e⟩ | ⟨p, h⟩ | h | ⟨fv, n, dx, h⟩
  · rw [e]
    rcases hd d0 h0 with ⟨p, h⟩ | h | ⟨fv, n, dx, h⟩
    · exact .inl ⟨p, by simp [h]⟩
    · exact .inr (.inl (by simp [h]))
    · exact .inr (.inr ⟨fv, n, dx, by simp [h]⟩)
  · exact .inl ⟨p, by simp [h]⟩
  · exact .inr (.inl (by simp [h]))
  · exact .inr (.inr ⟨fv, n, dx, by simp [h]⟩)

theorem updateFirst_uids (p : Drv → Bool) (f : Drv → Drv) (hf : ∀ d, (f d).uid = d.uid) (l : List Drv) :
    ∀ d ∈ (updateFirst p f l).2, ∃ d0 ∈ l, d.uid = d0.uid := by
  induction l with
  | nil => intro d hd; cases hd
  | cons x l ih =>
    intro d hd
    simp only [updateFirst] at hd
    split at hd
    · rcases List.mem_cons.1 hd with rfl | hd
      · exact ⟨x, .head _, hf x⟩
      · exact ⟨d, .tail _ hd, rfl⟩
    · rcases List.mem_cons.1 hd with rfl | hd
      · exact ⟨d, .head _, rfl⟩
      · obtain ⟨d0, h0, e⟩ := ih d hd
        exact ⟨d0, .tail _ h0, e⟩

theorem noteUpdate_examined {l0 : List Ev} {F : List Drv} {s : St W} (i : Examined l0 F s) (ev : Nat → Ev)
    (p : Drv → Bool) (f : Drv → Drv) (hf : ∀ d, (f d).uid = d.uid) :
    Examined l0 F (noteUpdate ev s (updateFirst p f s.ctx.pending)).2 := by
  have := updateFirst_uids p f hf s.ctx.pending
  revert this
  generalize updateFirst p f s.ctx.pending = r
  obtain ⟨o, l⟩ := r
  intro h
  cases o with
  | none => exact i
  | some u => exact i.grow (l := [ev u]) rfl (fun d hd => .inl (h d hd))

theorem sift_pending {dbg : Bool} {p : List Guid} (ds : List Drv) : ∀ (s : St W) (es : List Drv) (s' : St W),
    sift dbg p ds s = .ok (es, s') →
    s'.ctx.arch = s.ctx.arch ∧ s'.ctx.images = s.ctx.images ∧ s'.w = s.w ∧ ∃ l, s'.log = s.log ++ l ∧
      ∀ d' ∈ s'.ctx.pending, d' ∈ s.ctx.pending ∨
        ∃ d ∈ ds, judge dbg p s.ctx.arch d = .ok (false, d') ∧ .judged d'.uid p false ∈ l := by
  induction ds with
  | nil =>
    intro s es s' h
    simp only [sift] at h
    cases h
    exact ⟨rfl, rfl, rfl, [], by simp, fun d hd => .inl hd⟩
  | cons d ds ih =>
    intro s es s' h
    simp only [sift] at h
    cases hj : judge dbg p s.ctx.arch d with
    | err e => rw [hj] at h; cases h
    | panic => rw [hj] at h; cases h
    | ok r =>
      obtain ⟨v, d'⟩ := r
      rw [hj] at h
      cases v with
      | true =>
        simp only [] at h
        cases hs : sift dbg p ds (s.note (.judged d.uid p true)) with
        | err e => rw [hs] at h; cases h
        | panic => rw [hs] at h; cases h
        | ok r =>
          obtain ⟨es1, s1⟩ := r
          rw [hs] at h
          cases h
          obtain ⟨h1, h2, h3, l, hl, h4⟩ := ih _ _ _ hs
          refine ⟨h1, h2, h3, .judged d.uid p true :: l, by rw [hl]; simp [St.note], ?_⟩
          intro x hx
          rcases h4 x hx with h | ⟨y, hy, h⟩
          · exact .inl h
          · exact .inr ⟨y, .tail _ hy, h.1, .tail _ h.2⟩
      | false =>
        have arch : (shelve d' s.ctx).arch = s.ctx.arch := by unfold shelve; split <;> rfl
        have img : (shelve d' s.ctx).images = s.ctx.images := by unfold shelve; split <;> rfl
        have pend : ∀ x ∈ (shelve d' s.ctx).pending, x ∈ s.ctx.pending ∨ x = d' := by
          intro x hx
          unfold shelve at hx
          split at hx
          · exact .inl hx
          · exact .inl hx
          · simpa using hx
        obtain ⟨h1, h2, h3, l, hl, h4⟩ := ih _ _ _ h
        refine ⟨h1.trans arch, h2.trans img, h3, .judged d.uid p false :: l, by rw [hl]; simp, ?_⟩
        intro x hx
        rcases h4 x hx with h | ⟨y, hy, h⟩
        · rcases pend x h with h | rfl
          · exact .inl h
          · exact .inr ⟨d, .head _, hj, by rw [(judge_same hj).1]; exact .head _⟩
        · simp only [arch] at h
          exact .inr ⟨y, .tail _ hy, h.1, .tail _ h.2⟩

/-- What is pending after the schedule of a pass was made. -/
theorem plan_pending {dbg : Bool} {p : List Guid} {s s' : St W} {ds : List Drv} (h : plan dbg p s = .ok (ds, s')) :
    (s'.ctx.arch = true ↔ s.ctx.arch = true ∨ ∀ g ∈ archGuids, g ∈ p) ∧ s'.ctx.images = s.ctx.images ∧ s'.w = s.w ∧
    ∃ l, s'.log = s.log ++ l ∧ ∀ d' ∈ s'.ctx.pending, ¬ Met dbg p s'.ctx.arch d' ∧ .judged d'.uid p false ∈ l := by
  unfold plan at h
  cases hc : latchArch dbg p s.ctx with
  | err e => rw [hc] at h; cases h
  | panic => rw [hc] at h; cases h
  | ok c =>
    obtain ⟨ha, hp, hb, haf, him⟩ := latch_arch hc
    rw [hc] at h
    simp only [] at h
    cases hs : sift dbg p c.pending { s with ctx := { c with pending := [] }, log := s.log ++ [.pass p] } with
    | err e => rw [hs] at h; cases h
    | panic => rw [hs] at h; cases h
    | ok r =>
      obtain ⟨es, s1⟩ := r
      rw [hs] at h
      cases h
      obtain ⟨h1, h2, h3, l, hl, h4⟩ := sift_pending _ _ _ _ hs
      obtain ⟨_, _, e1, _, _, e2, _, _, e3⟩ := expand_spec es s1.ctx
      refine ⟨?_, ?_, h3, .pass p :: l, by simp only [hl]; simp, ?_⟩
      · simp only [e2, h1]; exact ha
      · simp only [e3, h2]; exact him
      · simp only [e1, e2, h1]
        intro d' hd'
        rcases h4 d' hd' with h | ⟨d, _, hj, hm⟩
        · cases h
        · refine ⟨judge_unmet ?_ hj, .tail _ hm⟩
          intro hf hall
          have := ha.2 (.inr hall)
          rw [hf] at this
          cases this

theorem examined_closed (env : Env W) (l0 : List Ev) : Closed env (Examined (W := W) l0) where
  world := fun _ _ _ h => h
  file := fun F s h f i => by
    cases f with
    | driver nm dx rd =>
      refine i.grow (l := [.found s.ctx.next h nm dx]) rfl ?_
      intro d hd
      simp only [addFile, List.mem_append, List.mem_singleton] at hd
      rcases hd with hd | rfl
      · exact .inl ⟨d, hd, rfl⟩
      · exact .inr (.inr (.inr ⟨h, nm, dx, by simp [newDriver]⟩))
    | image _ _ _ => simp only [addFile]; split <;> exact i
    | _ => exact i
  mark := fun _ _ _ i _ => i.grow (l := [_]) rfl (fun d hd => .inl ⟨d, hd, rfl⟩)
  schedule := fun F s h n i => noteUpdate_examined i _ _ _ (fun d => rfl)
  trust := fun F s h n i => noteUpdate_examined i _ _ _ (fun d => rfl)
  plan := fun F s ds s' i h => by
    obtain ⟨_, _, _, l, hl, hd⟩ := plan_pending h
    exact i.grow hl (fun d hd' => .inr (.inl ⟨_, (hd d hd').2⟩))
  loaded := fun _ _ _ _ _ i _ => i.grow (l := [_]) rfl (fun d hd => .inl ⟨d, hd, rfl⟩)
  started := fun _ _ _ _ i _ _ => i.grow (l := [_]) rfl (fun d hd => .inl ⟨d, hd, rfl⟩)
  dropped := fun _ _ _ _ i _ => i.grow (l := [_]) rfl (fun d hd => .inl ⟨d, hd, rfl⟩)
  deferred := fun _ s d _ i _ _ => i.grow (l := [.handled d.uid .deferred]) rfl (fun x hx => by
    simp only [putBack, List.mem_append, List.mem_singleton] at hx
    rcases hx with hx | rfl
    · exact .inl ⟨x, hx, rfl⟩
    · exact .inr (.inr (.inl (by simp))))
  lost := fun _ _ _ i => i
  images := fun _ _ _ i => i
  installed := fun _ _ _ i => i.grow (l := [_]) rfl (fun d hd => .inl ⟨d, hd, rfl⟩)

/-- C36, whatever other code does meanwhile: after a pass, every driver still pending was examined during that
pass and found unmet, or deferred for security, or was only discovered during the pass. -/
theorem pass_examines {env : Env W} {n : Nat} {s s' : St W} {b : Bool} (h : entry env n true s = some (.ok b, s')) :
    ∃ new, s'.log = s.log ++ new ∧ ∀ d ∈ s'.ctx.pending,
      (∃ p, .judged d.uid p false ∈ new) ∨ .handled d.uid .deferred ∈ new ∨ ∃ fv n dx, .found d.uid fv n dx ∈ new := by
  cases n with
  | zero => cases h
  | succ n =>
    have c := examined_closed env s.log
    simp only [entry, pass] at h
    cases hp : plan env.dbg (env.protos s.w) s with
    | err e => rw [hp] at h; cases h
    | panic => rw [hp] at h; cases h
    | ok q =>
      obtain ⟨ds, s1⟩ := q
      rw [hp] at h
      obtain ⟨_, _, _, l, hl, hd⟩ := plan_pending hp
      have h1 : Examined s.log (ds ++ []) s1 := ⟨l, hl, fun d hd' => .inl ⟨_, (hd d hd').2⟩⟩
      exact c.perform (c.entry n) ds [] s1 _ s' h1 h

/-! ### Nothing eligible is left -/

/-- Loading, authenticating and a failed installation leave the registered protocols alone and do not call the
dispatcher, and nothing else happens between the steps of the pass. (Starting a driver may do anything.) -/
structure Calm (env : Env W) : Prop where
  tick : ∀ w, ∃ w', env.tick w = .ret w' () ∧ env.protos w' = env.protos w
  load : ∀ w d, ∃ w' r, env.load w d = .ret w' r ∧ env.protos w' = env.protos w
  auth : ∀ w c, env.protos (env.auth w c).1 = env.protos w
  install : ∀ w c i, (env.install w c i).2 = false → env.protos (env.install w c i).1 = env.protos w

theorem Calm.ran {env : Env W} (hc : Calm env) {api : Bool → St W → Res W Bool} (s0 : W) (s : St W) :
    ∃ w', run api (env.tick s0) s = some (.ok (), { s with w := w' }) ∧ env.protos w' = env.protos s0 := by
  obtain ⟨w', h, hp⟩ := hc.tick s0
  exact ⟨w', by rw [h]; rfl, hp⟩

theorem settle_false {env : Env W} (hc : Calm env) {api : Bool → St W → Res W Bool} {d : Drv} {h : Nat} {s s' : St W}
    (hi : d.image ≠ none) (e : settle env api d h s = some (.ok false, s')) :
    env.protos s'.w = env.protos s.w ∧ s'.ctx.arch = s.ctx.arch ∧ s'.ctx.images = s.ctx.images ∧
    ∃ ds, s'.ctx.pending = s.ctx.pending ++ ds ∧ ∀ x ∈ ds, x.image ≠ none ∧ x.sec = some .securityViolation := by
  unfold settle at e
  split at e
  · cases hr : run api (env.start s.w h) (s.note (.handled d.uid .started)) with
    | none => rw [hr] at e; cases e
    | some q =>
      obtain ⟨o, s1⟩ := q
      rw [hr] at e
      cases o <;> cases e
  · rename_i hs
    obtain ⟨w', hr, hp⟩ := hc.ran (api := api) s.w (putBack d s)
    rw [hr] at e
    cases e
    exact ⟨hp, rfl, rfl, [d], rfl, by simp [hi, hs]⟩
  · cases e
    exact ⟨rfl, rfl, rfl, [], by simp [St.note], by simp⟩

theorem handle_false {env : Env W} (hc : Calm env) {api : Bool → St W → Res W Bool} {d : Drv} {s s' : St W}
    (e : handle env api d s = some (.ok false, s')) :
    env.protos s'.w = env.protos s.w ∧ s'.ctx.arch = s.ctx.arch ∧ s'.ctx.images = s.ctx.images ∧
    ∃ ds, s'.ctx.pending = s.ctx.pending ++ ds ∧ ∀ x ∈ ds, x.image ≠ none ∧ x.sec = some .securityViolation := by
  unfold handle at e
  split at e
  · rename_i h hi
    exact settle_false hc (by simp [hi]) e
  · split at e
    · obtain ⟨w', r, hl, hp⟩ := hc.load s.w d
      rw [hl] at e
      simp only [run] at e
      cases r with
      | none =>
        simp only [afterLoad] at e
        cases e
        exact ⟨hp, rfl, rfl, [], by simp [St.note], by simp⟩
      | some q =>
        obtain ⟨h, sec⟩ := q
        obtain ⟨h1, h2, h3, h4⟩ := settle_false hc (d := withImage d h sec) (by simp [withImage]) e
        exact ⟨h1.trans hp, h2, h3, h4⟩
    · cases e

theorem handleAll_false {env : Env W} (hc : Calm env) {api : Bool → St W → Res W Bool} (ds : List Drv) :
    ∀ (b : Bool) (s s' : St W), handleAll env api ds b s = some (.ok false, s') → b = false ∧
    env.protos s'.w = env.protos s.w ∧ s'.ctx.arch = s.ctx.arch ∧ s'.ctx.images = s.ctx.images ∧
    ∃ ds', s'.ctx.pending = s.ctx.pending ++ ds' ∧ ∀ x ∈ ds', x.image ≠ none ∧ x.sec = some .securityViolation := by
  induction ds with
  | nil => intro b s s' h; simp only [handleAll] at h; cases h; exact ⟨rfl, rfl, rfl, rfl, [], by simp, by simp⟩
  | cons d ds ih =>
    intro b s s' h
    simp only [handleAll] at h
    cases h1 : handle env api d s with
    | none => rw [h1] at h; cases h
    | some q =>
      obtain ⟨o, s1⟩ := q
      rw [h1] at h
      cases o with
      | err x => cases h
      | panic => cases h
      | ok a =>
        obtain ⟨e0, e1, e2, e3, l, e4, e5⟩ := ih _ _ _ h
        simp only [Bool.or_eq_false_iff] at e0
        obtain ⟨rfl, rfl⟩ := e0
        obtain ⟨f1, f2, f3, l', f4, f5⟩ := handle_false hc h1
        refine ⟨rfl, e1.trans f1, e2.trans f2, e3.trans f3, l' ++ l, by rw [e4, f4]; simp, ?_⟩
        intro x hx
        simp only [List.mem_append] at hx
        exact hx.elim (f5 x) (e5 x)

/-- The dependency of a volume image is met. -/
def ImageMet (dbg : Bool) (p : List Guid) (c : FvImg) : Prop :=
  match c.depex with
  | none => True
  | some ops => (Depex.eval dbg p ops).1 = .ok true

theorem judgeImage_unmet {dbg : Bool} {p : List Guid} {c c' : FvImg} (h : judgeImage dbg p c = .ok (false, c')) :
    ¬ ImageMet dbg p c' := by
  unfold judgeImage at h
  split at h
  · cases h
  · rename_i ops hn
    split at h
    · rename_i b ops' he
      cases h
      have := eval_twice dbg p ops
      simp only [he] at this
      simp [ImageMet, this]
    · cases h

theorem installAll_false {env : Env W} (hc : Calm env) (c : FvImg) (l : List Bool) :
    ∀ (i : Nat) (b : Bool) (s s' : St W), installAll env c l i b s = (.ok false, s') → b = false ∧
    env.protos s'.w = env.protos s.w ∧ s'.ctx = s.ctx := by
  induction l with
  | nil => intro i b s s' h; simp only [installAll] at h; cases h; exact ⟨rfl, rfl, rfl⟩
  | cons x l ih =>
    intro i b s s' h
    simp only [installAll] at h
    split at h
    · obtain ⟨h1, h2, h3⟩ := ih _ _ _ _ h
      simp only [Bool.or_eq_false_iff] at h1
      exact ⟨h1.1, h2.trans (hc.install _ _ _ h1.2), h3⟩
    · cases h

theorem installAll_mono (env : Env W) (c : FvImg) (l : List Bool) :
    ∀ (i : Nat) (s : St W) (b' : Bool) (s' : St W), installAll env c l i true s = (.ok b', s') → b' = true := by
  induction l with
  | nil => intro i s b' s' h; simp only [installAll] at h; cases h; rfl
  | cons x l ih =>
    intro i s b' s' h
    simp only [installAll] at h
    split at h
    · exact ih _ _ _ _ h
    · cases h

theorem imagesLoop_mono (env : Env W) (l : List FvImg) :
    ∀ (s : St W) (b' : Bool) (s' : St W), imagesLoop env l true s = (.ok b', s') → b' = true := by
  induction l with
  | nil => intro s b' s' h; simp only [imagesLoop] at h; cases h; rfl
  | cons c l ih =>
    intro s b' s' h
    simp only [imagesLoop] at h
    cases hj : judgeImage env.dbg (env.protos s.w) c with
    | err e => rw [hj] at h; cases h
    | panic => rw [hj] at h; cases h
    | ok q =>
      obtain ⟨v, c'⟩ := q
      rw [hj] at h
      cases v with
      | false => exact ih _ _ _ h
      | true =>
        simp only [] at h
        split at h
        · cases hi : installAll env c' c'.sections 0 true { s with w := (env.auth s.w c').1 } with
          | mk o s1 =>
            rw [hi] at h
            cases o with
            | err x => cases h
            | panic => cases h
            | ok b1 =>
              have := installAll_mono _ _ _ _ _ _ _ hi
              subst this
              exact ih _ _ _ h
        · exact ih _ _ _ h

theorem imagesLoop_false {env : Env W} (hc : Calm env) (l : List FvImg) :
    ∀ (b : Bool) (s s' : St W), imagesLoop env l b s = (.ok false, s') → b = false ∧
    env.protos s'.w = env.protos s.w ∧ s'.ctx.arch = s.ctx.arch ∧ s'.ctx.pending = s.ctx.pending ∧
    ∃ l', s'.ctx.images = s.ctx.images ++ l' ∧ ∀ c ∈ l', ¬ ImageMet env.dbg (env.protos s.w) c ∨
      ∃ w, env.protos w = env.protos s.w ∧ (env.auth w c).2 = false := by
  induction l with
  | nil => intro b s s' h; simp only [imagesLoop] at h; cases h; exact ⟨rfl, rfl, rfl, rfl, [], by simp, by simp⟩
  | cons c l ih =>
    intro b s s' h
    simp only [imagesLoop] at h
    cases hj : judgeImage env.dbg (env.protos s.w) c with
    | err e => rw [hj] at h; cases h
    | panic => rw [hj] at h; cases h
    | ok q =>
      obtain ⟨v, c'⟩ := q
      rw [hj] at h
      cases v with
      | false =>
        obtain ⟨h1, h2, h3, h4, l', h5, h6⟩ := ih _ _ _ h
        refine ⟨h1, h2, h3, h4, c' :: l', by rw [h5]; simp [keepImage], ?_⟩
        intro x hx
        rcases List.mem_cons.1 hx with rfl | hx
        · exact .inl (judgeImage_unmet hj)
        · exact h6 x hx
      | true =>
        simp only [] at h
        split at h
        · cases hi : installAll env c' c'.sections 0 b { s with w := (env.auth s.w c').1 } with
          | mk o s1 =>
            rw [hi] at h
            cases o with
            | err x => cases h
            | panic => cases h
            | ok b1 =>
              obtain ⟨h1, h2, h3, h4, l', h5, h6⟩ := ih _ _ _ h
              subst h1
              obtain ⟨g1, g2, g3⟩ := installAll_false hc _ _ _ _ _ _ hi
              have g2' : env.protos s1.w = env.protos s.w := g2.trans (hc.auth _ _)
              simp only [g3] at h3 h4 h5
              rw [g2'] at h2
              simp only [g2'] at h6
              exact ⟨g1, h2, h3, h4, l', h5, h6⟩
        · rename_i hau
          obtain ⟨h1, h2, h3, h4, l', h5, h6⟩ := ih _ _ _ h
          have ha := hc.auth s.w c'
          simp only [keepImage] at h2 h3 h4 h5 h6
          rw [ha] at h2
          simp only [ha] at h6
          refine ⟨h1, h2, h3, h4, c' :: l', by rw [h5]; simp, ?_⟩
          intro x hx
          rcases List.mem_cons.1 hx with rfl | hx
          · exact .inr ⟨s.w, rfl, by simpa using hau⟩
          · exact h6 x hx

/-- C36: after a pass that reports no progress, every pending driver has an unmet dependency or waits for trust
after a security violation, and every pending volume image has an unmet dependency or was not authenticated. -/
theorem no_progress_fixpoint {env : Env W} (hc : Calm env) {n : Nat} {s s' : St W}
    (h : entry env n true s = some (.ok false, s')) :
    (∀ d ∈ s'.ctx.pending, ¬ Met env.dbg (env.protos s'.w) s'.ctx.arch d ∨
      (d.image ≠ none ∧ d.sec = some .securityViolation)) ∧
    (∀ c ∈ s'.ctx.images, ¬ ImageMet env.dbg (env.protos s'.w) c ∨
      ∃ w, env.protos w = env.protos s'.w ∧ (env.auth w c).2 = false) := by
  cases n with
  | zero => cases h
  | succ n =>
    simp only [entry, pass] at h
    cases hp : plan env.dbg (env.protos s.w) s with
    | err e => rw [hp] at h; cases h
    | panic => rw [hp] at h; cases h
    | ok q =>
      obtain ⟨ds, s1⟩ := q
      rw [hp] at h
      obtain ⟨_, _, hw, l, _, hd⟩ := plan_pending hp
      simp only [perform] at h
      obtain ⟨w1, hr, hp1⟩ := hc.ran (api := entry env n) s1.w s1
      rw [hr] at h
      simp only [] at h
      cases hh : handleAll env (entry env n) ds false { s1 with w := w1 } with
      | none => rw [hh] at h; cases h
      | some q =>
        obtain ⟨o, s3⟩ := q
        rw [hh] at h
        cases o with
        | err x => cases h
        | panic => cases h
        | ok b1 =>
          simp only [finish, imagePhase] at h
          cases hi : imagesLoop env s3.ctx.images b1 { s3 with ctx := { s3.ctx with images := [] } } with
          | mk o s4 =>
            rw [hi] at h
            cases o with
            | err x => cases h
            | panic => cases h
            | ok b2 =>
              obtain ⟨w2, hr2, hp2⟩ := hc.ran (api := entry env n) s4.w s4
              simp only [hr2] at h
              cases h
              obtain ⟨e0, e1, e2, e3, l', e4, e5⟩ := imagesLoop_false hc _ _ _ _ hi
              subst e0
              obtain ⟨_, f1, f2, f3, ds', f4, f5⟩ := handleAll_false hc _ _ _ _ hh
              simp only [] at e1 e2 e3 e4 e5 f1 f2 f3 f4 hp2
              have hpr : env.protos w2 = env.protos s.w := by rw [hp2, e1, f1, hp1, hw]
              have hpr3 : env.protos s3.w = env.protos s.w := by rw [f1, hp1, hw]
              refine ⟨?_, ?_⟩
              · intro d hd'
                simp only [hpr, e2, f2] at hd' ⊢
                rw [e3, f4] at hd'
                simp only [List.mem_append] at hd'
                rcases hd' with h | h
                · exact .inl (hd d h).1
                · exact .inr (f5 d h)
              · intro c hcm
                simp only [hpr, hpr3] at hcm e5 ⊢
                rw [e4] at hcm
                simpa using e5 c (by simpa using hcm)

/-! ### `core_dispatcher` -/

theorem run_no_err {api : Bool → St W → Res W Bool} (c : Code W α) :
    ∀ (s : St W) (e : EfiError) (s' : St W), run api c s ≠ some (.err e, s') := by
  induction c with
  | ret w a => intro s e s' h; cases h
  | volumes fvs k ih =>
    intro s e s' h
    simp only [run] at h
    generalize addFvs fvs s = q at h
    obtain ⟨b, s1⟩ := q
    cases b
    · cases h
    · exact ih _ _ _ h
  | schedule fv name k ih => intro s e s' h; exact ih _ _ _ _ h
  | trust fv name k ih => intro s e s' h; exact ih _ _ _ _ h
  | dispatch one w k ih =>
    intro s e s' h
    simp only [run] at h
    cases h1 : api one { s with w := w } with
    | none => rw [h1] at h; cases h
    | some q =>
      obtain ⟨o, s1⟩ := q
      rw [h1] at h
      cases o with
      | ok b => exact ih _ _ _ _ _ h
      | err x => exact ih _ _ _ _ _ h
      | panic => cases h

theorem as_no_err {api : Bool → St W → Res W Bool} {c : Code W Unit} {b : Bool} {s s' : St W} {e : EfiError} :
    Res.as b (run api c s) ≠ some (.err e, s') := by
  intro h
  cases h1 : run api c s with
  | none => rw [h1] at h; cases h
  | some q =>
    obtain ⟨o, s1⟩ := q
    rw [h1] at h
    cases o with
    | ok x => cases h
    | err x => exact run_no_err _ _ _ _ h1
    | panic => cases h

theorem handle_err {env : Env W} {api : Bool → St W → Res W Bool} {d : Drv} {s s' : St W} {e : EfiError}
    (h : handle env api d s = some (.err e, s')) : e = .invalidParameter ∧ d.readable = false := by
  have hs : ∀ d h s, settle env api d h s ≠ some (.err e, s') := by
    intro d h s e
    unfold settle at e
    split at e
    · exact as_no_err e
    · exact as_no_err e
    · cases e
  unfold handle at h
  split at h
  · exact absurd h (hs _ _ _)
  · split at h
    · cases h1 : run api (env.load s.w d) s with
      | none => rw [h1] at h; cases h
      | some q =>
        obtain ⟨o, s1⟩ := q
        rw [h1] at h
        cases o with
        | ok x =>
          cases x with
          | none => cases h
          | some q => exact absurd h (hs _ _ _)
        | err x => exact absurd h1 (run_no_err _ _ _ _)
        | panic => cases h
    · rename_i hr; cases h; exact ⟨rfl, by simpa using hr⟩

theorem handleAll_err {env : Env W} {api : Bool → St W → Res W Bool} (ds : List Drv) :
    ∀ (b : Bool) (s s' : St W) (e : EfiError), handleAll env api ds b s = some (.err e, s') → e = .invalidParameter := by
  induction ds with
  | nil => intro b s s' e h; cases h
  | cons d ds ih =>
    intro b s s' e h
    simp only [handleAll] at h
    cases h1 : handle env api d s with
    | none => rw [h1] at h; cases h
    | some q =>
      obtain ⟨o, s1⟩ := q
      rw [h1] at h
      cases o with
      | ok a => exact ih _ _ _ _ h
      | err x => cases h; exact (handle_err h1).1
      | panic => cases h

theorem installAll_err {env : Env W} {c : FvImg} (l : List Bool) :
    ∀ (i : Nat) (b : Bool) (s s' : St W) (e : EfiError), installAll env c l i b s = (.err e, s') → e = .invalidParameter := by
  induction l with
  | nil => intro i b s s' e h; cases h
  | cons x l ih =>
    intro i b s s' e h
    simp only [installAll] at h
    split at h
    · exact ih _ _ _ _ _ h
    · cases h; rfl

theorem imagesLoop_err {env : Env W} (l : List FvImg) :
    ∀ (b : Bool) (s s' : St W) (e : EfiError), imagesLoop env l b s = (.err e, s') → e = .invalidParameter := by
  induction l with
  | nil => intro b s s' e h; cases h
  | cons c l ih =>
    intro b s s' e h
    simp only [imagesLoop] at h
    cases hj : judgeImage env.dbg (env.protos s.w) c with
    | err x =>
      unfold judgeImage at hj
      split at hj
      · cases hj
      · split at hj <;> cases hj
    | panic => rw [hj] at h; cases h
    | ok q =>
      obtain ⟨v, c'⟩ := q
      rw [hj] at h
      cases v with
      | false => exact ih _ _ _ _ h
      | true =>
        simp only [] at h
        split at h
        · cases hi : installAll env c' c'.sections 0 b { s with w := (env.auth s.w c').1 } with
          | mk o s1 =>
            rw [hi] at h
            cases o with
            | err x => cases h; exact installAll_err _ _ _ _ _ _ hi
            | panic => cases h
            | ok b1 => exact ih _ _ _ _ h
        · exact ih _ _ _ _ h

theorem sift_no_err {dbg : Bool} {p : List Guid} (ds : List Drv) :
    ∀ (s : St W) (e : EfiError), sift dbg p ds s ≠ .err e := by
  induction ds with
  | nil => intro s e h; cases h
  | cons d ds ih =>
    intro s e h
    simp only [sift] at h
    cases hj : judge dbg p s.ctx.arch d with
    | err x =>
      unfold judge at hj
      split at hj
      · cases hj
      · split at hj <;> cases hj
    | panic => rw [hj] at h; cases h
    | ok q =>
      obtain ⟨v, d'⟩ := q
      rw [hj] at h
      cases v with
      | false => exact ih _ _ h
      | true =>
        simp only [] at h
        cases hs : sift dbg p ds (s.note (.judged d.uid p true)) with
        | ok q => rw [hs] at h; cases h
        | err x => exact ih _ _ hs
        | panic => rw [hs] at h; cases h

/-- The only error a pass reports is that of an unreadable section. -/
theorem pass_err {env : Env W} {api : Bool → St W → Res W Bool} {s s' : St W} {e : EfiError}
    (h : pass env api s = some (.err e, s')) : e = .invalidParameter := by
  unfold pass at h
  cases hp : plan env.dbg (env.protos s.w) s with
  | err x =>
    unfold plan at hp
    obtain ⟨b, hb, _⟩ := archNow_eq env.dbg (env.protos s.w)
    cases hl : latchArch env.dbg (env.protos s.w) s.ctx with
    | err y =>
      unfold latchArch at hl
      rw [hb] at hl
      split at hl <;> cases hl
    | panic => rw [hl] at hp; cases hp
    | ok c =>
      rw [hl] at hp
      simp only [] at hp
      cases hs : sift env.dbg (env.protos s.w) c.pending
          { s with ctx := { c with pending := [] }, log := s.log ++ [.pass (env.protos s.w)] } with
      | ok q => rw [hs] at hp; cases hp
      | err y => exact absurd hs (sift_no_err _ _ _)
      | panic => rw [hs] at hp; cases hp
  | panic => rw [hp] at h; cases h
  | ok q =>
    obtain ⟨ds, s1⟩ := q
    rw [hp] at h
    simp only [perform] at h
    cases ht : run api (env.tick s1.w) s1 with
    | none => rw [ht] at h; cases h
    | some q =>
      obtain ⟨o, s2⟩ := q
      rw [ht] at h
      cases o with
      | err x => exact absurd ht (run_no_err _ _ _ _)
      | panic => cases h
      | ok x =>
        simp only [] at h
        cases hh : handleAll env api ds false s2 with
        | none => rw [hh] at h; cases h
        | some q =>
          obtain ⟨o, s3⟩ := q
          rw [hh] at h
          cases o with
          | err x => cases h; exact handleAll_err _ _ _ _ _ hh
          | panic => cases h
          | ok b1 =>
            simp only [finish, imagePhase] at h
            cases hi : imagesLoop env s3.ctx.images b1 { s3 with ctx := { s3.ctx with images := [] } } with
            | mk o s4 =>
              rw [hi] at h
              cases o with
              | err x => cases h; exact imagesLoop_err _ _ _ _ _ hi
              | panic => cases h
              | ok b2 => exact absurd h as_no_err

theorem passes_end {env : Env W} {m : Nat} (k : Nat) : ∀ (b : Bool) (s s' : St W) (r : Outcome EfiError Bool),
    passes (pass env (entry env m)) k b s = some (r, s') → r = .ok true ∨ r = .err .notFound →
    ∃ s1, entry env (m + 1) true s1 = some (.ok false, s') := by
  induction k with
  | zero => intro b s s' r h _; cases h
  | succ k ih =>
    intro b s s' r h hr
    simp only [passes] at h
    cases h1 : pass env (entry env m) s with
    | none => rw [h1] at h; cases h
    | some q =>
      obtain ⟨o, s1⟩ := q
      rw [h1] at h
      cases o with
      | ok v =>
        cases v with
        | true => exact ih _ _ _ _ h hr
        | false => cases h; exact ⟨s, h1⟩
      | err e =>
        cases h
        have := pass_err h1
        rcases hr with h | h
        · cases h
        · injection h with h
          rw [this] at h
          cases h
      | panic =>
        cases h
        rcases hr with h | h <;> cases h

/-- C36: when `core_dispatcher` returns success, or `NotFound` because there was nothing to do, nothing eligible
is left. -/
theorem dispatcher_fixpoint {env : Env W} (hc : Calm env) {n : Nat} {s s' : St W} {r : Outcome EfiError Bool}
    (h : entry env n false s = some (r, s')) (hr : r = .ok true ∨ r = .err .notFound) :
    (∀ d ∈ s'.ctx.pending, ¬ Met env.dbg (env.protos s'.w) s'.ctx.arch d ∨
      (d.image ≠ none ∧ d.sec = some .securityViolation)) ∧
    (∀ c ∈ s'.ctx.images, ¬ ImageMet env.dbg (env.protos s'.w) c ∨
      ∃ w, env.protos w = env.protos s'.w ∧ (env.auth w c).2 = false) := by
  cases n with
  | zero => cases h
  | succ n =>
    obtain ⟨s1, h1⟩ := passes_end _ _ _ _ _ h hr
    exact no_progress_fixpoint hc h1

end Verif.Dispatcher
