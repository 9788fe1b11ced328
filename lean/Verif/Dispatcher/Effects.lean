import Verif.Dispatcher.Kept
/-!
C34, C36, C51, continued: the default dependency, what `core_schedule` and `core_trust` change, what happens to
volume images, and what `core_dispatcher` returns.
-/
namespace Verif.Dispatcher
open Verif.Depex (Guid Opcode)
variable {W : Type}

/-! ### The default dependency -/

/-- The bytes of the GUID written `a-b-c-d` (with `d` of eight bytes) as they are stored. -/
def stored (a b c d : Nat) : List UInt8 :=
  [a, a / 2 ^ 8, a / 2 ^ 16, a / 2 ^ 24, b, b / 2 ^ 8, c, c / 2 ^ 8, d / 2 ^ 56, d / 2 ^ 48, d / 2 ^ 40, d / 2 ^ 32,
    d / 2 ^ 24, d / 2 ^ 16, d / 2 ^ 8, d].map UInt8.ofNat

/-- The default dependency is on the twelve architectural protocols of the PI specification (volume 2): BDS, CPU,
metronome, monotonic counter, real time clock, reset, runtime, security, timer, variable write, variable, watchdog. -/
theorem arch_protocols : archGuids.map (·.1) =
    [stored 0x665e3ff6 0x46cc 0x11d4 0x9a380090273fc14d, stored 0x26baccb1 0x6f42 0x11d4 0xbce70080c73c8881,
     stored 0x26baccb2 0x6f42 0x11d4 0xbce70080c73c8881, stored 0x1da97072 0xbddc 0x4b30 0x99f172a0b56fff2a,
     stored 0x27cfac87 0x46cc 0x11d4 0x9a380090273fc14d, stored 0x27cfac88 0x46cc 0x11d4 0x9a380090273fc14d,
     stored 0xb7dfb4e1 0x052f 0x449f 0x87be9818fc91b733, stored 0xa46423e3 0x4617 0x49f1 0xb9ffd1bfa9115839,
     stored 0x26baccb3 0x6f42 0x11d4 0xbce70080c73c8881, stored 0x6441f818 0x6362 0x4e44 0xb5707dba31dd2453,
     stored 0x1e5668e2 0x8481 0x11d4 0xbcf10080c73c8881, stored 0x665e3ff5 0x46cc 0x11d4 0x9a380090273fc14d] := by
  decide +kernel

/-! ### Volume images -/

/-- The files of a volume that hold further volumes. -/
def imagesOf : List FileEntry → List (Guid × Option (List UInt8) × List Bool)
  | [] => []
  | .image n dx secs :: fs => if secs = [] then imagesOf fs else (n, dx, secs) :: imagesOf fs
  | _ :: fs => imagesOf fs

theorem addFiles_images (h : Nat) (fs : List FileEntry) : ∀ s : St W, (∀ f ∈ fs, f ≠ .bad) →
    ∃ is, (addFiles h fs s).2.ctx.images = s.ctx.images ++ is ∧
      is.map (fun c => (c.fv, c.name, c.depex, c.sections)) =
        (imagesOf fs).map (fun x => (h, x.1, x.2.1.map Depex.parse, x.2.2)) := by
  induction fs with
  | nil => intro s _; exact ⟨[], by simp [addFiles], rfl⟩
  | cons f fs ih =>
    intro s hb
    have hb' : ∀ f ∈ fs, f ≠ .bad := fun x hx => hb x (.tail _ hx)
    cases f with
    | bad => exact absurd rfl (hb _ (.head _))
    | driver n dx rd => exact ih (addFile h (.driver n dx rd) s) hb'
    | other => exact ih s hb'
    | image n dx secs =>
      obtain ⟨is, h1, h2⟩ := ih (addFile h (.image n dx secs) s) hb'
      by_cases e : secs = []
      · have : addFile h (.image n dx secs) s = s := by simp [addFile, e]
        refine ⟨is, ?_, by rw [h2]; simp [imagesOf, e]⟩
        show (addFiles h fs (addFile h (.image n dx secs) s)).2.ctx.images = _
        rw [h1, this]
      · refine ⟨⟨s.ctx.next, h, n, dx.map Depex.parse, secs⟩ :: is, ?_, ?_⟩
        · show (addFiles h fs (addFile h (.image n dx secs) s)).2.ctx.images = _
          rw [h1]
          simp [addFile, e]
        · rw [List.map_cons, h2]
          simp [imagesOf, e]

/-- Announcing a new, readable volume: the volume images in it are queued in order, with their dependencies and
sections. -/
theorem images_discovered {s : St W} {h : Nat} {fs : List FileEntry} (hn : h ∉ s.ctx.processed)
    (hb : ∀ f ∈ fs, f ≠ .bad) :
    ∃ is, (addFvs [(h, some fs)] s).2.ctx.images = s.ctx.images ++ is ∧
      is.map (fun c => (c.fv, c.name, c.depex, c.sections)) =
        (imagesOf fs).map (fun x => (h, x.1, x.2.1.map Depex.parse, x.2.2)) := by
  obtain ⟨is, h1, h2⟩ := addFiles_images h fs (markProcessed h s) hb
  refine ⟨is, ?_, h2⟩
  rw [show s.ctx.images = (markProcessed h s).ctx.images from rfl, ← h1]
  simp only [addFvs, addFv, if_neg hn]
  generalize addFiles h fs (markProcessed h s) = q
  obtain ⟨b, s'⟩ := q
  cases b <;> rfl

/-- The same image, but for what its dependency remembers of protocols seen. -/
def SameImage (c c' : FvImg) : Prop :=
  c'.uid = c.uid ∧ c'.fv = c.fv ∧ c'.name = c.name ∧ c'.sections = c.sections ∧
    c'.depex.map (·.map forget) = c.depex.map (·.map forget)

/-- The volumes in an image are installed one after the other, from section `i` on, with these results. -/
inductive Installs (env : Env W) (c : FvImg) : Nat → W → List Bool → W → Prop where
  | nil (i : Nat) (w : W) : Installs env c i w [] w
  | cons {i : Nat} {w w1 w' : W} {ok : Bool} {l : List Bool} : env.install w c i = (w1, ok) →
      Installs env c (i + 1) w1 l w' → Installs env c i w (ok :: l) w'

/-- What happens to each pending image in turn: it stays if its dependency is not met or it is not authenticated;
otherwise the volumes in it are installed. `kept` are those that stay, `us` the serial numbers of images, once for each
volume installed from it. -/
inductive Fates (env : Env W) : List FvImg → W → List FvImg → List Nat → W → Prop where
  | nil (w : W) : Fates env [] w [] [] w
  | waits {c c' : FvImg} {cs kept : List FvImg} {us : List Nat} {w w' : W} : ¬ ImageMet env.dbg (env.protos w) c →
      SameImage c c' → Fates env cs w kept us w' → Fates env (c :: cs) w (c' :: kept) us w'
  | refused {c c' : FvImg} {cs kept : List FvImg} {us : List Nat} {w w1 w' : W} : ImageMet env.dbg (env.protos w) c →
      SameImage c c' → env.auth w c' = (w1, false) → Fates env cs w1 kept us w' →
      Fates env (c :: cs) w (c' :: kept) us w'
  | installed {c c' : FvImg} {cs kept : List FvImg} {us : List Nat} {w w1 w2 w' : W} {oks : List Bool} :
      ImageMet env.dbg (env.protos w) c → SameImage c c' → env.auth w c' = (w1, true) →
      oks.length = c.sections.length → Installs env c' 0 w1 oks w2 → Fates env cs w2 kept us w' →
      Fates env (c :: cs) w kept (List.replicate (oks.count true) c.uid ++ us) w'

theorem judgeImage_spec {dbg : Bool} {p : List Guid} {c c' : FvImg} {b : Bool} (h : judgeImage dbg p c = .ok (b, c')) :
    SameImage c c' ∧ (b = true ↔ ImageMet dbg p c) := by
  unfold judgeImage at h
  unfold ImageMet
  cases hd : c.depex with
  | none =>
    rw [hd] at h
    cases h
    exact ⟨⟨rfl, rfl, rfl, rfl, rfl⟩, by simp⟩
  | some ops =>
    rw [hd] at h
    simp only [] at h ⊢
    cases he : Depex.eval dbg p ops with
    | mk o ops' =>
      rw [he] at h
      cases o with
      | ok v =>
        cases h
        refine ⟨⟨rfl, rfl, rfl, rfl, ?_⟩, by simp⟩
        have := eval_forget dbg p ops
        rw [he] at this
        simp [hd, this]
      | err e => cases h
      | panic => cases h

theorem installAll_spec (env : Env W) (c : FvImg) (l : List Bool) :
    ∀ (i : Nat) (b : Bool) (s : St W) (b' : Bool) (s' : St W), installAll env c l i b s = (.ok b', s') →
    ∃ oks, oks.length = l.length ∧ Installs env c i s.w oks s'.w ∧ s'.ctx = s.ctx ∧
      s'.log = s.log ++ (List.replicate (oks.count true) c.uid).map .installed ∧
      (b' = true ↔ b = true ∨ true ∈ oks) := by
  induction l with
  | nil =>
    intro i b s b' s' h
    cases h
    exact ⟨[], rfl, .nil _ _, rfl, by simp, by simp⟩
  | cons x l ih =>
    intro i b s b' s' h
    simp only [installAll] at h
    split at h
    · obtain ⟨oks, h1, h2, h3, h4, h5⟩ := ih _ _ _ _ _ h
      refine ⟨(env.install s.w c i).2 :: oks, by simp [h1], .cons rfl h2, h3, ?_, ?_⟩
      · rw [h4]
        cases (env.install s.w c i).2 with
        | false => simp
        | true =>
          simp only [if_true, List.count_cons_self, List.replicate_succ, List.map_cons]
          simp
      · rw [h5, Bool.or_eq_true, List.mem_cons]
        constructor
        · rintro ((h | h) | h)
          · exact Or.inl h
          · exact Or.inr (Or.inl h.symm)
          · exact Or.inr (Or.inr h)
        · rintro (h | h | h)
          · exact Or.inl (Or.inl h)
          · exact Or.inl (Or.inr h.symm)
          · exact Or.inr h
    · cases h

theorem imagesLoop_fates (env : Env W) (l : List FvImg) :
    ∀ (b : Bool) (s : St W) (b' : Bool) (s' : St W), imagesLoop env l b s = (.ok b', s') →
    ∃ kept us, Fates env l s.w kept us s'.w ∧ s'.ctx = { s.ctx with images := s.ctx.images ++ kept } ∧
      s'.log = s.log ++ us.map .installed ∧ (b' = true ↔ b = true ∨ us ≠ []) := by
  induction l with
  | nil =>
    intro b s b' s' h
    cases h
    exact ⟨[], [], .nil _, by simp, by simp, by simp⟩
  | cons c l ih =>
    intro b s b' s' h
    simp only [imagesLoop] at h
    cases hj : judgeImage env.dbg (env.protos s.w) c with
    | err e => rw [hj] at h; cases h
    | panic => rw [hj] at h; cases h
    | ok q =>
      obtain ⟨v, c'⟩ := q
      obtain ⟨hs, hm⟩ := judgeImage_spec hj
      rw [hj] at h
      cases v with
      | false =>
        obtain ⟨kept, us, h1, h2, h3, h4⟩ := ih b (keepImage c' s) _ _ h
        exact ⟨c' :: kept, us, .waits (fun x => by cases hm.2 x) hs h1, by rw [h2]; simp [keepImage], h3, h4⟩
      | true =>
        simp only [] at h
        split at h
        · rename_i hau
          cases hi : installAll env c' c'.sections 0 b { s with w := (env.auth s.w c').1 } with
          | mk o s1 =>
            rw [hi] at h
            cases o with
            | err x => cases h
            | panic => cases h
            | ok b1 =>
              obtain ⟨oks, g1, g2, g3, g4, g5⟩ := installAll_spec env _ _ _ _ _ _ _ hi
              obtain ⟨kept, us, h1, h2, h3, h4⟩ := ih b1 s1 _ _ h
              refine ⟨kept, List.replicate (oks.count true) c.uid ++ us,
                .installed (hm.1 rfl) hs (w1 := (env.auth s.w c').1) (by rw [← hau]) (by rw [g1, hs.2.2.2.1]) g2 h1, ?_, ?_, ?_⟩
              · rw [h2, g3]
              · rw [h3, g4, hs.1]; simp
              · rw [h4, g5]
                have : List.replicate (oks.count true) c.uid ++ us ≠ [] ↔ true ∈ oks ∨ us ≠ [] := by
                  rw [← List.count_pos_iff]
                  cases oks.count true <;> simp [List.replicate_succ]
                rw [this, or_assoc]
        · rename_i hau
          obtain ⟨kept, us, h1, h2, h3, h4⟩ := ih b (keepImage c' { s with w := (env.auth s.w c').1 }) _ _ h
          refine ⟨c' :: kept, us, .refused (hm.1 rfl) hs (w1 := (env.auth s.w c').1) ?_ h1, by rw [h2]; simp [keepImage], h3, h4⟩
          cases hx : env.auth s.w c' with
          | mk w1 a => rw [hx] at hau; simp only [Bool.not_eq_true] at hau; rw [hau]

/-- The second part of a pass: every pending volume image meets its fate, exactly the ones not installed stay pending,
and progress is reported if a volume was installed. -/
theorem images_fate {env : Env W} {b b' : Bool} {s s' : St W} (h : imagePhase env b s = (.ok b', s')) :
    ∃ kept us, Fates env s.ctx.images s.w kept us s'.w ∧ s'.ctx = { s.ctx with images := kept } ∧
      s'.log = s.log ++ us.map .installed ∧ (b' = true ↔ b = true ∨ us ≠ []) := by
  obtain ⟨kept, us, h1, h2, h3, h4⟩ := imagesLoop_fates env _ _ _ _ _ h
  exact ⟨kept, us, h1, by rw [h2]; simp, h3, h4⟩

/-! ### Scheduling and trusting -/

theorem updateFirst_spec (p : Drv → Bool) (f : Drv → Drv) (l : List Drv) :
    ((∀ d ∈ l, p d = false) ∧ updateFirst p f l = (none, l)) ∨
    ∃ l1 d l2, l = l1 ++ d :: l2 ∧ p d = true ∧ (∀ x ∈ l1, p x = false) ∧
      updateFirst p f l = (some d.uid, l1 ++ f d :: l2) := by
  induction l with
  | nil => exact Or.inl ⟨by simp, rfl⟩
  | cons x l ih =>
    unfold updateFirst
    by_cases hx : p x = true
    · right
      rw [if_pos hx]
      exact ⟨[], x, l, rfl, hx, by simp, rfl⟩
    · rw [if_neg hx]
      have hx' : p x = false := by simpa using hx
      rcases ih with ⟨h1, h2⟩ | ⟨l1, d, l2, h1, h2, h3, h4⟩
      · left
        refine ⟨?_, by rw [h2]⟩
        intro d hd
        rcases List.mem_cons.1 hd with rfl | hd
        · exact hx'
        · exact h1 d hd
      · right
        refine ⟨x :: l1, d, l2, by rw [h1]; rfl, h2, ?_, by rw [h4]; rfl⟩
        intro y hy
        rcases List.mem_cons.1 hy with rfl | hy
        · exact hx'
        · exact h3 y hy

/-- The driver file `name` of volume `h` waits to be scheduled: its expression begins with SOR. -/
def Sor (h : Nat) (name : Guid) (d : Drv) : Prop :=
  d.fv = h ∧ d.name = name ∧ ∃ ops, d.depex = some (.sor :: ops)

theorem wantsSchedule_iff {h : Nat} {name : Guid} {d : Drv} : wantsSchedule h name d = true ↔ Sor h name d := by
  unfold wantsSchedule Sor
  rw [Bool.and_eq_true, Bool.and_eq_true, beq_iff_eq, beq_iff_eq, and_assoc]
  refine and_congr Iff.rfl (and_congr Iff.rfl ?_)
  cases d.depex with
  | none => simp
  | some ops =>
    cases ops with
    | nil => simp [Depex.isSor]
    | cons o ops => cases o <;> simp [Depex.isSor]

/-- `core_schedule` finds the first pending driver of that file that waits to be scheduled, and removes its SOR;
nothing else changes. -/
theorem schedule_effect (h : Nat) (name : Guid) (s : St W) :
    ((∀ d ∈ s.ctx.pending, ¬ Sor h name d) ∧ schedule h name s = (false, s)) ∨
    ∃ l1 d ops l2, s.ctx.pending = l1 ++ d :: l2 ∧ Sor h name d ∧ d.depex = some (.sor :: ops) ∧
      (∀ x ∈ l1, ¬ Sor h name x) ∧
      schedule h name s = (true, { s with
        ctx := { s.ctx with pending := l1 ++ { d with depex := some ops } :: l2 },
        log := s.log ++ [.requested d.uid] }) := by
  unfold schedule
  rcases updateFirst_spec (wantsSchedule h name) (fun d => { d with depex := d.depex.map Depex.schedule }) s.ctx.pending with
    ⟨h1, h2⟩ | ⟨l1, d, l2, h1, h2, h3, h4⟩
  · left
    refine ⟨?_, by rw [h2]; rfl⟩
    intro d hd hs
    exact absurd (h1 d hd) (by rw [wantsSchedule_iff.2 hs]; nofun)
  · right
    have hs := wantsSchedule_iff.1 h2
    obtain ⟨ops, ho⟩ := hs.2.2
    refine ⟨l1, d, ops, l2, h1, hs, ho, ?_, ?_⟩
    · intro x hx hxs
      have := h3 x hx
      rw [wantsSchedule_iff.2 hxs] at this
      cases this
    · rw [h4]
      simp [noteUpdate, ho, Depex.schedule, Depex.isSor]

/-- `core_trust` finds the first pending driver of that file and clears its security status; nothing else changes. -/
theorem trust_effect (h : Nat) (name : Guid) (s : St W) :
    ((∀ d ∈ s.ctx.pending, ¬ (d.fv = h ∧ d.name = name)) ∧ trust h name s = (false, s)) ∨
    ∃ l1 d l2, s.ctx.pending = l1 ++ d :: l2 ∧ d.fv = h ∧ d.name = name ∧
      (∀ x ∈ l1, ¬ (x.fv = h ∧ x.name = name)) ∧
      trust h name s = (true, { s with
        ctx := { s.ctx with pending := l1 ++ { d with sec := none } :: l2 }, log := s.log ++ [.trusted d.uid] }) := by
  unfold trust
  have hiff : ∀ d : Drv, (d.fv == h && d.name == name) = true ↔ d.fv = h ∧ d.name = name := by
    intro d; rw [Bool.and_eq_true, beq_iff_eq, beq_iff_eq]
  rcases updateFirst_spec (fun d => d.fv == h && d.name == name) (fun d => { d with sec := none }) s.ctx.pending with
    ⟨h1, h2⟩ | ⟨l1, d, l2, h1, h2, h3, h4⟩
  · left
    refine ⟨?_, by rw [h2]; rfl⟩
    intro d hd hs
    have := h1 d hd
    rw [(hiff d).2 hs] at this
    cases this
  · right
    have hs := (hiff d).1 h2
    refine ⟨l1, d, l2, h1, hs.1, hs.2, ?_, by rw [h4]; rfl⟩
    intro x hx hxs
    have := h3 x hx
    rw [(hiff x).2 hxs] at this
    cases this

/-! ### The result of `core_dispatcher` -/

theorem passes_result {env : Env W} {m : Nat} (k : Nat) : ∀ (b : Bool) (s s' : St W) (r : Outcome EfiError Bool),
    passes (pass env (entry env m)) k b s = some (r, s') →
    (r = .ok true ∧ (b = true ∨ ∃ new, s'.log = s.log ++ new ∧
      ((∃ u, .handled u .started ∈ new) ∨ ∃ u, .installed u ∈ new))) ∨
    (r = .err .notFound ∧ b = false ∧ pass env (entry env m) s = some (.ok false, s')) ∨
    r = .err .invalidParameter ∨ r = .panic := by
  induction k with
  | zero => intro b s s' r h; cases h
  | succ k ih =>
    intro b s s' r h
    simp only [passes] at h
    cases h1 : pass env (entry env m) s with
    | none => rw [h1] at h; cases h
    | some q =>
      obtain ⟨o, s1⟩ := q
      rw [h1] at h
      cases o with
      | ok v =>
        cases v with
        | true =>
          have hp := progress (env := env) (n := m + 1) (s := s) (s' := s1) h1
          obtain ⟨new, e1, e2⟩ := hp
          rcases ih _ _ _ _ h with ⟨h2, _⟩ | ⟨_, h2, _⟩ | h2
          · left
            refine ⟨h2, Or.inr ?_⟩
            obtain ⟨l, hl⟩ : ∃ l, s'.log = s1.log ++ l := by
              have := entry_grows env (m + 1)
              have hx : ∀ (k : Nat) (b : Bool) (s1 : St W), passes (pass env (entry env m)) k b s1 = some (r, s') →
                  ∃ l, s'.log = s1.log ++ l := by
                intro k
                induction k with
                | zero => intro b s1 h; cases h
                | succ k ih2 =>
                  intro b s1 h
                  simp only [passes] at h
                  cases hq : pass env (entry env m) s1 with
                  | none => rw [hq] at h; cases h
                  | some q =>
                    obtain ⟨o, s2⟩ := q
                    obtain ⟨l, hl⟩ := this true s1 _ _ hq
                    rw [hq] at h
                    cases o with
                    | ok v =>
                      cases v with
                      | true =>
                        obtain ⟨l', hl'⟩ := ih2 _ _ h
                        exact ⟨l ++ l', by rw [hl', hl]; simp⟩
                      | false => cases h; exact ⟨l, hl⟩
                    | err e => cases h; exact ⟨l, hl⟩
                    | panic => cases h; exact ⟨l, hl⟩
              exact hx _ _ _ h
            refine ⟨new ++ l, by rw [hl, e1]; simp, ?_⟩
            rcases e2 with ⟨u, hu⟩ | ⟨u, hu⟩
            · exact Or.inl ⟨u, List.mem_append_left _ hu⟩
            · exact Or.inr ⟨u, List.mem_append_left _ hu⟩
          · cases h2
          · exact Or.inr (Or.inr h2)
        | false =>
          simp only [Option.some.injEq, Prod.mk.injEq] at h
          obtain ⟨h2, h3⟩ := h
          subst h3
          cases b with
          | true => left; exact ⟨h2.symm, Or.inl rfl⟩
          | false => right; left; exact ⟨h2.symm, rfl, rfl⟩
      | err e =>
        cases h
        right; right; left
        rw [pass_err h1]
      | panic =>
        cases h
        right; right; right; rfl

/-- `core_dispatcher` reports success exactly when one of its passes made progress, so that a driver was started or a
volume installed, and `NotFound` exactly when the first pass already found nothing to do. -/
theorem dispatcher_result {env : Env W} {n : Nat} {s s' : St W} {r : Outcome EfiError Bool}
    (h : entry env (n + 1) false s = some (r, s')) :
    (r = .ok true ∧ ∃ new, s'.log = s.log ++ new ∧ ((∃ u, .handled u .started ∈ new) ∨ ∃ u, .installed u ∈ new)) ∨
    (r = .err .notFound ∧ entry env (n + 1) true s = some (.ok false, s')) ∨
    r = .err .invalidParameter ∨ r = .panic := by
  rcases passes_result _ _ _ _ _ h with ⟨h1, h2 | h2⟩ | ⟨h1, _, h2⟩ | h1
  · cases h2
  · exact Or.inl ⟨h1, h2⟩
  · exact Or.inr (Or.inl ⟨h1, h2⟩)
  · exact Or.inr (Or.inr h1)

end Verif.Dispatcher
