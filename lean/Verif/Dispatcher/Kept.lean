import Verif.Dispatcher.Fixpoint
import Verif.Depex.Props
/-!
No driver is lost, every driver of a volume is discovered, and a pass that reports progress made some.
-/
namespace Verif.Dispatcher
open Verif.Depex (Guid Opcode Expr)
variable {W α : Type}

/-! ### Discovery -/

/-- The driver files among the contents of a volume, in order. -/
def driversOf : List FileEntry → List (Guid × Option (List UInt8))
  | [] => []
  | .driver n dx _ :: fs => (n, dx) :: driversOf fs
  | _ :: fs => driversOf fs

/-- A newly found driver, as the log and the dispatcher know it. -/
def Fresh (h : Nat) (x : Guid × Option (List UInt8)) (e : Ev) (d : Drv) : Prop :=
  e = .found d.uid h x.1 x.2 ∧ d.fv = h ∧ d.name = x.1 ∧ d.depex = x.2.map Depex.parse ∧ d.image = none ∧
    d.sec ≠ none

/-- `Met`, for a driver just discovered: its dependency expression holds of the registered protocols. -/
theorem met_fresh {dbg : Bool} {p : List Guid} {arch : Bool} {d : Drv} {e : Expr} {pad : List UInt8}
    (h : d.depex = some (Depex.parse (e.section pad))) : Met dbg p arch d ↔ e.holds (fun g => g ∈ p) := by
  obtain ⟨b, hb, hv⟩ := Depex.eval_encoded dbg e pad p
  simp only [Met, h, hb]
  rw [← hv]
  simp

/-- `Names`, for a driver just discovered: its dependency section starts with opcode BEFORE (AFTER) and the
file name. -/
theorem names_fresh {b : Bool} {g : Guid} {d : Drv} {rest : List UInt8}
    (h : d.depex = some (Depex.parse ((if b then 0x00 else 0x01) :: (g.bytes ++ rest)))) : Names b g d := by
  cases b with
  | true => exact ⟨_, by rw [h]; simp only [if_true]; rw [Depex.parse_before]⟩
  | false => exact ⟨_, by rw [h]; simp only [Bool.false_eq_true, if_false]; rw [Depex.parse_after]⟩

theorem addFiles_spec (h : Nat) (fs : List FileEntry) : ∀ s : St W, (∀ f ∈ fs, f ≠ .bad) →
    ∃ es ds, (addFiles h fs s).1 = true ∧ (addFiles h fs s).2.log = s.log ++ es ∧
      (addFiles h fs s).2.ctx.pending = s.ctx.pending ++ ds ∧ es.length = (driversOf fs).length ∧
      ds.length = es.length ∧
      ∀ (i : Nat) (x), (driversOf fs)[i]? = some x → ∃ e d, es[i]? = some e ∧ ds[i]? = some d ∧ Fresh h x e d := by
  induction fs with
  | nil => intro s _; exact ⟨[], [], rfl, by simp [addFiles], by simp [addFiles], rfl, rfl, by simp [driversOf]⟩
  | cons f fs ih =>
    intro s hb
    have hb' : ∀ f ∈ fs, f ≠ .bad := fun x hx => hb x (.tail _ hx)
    cases f with
    | bad => exact absurd rfl (hb _ (.head _))
    | driver n dx rd =>
      obtain ⟨es, ds, h1, h2, h3, h4, h5, h6⟩ := ih (addFile h (.driver n dx rd) s) hb'
      refine ⟨.found s.ctx.next h n dx :: es, newDriver s.ctx.next h n dx rd :: ds, h1, ?_, ?_, by simp [driversOf, h4],
        by simp [h5], ?_⟩
      · simp only [addFiles, h2]; simp [addFile]
      · simp only [addFiles, h3]; simp [addFile]
      · intro i x hx
        cases i with
        | zero =>
          simp only [driversOf, List.getElem?_cons_zero, Option.some.injEq] at hx
          subst hx
          exact ⟨_, _, rfl, rfl, rfl, rfl, rfl, rfl, rfl, by simp [newDriver]⟩
        | succ i => exact h6 i x (by simpa [driversOf] using hx)
    | image n dx secs =>
      obtain ⟨es, ds, h1, h2, h3, h4, h5, h6⟩ := ih (addFile h (.image n dx secs) s) hb'
      have e1 : (addFile h (.image n dx secs) s).log = s.log := by simp only [addFile]; split <;> rfl
      have e2 : (addFile h (.image n dx secs) s).ctx.pending = s.ctx.pending := by simp only [addFile]; split <;> rfl
      exact ⟨es, ds, h1, by rw [← e1]; exact h2, by rw [← e2]; exact h3, h4, h5, h6⟩
    | other => exact ih s hb'

/-- Announcing a new, readable volume: it is searched, and exactly its driver files are found, in order, and
wait in the dispatcher. -/
theorem volume_discovered {s : St W} {h : Nat} {fs : List FileEntry} (hn : h ∉ s.ctx.processed)
    (hb : ∀ f ∈ fs, f ≠ .bad) :
    ∃ es ds, (addFvs [(h, some fs)] s).1 = true ∧ (addFvs [(h, some fs)] s).2.log = s.log ++ .scanned h :: es ∧
      (addFvs [(h, some fs)] s).2.ctx.pending = s.ctx.pending ++ ds ∧ es.length = (driversOf fs).length ∧
      ds.length = es.length ∧
      ∀ (i : Nat) (x), (driversOf fs)[i]? = some x → ∃ e d, es[i]? = some e ∧ ds[i]? = some d ∧ Fresh h x e d := by
  obtain ⟨es, ds, h1, h2, h3, h4⟩ := addFiles_spec h fs (markProcessed h s) hb
  have e : addFvs [(h, some fs)] s = addFiles h fs (markProcessed h s) := by
    simp only [addFvs, addFv, if_neg hn]
    revert h1
    generalize addFiles h fs (markProcessed h s) = q
    obtain ⟨b, s'⟩ := q
    intro h1
    simp only [] at h1
    subst h1
    rfl
  rw [e]
  refine ⟨es, ds, h1, ?_, h3, h4⟩
  rw [h2]
  simp [markProcessed]

/-- A volume that was announced before is left alone. -/
theorem volume_known {s : St W} {h : Nat} {fs : Option (List FileEntry)} (hn : h ∈ s.ctx.processed) :
    addFvs [(h, fs)] s = (true, s) := by
  simp [addFvs, addFv, hn]

/-! ### Progress -/

theorem handle_true {env : Env W} {api : Bool → St W → Res W Bool} (ha : ∀ one, Grows (api one)) {d : Drv}
    {s s' : St W} (h : handle env api d s = some (.ok true, s')) :
    ∃ l, s'.log = s.log ++ l ∧ .handled d.uid .started ∈ l := by
  have hs : ∀ d h s, settle env api d h s = some (.ok true, s') →
      ∃ l, s'.log = s.log ++ l ∧ .handled d.uid .started ∈ l := by
    intro d h s e
    unfold settle at e
    split at e
    · cases hr : run api (env.start s.w h) (s.note (.handled d.uid .started)) with
      | none => rw [hr] at e; cases e
      | some q =>
        obtain ⟨o, s1⟩ := q
        obtain ⟨l, hl⟩ := run_grows env ha _ _ _ _ hr
        rw [hr] at e
        cases o <;> cases e
        exact ⟨_, by rw [hl]; simp [St.note]; rfl, .head _⟩
    · cases hr : run api (env.tick s.w) (putBack d s) with
      | none => rw [hr] at e; cases e
      | some q => obtain ⟨o, s1⟩ := q; rw [hr] at e; cases o <;> cases e
    · cases e
  unfold handle at h
  split at h
  · exact hs _ _ _ h
  · split at h
    · cases hr : run api (env.load s.w d) s with
      | none => rw [hr] at h; cases h
      | some q =>
        obtain ⟨o, s1⟩ := q
        obtain ⟨l, hl⟩ := run_grows env ha _ _ _ _ hr
        rw [hr] at h
        cases o with
        | err e => cases h
        | panic => cases h
        | ok x =>
          cases x with
          | none => cases h
          | some q =>
            obtain ⟨l', hl', hm⟩ := hs _ _ _ h
            exact ⟨l ++ [.loaded d.uid q.2] ++ l', by rw [hl']; simp [St.note, hl], by simp [withImage] at hm; simp [hm]⟩
    · cases h

theorem handle_grows {env : Env W} {api : Bool → St W → Res W Bool} (ha : ∀ one, Grows (api one)) (d : Drv) :
    Grows (handle env api d) := by
  intro s r s' h
  have := (extends_closed env s.log).handle (fun one => ?_) d [] s r s' ⟨[], by simp⟩ h
  · exact this
  · intro F s1 r1 s1' ⟨l, hl⟩ h1
    obtain ⟨l', hl'⟩ := ha one _ _ _ h1
    exact ⟨l ++ l', by rw [hl', hl]; simp⟩

theorem handleAll_true {env : Env W} {api : Bool → St W → Res W Bool} (ha : ∀ one, Grows (api one)) (ds : List Drv) :
    ∀ (b : Bool) (s s' : St W), handleAll env api ds b s = some (.ok true, s') →
    ∃ l, s'.log = s.log ++ l ∧ (b = true ∨ ∃ u, .handled u .started ∈ l) := by
  induction ds with
  | nil => intro b s s' h; cases h; exact ⟨[], by simp, .inl rfl⟩
  | cons d ds ih =>
    intro b s s' h
    simp only [handleAll] at h
    cases h1 : handle env api d s with
    | none => rw [h1] at h; cases h
    | some q =>
      obtain ⟨o, s1⟩ := q
      rw [h1] at h
      cases o with
      | err x => cases h
      | panic => cases h
      | ok a =>
        obtain ⟨l, hl, hb⟩ := ih _ _ _ h
        obtain ⟨l0, hl0⟩ := handle_grows ha d _ _ _ h1
        rcases hb with hb | ⟨u, hu⟩
        · simp only [Bool.or_eq_true] at hb
          rcases hb with rfl | rfl
          · exact ⟨l0 ++ l, by rw [hl, hl0]; simp, .inl rfl⟩
          · obtain ⟨l1, hl1, hm⟩ := handle_true ha h1
            exact ⟨l1 ++ l, by rw [hl, hl1]; simp, .inr ⟨d.uid, by simp [hm]⟩⟩
        · exact ⟨l0 ++ l, by rw [hl, hl0]; simp, .inr ⟨u, by simp [hu]⟩⟩

theorem installAll_true (env : Env W) (c : FvImg) (l : List Bool) :
    ∀ (i : Nat) (b : Bool) (s : St W) (b' : Bool) (s' : St W), installAll env c l i b s = (.ok b', s') →
    ∃ new, s'.log = s.log ++ new ∧ (b' = true → b = true ∨ .installed c.uid ∈ new) := by
  induction l with
  | nil => intro i b s b' s' h; cases h; exact ⟨[], by simp, .inl⟩
  | cons x l ih =>
    intro i b s b' s' h
    simp only [installAll] at h
    split at h
    · obtain ⟨new, hl, hb⟩ := ih _ _ _ _ _ h
      cases hr : (env.install s.w c i).2 with
      | false =>
        simp only [hr, Bool.or_false, Bool.false_eq_true, if_false] at hl hb
        exact ⟨new, hl, hb⟩
      | true =>
        simp only [hr, if_true] at hl
        exact ⟨.installed c.uid :: new, by rw [hl]; simp, fun _ => .inr (.head _)⟩
    · cases h

theorem imagesLoop_true (env : Env W) (l : List FvImg) :
    ∀ (b : Bool) (s : St W) (b' : Bool) (s' : St W), imagesLoop env l b s = (.ok b', s') →
    ∃ new, s'.log = s.log ++ new ∧ (b' = true → b = true ∨ ∃ u, .installed u ∈ new) := by
  induction l with
  | nil => intro b s b' s' h; cases h; exact ⟨[], by simp, .inl⟩
  | cons c l ih =>
    intro b s b' s' h
    simp only [imagesLoop] at h
    cases hj : judgeImage env.dbg (env.protos s.w) c with
    | err e => rw [hj] at h; cases h
    | panic => rw [hj] at h; cases h
    | ok q =>
      obtain ⟨v, c'⟩ := q
      rw [hj] at h
      cases v with
      | false => exact ih b (keepImage c' s) _ _ h
      | true =>
        simp only [] at h
        split at h
        · cases hi : installAll env c' c'.sections 0 b { s with w := (env.auth s.w c').1 } with
          | mk o s1 =>
            rw [hi] at h
            cases o with
            | err x => cases h
            | panic => cases h
            | ok b1 =>
              obtain ⟨n1, h1, h2⟩ := installAll_true _ _ _ _ _ _ _ _ hi
              obtain ⟨n2, h3, h4⟩ := ih _ _ _ _ h
              refine ⟨n1 ++ n2, by rw [h3, h1]; simp, ?_⟩
              intro hb
              rcases h4 hb with h | ⟨u, h⟩
              · rcases h2 h with h | h
                · exact .inl h
                · exact .inr ⟨_, List.mem_append_left _ h⟩
              · exact .inr ⟨u, by simp [h]⟩
        · exact ih b (keepImage c' { s with w := (env.auth s.w c').1 }) _ _ h

/-- A pass that reports progress started a driver or installed a volume. -/
theorem progress {env : Env W} {n : Nat} {s s' : St W} (h : entry env n true s = some (.ok true, s')) :
    ∃ new, s'.log = s.log ++ new ∧ ((∃ u, .handled u .started ∈ new) ∨ ∃ u, .installed u ∈ new) := by
  cases n with
  | zero => cases h
  | succ n =>
    simp only [entry, pass] at h
    cases hp : plan env.dbg (env.protos s.w) s with
    | err e => rw [hp] at h; cases h
    | panic => rw [hp] at h; cases h
    | ok q =>
      obtain ⟨ds, s1⟩ := q
      rw [hp] at h
      obtain ⟨_, _, _, l1, hl1, _⟩ := plan_pending hp
      simp only [perform] at h
      cases ht : run (entry env n) (env.tick s1.w) s1 with
      | none => rw [ht] at h; cases h
      | some q =>
        obtain ⟨o, s2⟩ := q
        obtain ⟨l2, hl2⟩ := run_grows env (entry_grows env n) _ _ _ _ ht
        rw [ht] at h
        cases o with
        | err x => cases h
        | panic => cases h
        | ok x =>
          simp only [] at h
          cases hh : handleAll env (entry env n) ds false s2 with
          | none => rw [hh] at h; cases h
          | some q =>
            obtain ⟨o, s3⟩ := q
            rw [hh] at h
            cases o with
            | err x => cases h
            | panic => cases h
            | ok b1 =>
              have h3 : ∃ l3, s3.log = s2.log ++ l3 ∧ (b1 = true → ∃ u, .handled u .started ∈ l3) := by
                cases b1 with
                | true =>
                  obtain ⟨l, hl, hb⟩ := handleAll_true (entry_grows env n) _ _ _ _ hh
                  exact ⟨l, hl, fun _ => hb.resolve_left (by simp)⟩
                | false =>
                  obtain ⟨l, hl⟩ := (extends_closed env s2.log).handleAll
                    (fun one => (extends_closed env s2.log).entry n one) ds [] false s2 _ _ ⟨[], by simp⟩ hh
                  exact ⟨l, hl, fun h => by cases h⟩
              obtain ⟨l3, hl3, hb3⟩ := h3
              simp only [finish, imagePhase] at h
              cases hi : imagesLoop env s3.ctx.images b1 { s3 with ctx := { s3.ctx with images := [] } } with
              | mk o s4 =>
                rw [hi] at h
                cases o with
                | err x => cases h
                | panic => cases h
                | ok b2 =>
                  obtain ⟨l4, hl4, hb4⟩ := imagesLoop_true _ _ _ _ _ _ hi
                  simp only [] at h hl4
                  cases ht2 : run (entry env n) (env.tick s4.w) s4 with
                  | none => rw [ht2] at h; cases h
                  | some q =>
                    obtain ⟨o, s5⟩ := q
                    obtain ⟨l5, hl5⟩ := run_grows env (entry_grows env n) _ _ _ _ ht2
                    rw [ht2] at h
                    cases o <;> cases h
                    refine ⟨l1 ++ l2 ++ l3 ++ l4 ++ l5, by rw [hl5, hl4, hl3, hl2, hl1]; simp, ?_⟩
                    rcases hb4 rfl with h | ⟨u, h⟩
                    · obtain ⟨u, hu⟩ := hb3 h
                      exact .inl ⟨u, by simp [hu]⟩
                    · exact .inr ⟨u, by simp [h]⟩

/-! ### Conservation -/

/-- The code does not call the dispatcher's two entry points. -/
def Code.Flat : Code W α → Prop
  | .ret _ _ => True
  | .volumes _ k => k.Flat
  | .schedule _ _ k => ∀ b, (k b).Flat
  | .trust _ _ k => ∀ b, (k b).Flat
  | .dispatch _ _ _ => False

/-- Outside code announces volumes, schedules and trusts drivers, but does not call the dispatcher. -/
structure FlatEnv (env : Env W) : Prop where
  load : ∀ w d, (env.load w d).Flat
  start : ∀ w h, (env.start w h).Flat
  tick : ∀ w, (env.tick w).Flat

/-- Driver `u` waits or is in flight, or was dealt with since `l0`. -/
def Held (l0 : List Ev) (u : Nat) (F : List Drv) (s : St W) : Prop :=
  ∃ new, s.log = l0 ++ new ∧ (0 < cnt u s.ctx.known + cnt u F ∨ ∃ v, v ≠ .deferred ∧ .handled u v ∈ new)

theorem Held.grow {l0 : List Ev} {u : Nat} {F G : List Drv} {s s' : St W} {l : List Ev} (h : Held l0 u F s)
    (hl : s'.log = s.log ++ l)
    (hc : cnt u s.ctx.known + cnt u F ≤ cnt u s'.ctx.known + cnt u G ∨ ∃ v, v ≠ .deferred ∧ .handled u v ∈ l) :
    Held l0 u G s' := by
  obtain ⟨new, hn, h⟩ := h
  refine ⟨new ++ l, by rw [hl, hn]; simp, ?_⟩
  rcases hc with hc | ⟨v, hv, hm⟩
  · rcases h with h | ⟨v, hv, hm⟩
    · exact .inl (by omega)
    · exact .inr ⟨v, hv, by simp [hm]⟩
  · exact .inr ⟨v, hv, by simp [hm]⟩

theorem Held.file {l0 : List Ev} {u : Nat} {F : List Drv} {s : St W} (h : Held l0 u F s) (hd : Nat) (f : FileEntry) :
    Held l0 u F (addFile hd f s) := by
  cases f with
  | driver n dx rd =>
    refine h.grow rfl (.inl ?_)
    simp only [addFile, Ctx.known, cnt_append]
    omega
  | image n dx secs =>
    simp only [addFile]
    split
    · exact h
    · exact h
  | _ => exact h

theorem Held.files {l0 : List Ev} {u : Nat} {F : List Drv} (hd : Nat) (fs : List FileEntry) :
    ∀ s : St W, Held l0 u F s → Held l0 u F (addFiles hd fs s).2 := by
  induction fs with
  | nil => intro s h; exact h
  | cons f fs ih =>
    intro s h
    cases f with
    | bad => exact h
    | _ => exact ih _ (h.file hd _)

theorem Held.fvs {l0 : List Ev} {u : Nat} {F : List Drv} (l : List (Nat × Option (List FileEntry))) :
    ∀ s : St W, Held l0 u F s → Held l0 u F (addFvs l s).2 := by
  induction l with
  | nil => intro s h; exact h
  | cons q l ih =>
    obtain ⟨hd, fs⟩ := q
    intro s h
    have h1 : Held l0 u F (addFv hd fs s).2 := by
      have hm : Held l0 u F (markProcessed hd s) := h.grow (l := [.scanned hd]) rfl (.inl (Nat.le_refl _))
      unfold addFv
      split
      · exact h
      · cases fs with
        | none => exact hm
        | some fs => exact Held.files hd fs _ hm
    simp only [addFvs]
    revert h1
    generalize addFv hd fs s = r
    obtain ⟨b, s'⟩ := r
    intro h1
    cases b
    · exact h1
    · exact ih _ h1

theorem updateFirst_cnt (u : Nat) (p : Drv → Bool) (f : Drv → Drv) (hf : ∀ d, (f d).uid = d.uid) (l : List Drv) :
    cnt u (updateFirst p f l).2 = cnt u l := by
  induction l with
  | nil => rfl
  | cons d l ih =>
    simp only [updateFirst]
    split
    · simp [cnt_cons, hf]
    · simp [cnt_cons, ih]

theorem Held.update {l0 : List Ev} {u : Nat} {F : List Drv} {s : St W} (h : Held l0 u F s) (ev : Nat → Ev)
    (p : Drv → Bool) (f : Drv → Drv) (hf : ∀ d, (f d).uid = d.uid) :
    Held l0 u F (noteUpdate ev s (updateFirst p f s.ctx.pending)).2 := by
  have := updateFirst_cnt u p f hf s.ctx.pending
  revert this
  generalize updateFirst p f s.ctx.pending = r
  obtain ⟨o, l⟩ := r
  intro e
  cases o with
  | none => exact h
  | some x =>
    refine h.grow (l := [ev x]) rfl (.inl ?_)
    simp only [noteUpdate, Ctx.known, cnt_append] at e ⊢
    omega

theorem Held.run {l0 : List Ev} {u : Nat} {F : List Drv} {api : Bool → St W → Res W Bool} (c : Code W α) :
    c.Flat → ∀ (s : St W) (r : Outcome EfiError α) (s' : St W), Held l0 u F s → run api c s = some (r, s') →
    Held l0 u F s' := by
  induction c with
  | ret w a => intro _ s r s' h e; cases e; exact h
  | volumes fvs k ih =>
    intro hf s r s' h e
    have h1 := Held.fvs fvs s h
    simp only [Dispatcher.run] at e
    revert e h1
    generalize addFvs fvs s = q
    obtain ⟨b, s1⟩ := q
    intro e h1
    cases b
    · cases e; exact h1
    · exact ih hf _ _ _ h1 e
  | schedule fv name k ih => intro hf s r s' h e; exact ih _ (hf _) (schedule fv name s).2 _ _ (h.update _ _ _ (fun d => rfl)) e
  | trust fv name k ih => intro hf s r s' h e; exact ih _ (hf _) (trust fv name s).2 _ _ (h.update _ _ _ (fun d => rfl)) e
  | dispatch one w k ih => intro hf; exact absurd hf (by simp [Code.Flat])

theorem sift_cnt {dbg : Bool} {p : List Guid} (u : Nat) (ds : List Drv) : ∀ (s : St W) (es : List Drv) (s' : St W),
    sift dbg p ds s = .ok (es, s') → cnt u s'.ctx.known + cnt u es = cnt u s.ctx.known + cnt u ds := by
  induction ds with
  | nil => intro s es s' h; cases h; rfl
  | cons d ds ih =>
    intro s es s' h
    simp only [sift] at h
    cases hj : judge dbg p s.ctx.arch d with
    | err e => rw [hj] at h; cases h
    | panic => rw [hj] at h; cases h
    | ok r =>
      obtain ⟨v, d'⟩ := r
      rw [hj] at h
      have hu := (judge_same hj).1
      cases v with
      | true =>
        simp only [] at h
        cases hs : sift dbg p ds (s.note (.judged d.uid p true)) with
        | err e => rw [hs] at h; cases h
        | panic => rw [hs] at h; cases h
        | ok r =>
          obtain ⟨es1, s1⟩ := r
          rw [hs] at h
          cases h
          have := ih _ _ _ hs
          simp only [cnt_cons, hu, St.note] at this ⊢
          omega
      | false =>
        have := ih _ _ _ h
        have e : cnt u (shelve d' s.ctx).known = cnt u s.ctx.known + if d.uid = u then 1 else 0 := by
          unfold shelve
          split <;> simp [Ctx.known, cnt_cons, hu] <;> omega
        simp only [cnt_cons, e] at this ⊢
        omega

theorem Held.settle {env : Env W} (hf : FlatEnv env) {l0 : List Ev} {u : Nat} {F : List Drv}
    {api : Bool → St W → Res W Bool} {d : Drv} {h : Nat} {s s' : St W} {b : Bool} (hh : Held l0 u (d :: F) s)
    (e : settle env api d h s = some (.ok b, s')) : Held l0 u F s' := by
  have done : ∀ v, v ≠ .deferred → Held l0 u F (s.note (.handled d.uid v)) := by
    intro v hv
    refine hh.grow (l := [.handled d.uid v]) rfl ?_
    by_cases hu : d.uid = u
    · exact .inr ⟨v, hv, by simp [hu]⟩
    · exact .inl (by simp [cnt_cons, hu, St.note])
  have as : ∀ (c : Code W Unit) (b0 : Bool) (s0 : St W), c.Flat → Held l0 u F s0 →
      Res.as b0 (Dispatcher.run api c s0) = some (.ok b, s') → Held l0 u F s' := by
    intro c b0 s0 hc h0 e
    cases hr : Dispatcher.run api c s0 with
    | none => rw [hr] at e; cases e
    | some q =>
      obtain ⟨o, s1⟩ := q
      have := Held.run c hc _ _ _ h0 hr
      rw [hr] at e
      cases o <;> cases e
      exact this
  unfold Dispatcher.settle at e
  split at e
  · exact as _ _ _ (hf.start _ _) (done _ (by simp)) e
  · refine as _ _ _ (hf.tick _) ?_ e
    refine hh.grow (l := [.handled d.uid .deferred]) rfl (.inl ?_)
    simp only [putBack, Ctx.known, cnt_append, cnt_cons, cnt_nil]
    omega
  · cases e; exact done _ (by simp)

theorem Held.handle {env : Env W} (hf : FlatEnv env) {l0 : List Ev} {u : Nat} {F : List Drv}
    {api : Bool → St W → Res W Bool} {d : Drv} {s s' : St W} {b : Bool} (hh : Held l0 u (d :: F) s)
    (e : handle env api d s = some (.ok b, s')) : Held l0 u F s' := by
  unfold Dispatcher.handle at e
  split at e
  · exact hh.settle hf e
  · split at e
    · cases hr : Dispatcher.run api (env.load s.w d) s with
      | none => rw [hr] at e; cases e
      | some q =>
        obtain ⟨o, s1⟩ := q
        have h1 := Held.run _ (hf.load _ _) _ _ _ hh hr
        rw [hr] at e
        cases o with
        | err x => cases e
        | panic => cases e
        | ok x =>
          cases x with
          | none =>
            cases e
            refine h1.grow (l := [.handled d.uid .failed]) rfl ?_
            by_cases hu : d.uid = u
            · exact .inr ⟨.failed, by simp, by simp [hu]⟩
            · exact .inl (by simp [cnt_cons, hu, St.note])
          | some q =>
            have h2 : Held l0 u (withImage d q.1 q.2 :: F) (s1.note (.loaded d.uid q.2)) :=
              h1.grow (l := [.loaded d.uid q.2]) rfl (.inl (by simp [cnt_cons, withImage, St.note]))
            exact h2.settle hf e
    · cases e

theorem Held.handleAll {env : Env W} (hf : FlatEnv env) {l0 : List Ev} {u : Nat} {api : Bool → St W → Res W Bool}
    (ds : List Drv) : ∀ (b : Bool) (s s' : St W) (b' : Bool), Held l0 u ds s →
    handleAll env api ds b s = some (.ok b', s') → Held l0 u [] s' := by
  induction ds with
  | nil => intro b s s' b' h e; cases e; exact h
  | cons d ds ih =>
    intro b s s' b' h e
    simp only [Dispatcher.handleAll] at e
    cases h1 : Dispatcher.handle env api d s with
    | none => rw [h1] at e; cases e
    | some q =>
      obtain ⟨o, s1⟩ := q
      rw [h1] at e
      cases o with
      | err x => cases e
      | panic => cases e
      | ok a => exact ih _ _ _ _ (h.handle hf h1) e

theorem imagesLoop_ctx (env : Env W) (l : List FvImg) : ∀ (b : Bool) (s : St W),
    (imagesLoop env l b s).2.ctx.known = s.ctx.known := by
  have inst : ∀ (c : FvImg) (l : List Bool) (i : Nat) (b : Bool) (s : St W),
      (installAll env c l i b s).2.ctx = s.ctx := by
    intro c l
    induction l with
    | nil => intro i b s; rfl
    | cons x l ih => intro i b s; simp only [installAll]; split <;> simp [ih]
  induction l with
  | nil => intro b s; rfl
  | cons c l ih =>
    intro b s
    simp only [imagesLoop]
    cases hj : judgeImage env.dbg (env.protos s.w) c with
    | err e => rfl
    | panic => rfl
    | ok q =>
      obtain ⟨v, c'⟩ := q
      cases v with
      | false => exact ih _ _
      | true =>
        simp only []
        split
        · have := inst c' c'.sections 0 b { s with w := (env.auth s.w c').1 }
          revert this
          generalize installAll env c' c'.sections 0 b { s with w := (env.auth s.w c').1 } = q
          obtain ⟨o, s1⟩ := q
          intro e
          simp only [] at e
          cases o with
          | ok b1 => simp only []; rw [ih, e]
          | err x => simp only []; rw [e]
          | panic => simp only []; rw [e]
        · exact ih _ _

theorem pass_held {env : Env W} (hf : FlatEnv env) {l0 : List Ev} {u n : Nat} {s s' : St W} {b : Bool}
    (h : entry env n true s = some (.ok b, s')) (hh : Held l0 u [] s) : Held l0 u [] s' := by
  cases n with
  | zero => cases h
  | succ n =>
    simp only [entry, pass] at h
    cases hp : plan env.dbg (env.protos s.w) s with
    | err e => rw [hp] at h; cases h
    | panic => rw [hp] at h; cases h
    | ok q =>
      obtain ⟨ds, s1⟩ := q
      rw [hp] at h
      obtain ⟨_, _, _, l1, hl1, _⟩ := plan_pending hp
      have h1 : Held l0 u ds s1 := by
        refine hh.grow hl1 (.inl ?_)
        unfold plan at hp
        cases hc : latchArch env.dbg (env.protos s.w) s.ctx with
        | err e => rw [hc] at hp; cases hp
        | panic => rw [hc] at hp; cases hp
        | ok c =>
          rw [hc] at hp
          obtain ⟨_, e1, e2, e3, _⟩ := latch_arch hc
          simp only [] at hp
          cases hs : sift env.dbg (env.protos s.w) c.pending
              { s with ctx := { c with pending := [] }, log := s.log ++ [.pass (env.protos s.w)] } with
          | err e => rw [hs] at hp; cases hp
          | panic => rw [hs] at hp; cases hp
          | ok r =>
            obtain ⟨es, s2⟩ := r
            rw [hs] at hp
            cases hp
            have c1 := sift_cnt u _ _ _ _ hs
            have c2 := (expand_spec es s2.ctx).1 u
            simp only [Ctx.known, cnt_append, cnt_nil, e1, e2, e3] at c1 c2 ⊢
            omega
      simp only [perform] at h
      cases ht : run (entry env n) (env.tick s1.w) s1 with
      | none => rw [ht] at h; cases h
      | some q =>
        obtain ⟨o, s2⟩ := q
        have h2 := Held.run _ (hf.tick _) _ _ _ h1 ht
        rw [ht] at h
        cases o with
        | err x => cases h
        | panic => cases h
        | ok x =>
          simp only [] at h
          cases hh2 : handleAll env (entry env n) ds false s2 with
          | none => rw [hh2] at h; cases h
          | some q =>
            obtain ⟨o, s3⟩ := q
            rw [hh2] at h
            cases o with
            | err x => cases h
            | panic => cases h
            | ok b1 =>
              have h3 := Held.handleAll hf _ _ _ _ _ h2 hh2
              simp only [finish, imagePhase] at h
              cases hi : imagesLoop env s3.ctx.images b1 { s3 with ctx := { s3.ctx with images := [] } } with
              | mk o s4 =>
                have hk := imagesLoop_ctx env s3.ctx.images b1 { s3 with ctx := { s3.ctx with images := [] } }
                rw [hi] at h hk
                cases o with
                | err x => cases h
                | panic => cases h
                | ok b2 =>
                  obtain ⟨l4, hl4, _⟩ := imagesLoop_true _ _ _ _ _ _ hi
                  have h4 : Held l0 u [] s4 := h3.grow hl4 (.inl (by rw [hk]; exact Nat.le_refl _))
                  simp only [] at h
                  cases ht2 : run (entry env n) (env.tick s4.w) s4 with
                  | none => rw [ht2] at h; cases h
                  | some q =>
                    obtain ⟨o, s5⟩ := q
                    have := Held.run _ (hf.tick _) _ _ _ h4 ht2
                    rw [ht2] at h
                    cases o <;> cases h
                    exact this

theorem held_start {l0 : List Ev} {s : St W} {d : Drv} (hl : s.log = l0) (hd : d ∈ s.ctx.known) :
    Held l0 d.uid [] s :=
  ⟨[], by simp [hl], .inl (Nat.lt_of_lt_of_le (cnt_pos hd rfl) (Nat.le_add_right _ _))⟩

theorem Held.out {l0 : List Ev} {u : Nat} {s : St W} (h : Held l0 u [] s) :
    ∃ new, s.log = l0 ++ new ∧ ((∃ d ∈ s.ctx.known, d.uid = u) ∨ ∃ v, v ≠ .deferred ∧ .handled u v ∈ new) := by
  obtain ⟨new, hl, h | h⟩ := h
  · refine ⟨new, hl, .inl ?_⟩
    rw [cnt_nil, Nat.add_zero] at h
    simpa [cnt, List.countP_pos_iff] using h
  · exact ⟨new, hl, .inr h⟩

/-- A pass that does not fail loses no driver: one that waited before still waits, or was started, or was
dropped because its image could not be loaded or drew an objection. -/
theorem pass_loses_nothing {env : Env W} (hf : FlatEnv env) {n : Nat} {s s' : St W} {b : Bool}
    (h : entry env n true s = some (.ok b, s')) {d : Drv} (hd : d ∈ s.ctx.known) :
    ∃ new, s'.log = s.log ++ new ∧
      ((∃ d' ∈ s'.ctx.known, d'.uid = d.uid) ∨ ∃ v, v ≠ .deferred ∧ .handled d.uid v ∈ new) :=
  (pass_held hf h (held_start rfl hd)).out

/-- Nor does `core_dispatcher`. -/
theorem dispatcher_loses_nothing {env : Env W} (hf : FlatEnv env) {n : Nat} {s s' : St W}
    {r : Outcome EfiError Bool} (h : entry env n false s = some (r, s')) (hr : r = .ok true ∨ r = .err .notFound)
    {d : Drv} (hd : d ∈ s.ctx.known) :
    ∃ new, s'.log = s.log ++ new ∧
      ((∃ d' ∈ s'.ctx.known, d'.uid = d.uid) ∨ ∃ v, v ≠ .deferred ∧ .handled d.uid v ∈ new) := by
  cases n with
  | zero => cases h
  | succ n =>
    have key : ∀ (k : Nat) (b : Bool) (s1 : St W), Held s.log d.uid [] s1 →
        passes (pass env (entry env n)) k b s1 = some (r, s') → Held s.log d.uid [] s' := by
      intro k
      induction k with
      | zero => intro b s1 _ h; cases h
      | succ k ih =>
        intro b s1 hh h
        simp only [passes] at h
        cases h1 : pass env (entry env n) s1 with
        | none => rw [h1] at h; cases h
        | some q =>
          obtain ⟨o, s2⟩ := q
          rw [h1] at h
          cases o with
          | ok v =>
            have h2 := pass_held (n := n + 1) hf h1 hh
            cases v with
            | true => exact ih _ _ h2 h
            | false => cases h; exact h2
          | err e =>
            have := pass_err h1
            cases h
            rcases hr with h | h
            · cases h
            · injection h with h; rw [this] at h; cases h
          | panic => cases h; rcases hr with h | h <;> cases h
    exact (key n false s (held_start rfl hd) h).out

end Verif.Dispatcher
