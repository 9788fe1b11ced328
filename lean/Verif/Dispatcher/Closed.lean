import Verif.Dispatcher.Model
/-!
An assertion about the state and the drivers in flight (taken from the context by passes that have not
finished, innermost first) that survives every elementary action of the dispatcher survives every call,
however deeply nested.
-/
namespace Verif.Dispatcher
open Verif.Depex (Guid Opcode)
variable {W α : Type}

/-- `I F s` survives the elementary actions. -/
structure Closed (env : Env W) (I : List Drv → St W → Prop) : Prop where
  world : ∀ F s w, I F s → I F { s with w := w }
  file : ∀ F s h f, I F s → I F (addFile h f s)
  mark : ∀ F s h, I F s → h ∉ s.ctx.processed → I F (markProcessed h s)
  schedule : ∀ F s h f, I F s → I F (schedule h f s).2
  trust : ∀ F s h f, I F s → I F (trust h f s).2
  plan : ∀ F s ds s', I F s → plan env.dbg (env.protos s.w) s = .ok (ds, s') → I (ds ++ F) s'
  loaded : ∀ F s d h sec, I (d :: F) s → d.image = none →
    I (withImage d h sec :: F) (s.note (.loaded d.uid sec))
  started : ∀ F s d h, I (d :: F) s → d.image = some h → d.sec = none →
    I F (s.note (.handled d.uid .started))
  dropped : ∀ F s d v, I (d :: F) s → v = .failed ∨ v = .refused → I F (s.note (.handled d.uid v))
  deferred : ∀ F s d h, I (d :: F) s → d.image = some h → d.sec = some .securityViolation →
    I F (putBack d s)
  lost : ∀ F s d, I (d :: F) s → I F s
  images : ∀ F s l, I F s → I F { s with ctx := { s.ctx with images := l } }
  installed : ∀ F s u, I F s → I F (s.note (.installed u))

/-- Calls preserve the assertion, whatever is in flight. -/
def Keeps (I : List Drv → St W → Prop) (f : St W → Res W α) : Prop :=
  ∀ F s r s', I F s → f s = some (r, s') → I F s'

variable {env : Env W} {I : List Drv → St W → Prop}

theorem Closed.files (c : Closed env I) (h : Nat) (fs : List FileEntry) :
    ∀ F s, I F s → I F (addFiles h fs s).2 := by
  induction fs with
  | nil => intro F s hs; exact hs
  | cons f fs ih =>
    intro F s hs
    cases f with
    | bad => exact hs
    | driver _ _ _ => exact ih _ _ (c.file _ _ _ _ hs)
    | image _ _ _ => exact ih _ _ (c.file _ _ _ _ hs)
    | other => exact ih _ _ (c.file _ _ _ _ hs)

theorem Closed.fv (c : Closed env I) (h : Nat) (fs : Option (List FileEntry)) :
    ∀ F s, I F s → I F (addFv h fs s).2 := by
  intro F s hs
  unfold addFv
  split
  · exact hs
  · rename_i hn
    cases fs with
    | none => exact c.mark _ _ _ hs hn
    | some fs => exact c.files _ _ _ _ (c.mark _ _ _ hs hn)

theorem Closed.fvs (c : Closed env I) (fvs : List (Nat × Option (List FileEntry))) :
    ∀ F s, I F s → I F (addFvs fvs s).2 := by
  induction fvs with
  | nil => intro F s hs; exact hs
  | cons p fvs ih =>
    obtain ⟨h, fs⟩ := p
    intro F s hs
    have h1 := c.fv h fs F s hs
    simp only [addFvs]
    revert h1
    generalize addFv h fs s = r
    obtain ⟨b, s'⟩ := r
    intro h1
    cases b
    · exact h1
    · exact ih _ _ h1

theorem Closed.run (c : Closed env I) {api : Bool → St W → Res W Bool} (ha : ∀ one, Keeps I (api one))
    (code : Code W α) : Keeps I (run api code) := by
  induction code with
  | ret w a => intro F s r s' hs h; simp only [Dispatcher.run] at h; cases h; exact c.world _ _ _ hs
  | volumes fvs k ih =>
    intro F s r s' hs h
    have h1 := c.fvs fvs F s hs
    simp only [Dispatcher.run] at h
    revert h h1
    generalize addFvs fvs s = x
    obtain ⟨b, s1⟩ := x
    intro h h1
    cases b
    · cases h; exact h1
    · exact ih _ _ _ _ h1 h
  | schedule fv name k ih =>
    intro F s r s' hs h
    exact ih _ _ _ _ _ (c.schedule _ _ fv name hs) h
  | trust fv name k ih =>
    intro F s r s' hs h
    exact ih _ _ _ _ _ (c.trust _ _ fv name hs) h
  | dispatch one w k ih =>
    intro F s r s' hs h
    have h0 := c.world F s w hs
    simp only [Dispatcher.run] at h
    cases h1 : api one { s with w := w } with
    | none => rw [h1] at h; cases h
    | some x =>
      obtain ⟨o, s1⟩ := x
      have h2 := ha one _ _ _ _ h0 h1
      rw [h1] at h
      cases o with
      | ok b => exact ih _ _ _ _ _ _ h2 h
      | err e => exact ih _ _ _ _ _ _ h2 h
      | panic => cases h; exact h2

theorem Keeps.as {f : St W → Res W Unit} {b : Bool} {F : List Drv} {s : St W} {r : Outcome EfiError Bool}
    {s' : St W} (hf : Keeps I f) (hs : I F s) (h : Res.as b (f s) = some (r, s')) : I F s' := by
  cases h1 : f s with
  | none => rw [h1] at h; cases h
  | some x =>
    obtain ⟨o, s1⟩ := x
    have h2 := hf _ _ _ _ hs h1
    rw [h1] at h
    cases o <;> · cases h; exact h2

theorem Closed.settle (c : Closed env I) {api : Bool → St W → Res W Bool} (ha : ∀ one, Keeps I (api one))
    (d : Drv) (h : Nat) (F : List Drv) (s : St W) (r : Outcome EfiError Bool) (s' : St W)
    (hi : d.image = some h) (hs : I (d :: F) s) (e : settle env api d h s = some (r, s')) : I F s' := by
  unfold Dispatcher.settle at e
  split at e
  · rename_i hsec
    exact Keeps.as (c.run ha _) (c.started _ _ _ _ hs hi hsec) e
  · rename_i hsec
    exact Keeps.as (c.run ha _) (c.deferred _ _ _ _ hs hi hsec) e
  · cases e; exact c.dropped _ _ _ _ hs (.inr rfl)

theorem Closed.afterLoad (c : Closed env I) {api : Bool → St W → Res W Bool} (ha : ∀ one, Keeps I (api one))
    (d : Drv) (x : Option (Nat × Option EfiError)) (F : List Drv) (s : St W) (r : Outcome EfiError Bool)
    (s' : St W) (hi : d.image = none) (hs : I (d :: F) s) (e : afterLoad env api d x s = some (r, s')) :
    I F s' := by
  cases x with
  | none => simp only [Dispatcher.afterLoad] at e; cases e; exact c.dropped _ _ _ _ hs (.inl rfl)
  | some p => exact c.settle ha _ _ _ _ _ _ rfl (c.loaded _ _ _ _ _ hs hi) e

theorem Closed.handle (c : Closed env I) {api : Bool → St W → Res W Bool} (ha : ∀ one, Keeps I (api one))
    (d : Drv) (F : List Drv) (s : St W) (r : Outcome EfiError Bool) (s' : St W)
    (hs : I (d :: F) s) (e : handle env api d s = some (r, s')) : I F s' := by
  unfold Dispatcher.handle at e
  split at e
  · rename_i h hi
    exact c.settle ha _ _ _ _ _ _ hi hs e
  · rename_i hi
    split at e
    · cases h1 : Dispatcher.run api (env.load s.w d) s with
      | none => rw [h1] at e; cases e
      | some x =>
        obtain ⟨o, s1⟩ := x
        have h2 := c.run ha _ _ _ _ _ hs h1
        rw [h1] at e
        cases o with
        | ok x => exact c.afterLoad ha _ _ _ _ _ _ hi h2 e
        | err x => cases e; exact c.lost _ _ _ h2
        | panic => cases e; exact c.lost _ _ _ h2
    · cases e; exact c.lost _ _ _ hs

theorem Closed.lostAll (c : Closed env I) (ds : List Drv) :
    ∀ F s, I (ds ++ F) s → I F s := by
  induction ds with
  | nil => intro F s hs; exact hs
  | cons d ds ih => intro F s hs; exact ih _ _ (c.lost _ _ _ hs)

theorem Closed.handleAll (c : Closed env I) {api : Bool → St W → Res W Bool} (ha : ∀ one, Keeps I (api one))
    (ds : List Drv) : ∀ (F : List Drv) (b : Bool) (s : St W) (r : Outcome EfiError Bool) (s' : St W),
    I (ds ++ F) s → handleAll env api ds b s = some (r, s') → I F s' := by
  induction ds with
  | nil => intro F b s r s' hs e; simp only [Dispatcher.handleAll] at e; cases e; exact hs
  | cons d ds ih =>
    intro F b s r s' hs e
    simp only [Dispatcher.handleAll] at e
    cases h1 : Dispatcher.handle env api d s with
    | none => rw [h1] at e; cases e
    | some x =>
      obtain ⟨o, s1⟩ := x
      have h2 := c.handle ha _ _ _ _ _ hs h1
      rw [h1] at e
      cases o with
      | ok x => exact ih _ _ _ _ _ h2 e
      | err x => cases e; exact c.lostAll _ _ _ h2
      | panic => cases e; exact c.lostAll _ _ _ h2

theorem Closed.installAll (c : Closed env I) (img : FvImg) (l : List Bool) :
    ∀ (F : List Drv) (i : Nat) (b : Bool) (s : St W), I F s → I F (installAll env img l i b s).2 := by
  induction l with
  | nil => intro F i b s hs; exact hs
  | cons x l ih =>
    intro F i b s hs
    simp only [Dispatcher.installAll]
    split
    · apply ih
      cases (env.install s.w img i).2 with
      | false => exact c.world _ _ _ hs
      | true => exact c.world _ _ (env.install s.w img i).1 (c.installed _ _ img.uid hs)
    · exact hs

theorem Closed.imagesLoop (c : Closed env I) (l : List FvImg) :
    ∀ (F : List Drv) (b : Bool) (s : St W), I F s → I F (imagesLoop env l b s).2 := by
  induction l with
  | nil => intro F b s hs; exact hs
  | cons x l ih =>
    intro F b s hs
    simp only [Dispatcher.imagesLoop]
    cases judgeImage env.dbg (env.protos s.w) x with
    | err e => exact hs
    | panic => exact hs
    | ok p =>
      obtain ⟨v, x'⟩ := p
      cases v with
      | false => exact ih _ _ _ (c.images _ _ _ hs)
      | true =>
        simp only []
        have h1 := c.world _ _ (env.auth s.w x').1 hs
        split
        · have h2 := c.installAll x' x'.sections F 0 b _ h1
          revert h2
          generalize Dispatcher.installAll env x' x'.sections 0 b { s with w := (env.auth s.w x').1 } = y
          obtain ⟨o, s1⟩ := y
          intro h2
          cases o with
          | ok b' => exact ih _ _ _ h2
          | err e => exact h2
          | panic => exact h2
        · exact ih _ _ _ (c.images _ _ _ h1)

theorem Closed.finish (c : Closed env I) {api : Bool → St W → Res W Bool} (ha : ∀ one, Keeps I (api one))
    (b : Bool) : Keeps I (finish env api b) := by
  intro F s r s' hs e
  have h1 := c.imagesLoop s.ctx.images F b _ (c.images _ _ [] hs)
  unfold Dispatcher.finish imagePhase at e
  revert e h1
  generalize Dispatcher.imagesLoop env s.ctx.images b { s with ctx := { s.ctx with images := [] } } = y
  obtain ⟨o, s1⟩ := y
  intro e h1
  cases o with
  | ok b' => exact Keeps.as (c.run ha _) h1 e
  | err e' => cases e; exact h1
  | panic => cases e; exact h1

theorem Closed.perform (c : Closed env I) {api : Bool → St W → Res W Bool} (ha : ∀ one, Keeps I (api one))
    (ds : List Drv) (F : List Drv) (s : St W) (r : Outcome EfiError Bool) (s' : St W)
    (hs : I (ds ++ F) s) (e : perform env api ds s = some (r, s')) : I F s' := by
  unfold Dispatcher.perform at e
  cases h1 : Dispatcher.run api (env.tick s.w) s with
  | none => rw [h1] at e; cases e
  | some x =>
    obtain ⟨o, s1⟩ := x
    have h2 := c.run ha _ _ _ _ _ hs h1
    rw [h1] at e
    cases o with
    | err x => cases e; exact c.lostAll _ _ _ h2
    | panic => cases e; exact c.lostAll _ _ _ h2
    | ok x =>
      simp only [] at e
      cases h3 : Dispatcher.handleAll env api ds false s1 with
      | none => rw [h3] at e; cases e
      | some y =>
        obtain ⟨o, s2⟩ := y
        have h4 := c.handleAll ha _ _ _ _ _ _ h2 h3
        rw [h3] at e
        cases o with
        | ok b => exact c.finish ha _ _ _ _ _ h4 e
        | err x => cases e; exact h4
        | panic => cases e; exact h4

theorem Closed.pass (c : Closed env I) {api : Bool → St W → Res W Bool} (ha : ∀ one, Keeps I (api one)) :
    Keeps I (pass env api) := by
  intro F s r s' hs e
  unfold Dispatcher.pass at e
  cases h : Dispatcher.plan env.dbg (env.protos s.w) s with
  | ok p =>
    obtain ⟨ds, s1⟩ := p
    rw [h] at e
    exact c.perform ha _ _ _ _ _ (c.plan _ _ _ _ hs h) e
  | err x => rw [h] at e; cases e; exact hs
  | panic => rw [h] at e; cases e; exact hs

theorem Keeps.passes {once : St W → Res W Bool} (ho : Keeps I once) (n : Nat) :
    ∀ b, Keeps I (passes once n b) := by
  induction n with
  | zero => intro b F s r s' hs e; cases e
  | succ n ih =>
    intro b F s r s' hs e
    simp only [Dispatcher.passes] at e
    cases h : once s with
    | none => rw [h] at e; cases e
    | some x =>
      obtain ⟨o, s1⟩ := x
      have h1 := ho _ _ _ _ hs h
      rw [h] at e
      cases o with
      | ok v =>
        cases v with
        | true => exact ih _ _ _ _ _ h1 e
        | false => cases e; exact h1
      | err x => cases e; exact h1
      | panic => cases e; exact h1

theorem Closed.entry (c : Closed env I) (n : Nat) : ∀ one, Keeps I (entry env n one) := by
  induction n with
  | zero => intro one F s r s' hs e; cases one <;> cases e
  | succ n ih =>
    intro one
    cases one with
    | true => exact c.pass ih
    | false => exact (c.pass ih).passes n false

/-- A whole boot preserves the assertion. -/
theorem Closed.boot (c : Closed env I) {n : Nat} {main : Code W α} {w : W} {r : Outcome EfiError α} {s : St W}
    (h0 : I [] ⟨w, .new, []⟩) (h : boot env n main w = some (r, s)) : I [] s :=
  c.run (c.entry n) main _ _ _ _ h0 h

end Verif.Dispatcher
