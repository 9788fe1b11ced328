import Verif.Component.Props
/-!
Property C50: a debug build accepts a component exactly when no two of its parameters conflict, and an accepted
component never panics on a doubly borrowed configuration.
-/
namespace Verif.Component
variable {V W : Type}
open Storage

/-- No two of the parameters conflict. -/
def Compatible (ps : List Param) : Prop := (paramLeaves ps).Pairwise fun a b => ¬ Conflict a b

/-! ### Lemmas -/

/-- The parameters `l` conflict neither with each other nor with `done`. -/
def Compat (done l : List Param) : Prop :=
  l.Pairwise (fun a b => ¬ Conflict a b) ∧ ∀ q ∈ done, ∀ p ∈ l, ¬ Conflict q p

theorem compat_single {done : List Param} {p : Param} : Compat done [p] ↔ ∀ q ∈ done, ¬ Conflict q p := by
  simp [Compat]

theorem compat_append {done a b : List Param} : Compat done (a ++ b) ↔ Compat done a ∧ Compat (done ++ a) b := by
  simp only [Compat, List.pairwise_append, List.mem_append]
  constructor
  · rintro ⟨⟨h1, h2, h3⟩, h4⟩
    exact ⟨⟨h1, fun q hq p hp => h4 q hq p (.inl hp)⟩, h2, fun q hq p hp => hq.elim (fun hq => h4 q hq p (.inr hp))
      (fun hq => h3 q hq p hp)⟩
  · rintro ⟨⟨h1, h2⟩, h3, h4⟩
    exact ⟨⟨h1, h3, fun q hq p hp => h4 q (.inr hq) p hp⟩, fun q hq p hp => hp.elim (h2 q hq p) (h4 q (.inl hq) p)⟩

/-- The access record says what was asked for so far. -/
structure AInv (s : Storage V) (done : List Param) (a : Access) : Prop where
  reg : ∀ t, Param.config t ∈ done ∨ Param.configMut t ∈ done → ∃ id, mget s.configIdx t = some id
  wr : ∀ id, id ∈ a.writes ↔ ∃ t, Param.configMut t ∈ done ∧ mget s.configIdx t = some id
  rw : ∀ id, id ∈ a.readsWrites ↔
    ∃ t, (Param.config t ∈ done ∨ Param.configMut t ∈ done) ∧ mget s.configIdx t = some id
  ra : a.readsAll = true ↔ Param.storage ∈ done ∨ Param.storageMut ∈ done
  wa : a.writesAll = true ↔ Param.storageMut ∈ done
  df : a.deferred = true ↔ Param.commands ∈ done

theorem AInv.new (s : Storage V) : AInv s [] .new := by
  constructor <;> simp [Access.new]

theorem AInv.ext {s s' : Storage V} {done : List Param} {a : Access} (h : AInv s done a) (e : Ext s s') :
    AInv s' done a := by
  have key : ∀ t, (Param.config t ∈ done ∨ Param.configMut t ∈ done) →
      ∀ id, mget s.configIdx t = some id ↔ mget s'.configIdx t = some id := by
    intro t ht id
    obtain ⟨j, hj⟩ := h.reg t ht
    have hj' := e.ce t j hj
    rw [hj, hj']
  refine ⟨?_, ?_, ?_, h.ra, h.wa, h.df⟩
  · intro t ht
    obtain ⟨j, hj⟩ := h.reg t ht
    exact ⟨j, e.ce t j hj⟩
  · intro id
    rw [h.wr]
    constructor
    · rintro ⟨t, ht, hm⟩; exact ⟨t, ht, (key t (.inr ht) id).1 hm⟩
    · rintro ⟨t, ht, hm⟩; exact ⟨t, ht, (key t (.inr ht) id).2 hm⟩
  · intro id
    rw [h.rw]
    constructor
    · rintro ⟨t, ht, hm⟩; exact ⟨t, ht, (key t ht id).1 hm⟩
    · rintro ⟨t, ht, hm⟩; exact ⟨t, ht, (key t ht id).2 hm⟩

theorem wr_iff {s : Storage V} (hs : WF s) {done : List Param} {a : Access} (h : AInv s done a) {t id : Nat}
    (ht : mget s.configIdx t = some id) : id ∈ a.writes ↔ Param.configMut t ∈ done := by
  rw [h.wr]
  constructor
  · rintro ⟨u, hu, hm⟩
    have := hs.cT.inj u t id hm ht
    subst this; exact hu
  · exact fun hd => ⟨t, hd, ht⟩

theorem rw_iff {s : Storage V} (hs : WF s) {done : List Param} {a : Access} (h : AInv s done a) {t id : Nat}
    (ht : mget s.configIdx t = some id) :
    id ∈ a.readsWrites ↔ Param.config t ∈ done ∨ Param.configMut t ∈ done := by
  rw [h.rw]
  constructor
  · rintro ⟨u, hu, hm⟩
    have := hs.cT.inj u t id hm ht
    subst this; exact hu
  · exact fun hd => ⟨t, hd, ht⟩

theorem bool_false_iff {b : Bool} {P : Prop} (h : b = true ↔ P) : b = false ↔ ¬ P := by
  cases b <;> simp_all

theorem okConfig_iff {s : Storage V} (hs : WF s) {done : List Param} {a : Access} (h : AInv s done a) {t id : Nat}
    (ht : mget s.configIdx t = some id) : a.okConfig id = true ↔ ∀ q ∈ done, ¬ Conflict q (.config t) := by
  have h1 : a.okConfig id = true ↔ ¬ Param.storageMut ∈ done ∧ ¬ Param.configMut t ∈ done := by
    rw [← bool_false_iff h.wa, ← wr_iff hs h ht]
    cases hw : a.writesAll <;> simp [Access.okConfig, Access.hasWrite, hw]
  rw [h1]
  constructor
  · rintro ⟨h1, h2⟩ q hq hc
    cases q <;> simp only [Conflict] at hc
    · subst hc; exact h2 hq
    · exact h1 hq
  · exact fun h => ⟨fun hq => h _ hq trivial, fun hq => h _ hq rfl⟩

theorem okConfigMut_iff {s : Storage V} (hs : WF s) {done : List Param} {a : Access} (h : AInv s done a) {t id : Nat}
    (ht : mget s.configIdx t = some id) : a.okConfigMut id = true ↔ ∀ q ∈ done, ¬ Conflict q (.configMut t) := by
  have h1 : a.okConfigMut id = true ↔ ¬ Param.storageMut ∈ done ∧ ¬ (Param.storage ∈ done ∨ Param.storageMut ∈ done) ∧
      ¬ Param.configMut t ∈ done ∧ ¬ (Param.config t ∈ done ∨ Param.configMut t ∈ done) := by
    rw [← rw_iff hs h ht, ← bool_false_iff h.ra, ← bool_false_iff h.wa, ← wr_iff hs h ht]
    cases hw : a.writesAll <;> cases hr : a.readsAll <;>
      simp [Access.okConfigMut, Access.hasWrite, Access.hasRead, hw, hr]
  rw [h1]
  constructor
  · rintro ⟨h1, h2, h3, h4⟩ q hq hc
    cases q <;> simp only [Conflict] at hc
    · subst hc; exact h4 (.inl hq)
    · subst hc; exact h3 hq
    · exact h2 (.inl hq)
    · exact h1 hq
  · exact fun h => ⟨fun hq => h _ hq trivial, fun hq => hq.elim (fun hq => h _ hq trivial) (fun hq => h _ hq trivial),
      fun hq => h _ hq rfl, fun hq => hq.elim (fun hq => h _ hq rfl) (fun hq => h _ hq rfl)⟩

theorem okCommands_iff {s : Storage V} {done : List Param} {a : Access} (h : AInv s done a) :
    a.okCommands = true ↔ ∀ q ∈ done, ¬ Conflict q .commands := by
  have h1 : a.okCommands = true ↔ ¬ Param.commands ∈ done := by
    rw [← bool_false_iff h.df]; simp [Access.okCommands]
  rw [h1]
  constructor
  · intro h1 q hq hc
    cases q <;> simp only [Conflict] at hc
    exact h1 hq
  · exact fun h hq => h _ hq trivial

theorem anyWrite_iff {s : Storage V} {done : List Param} {a : Access} (h : AInv s done a) :
    a.anyWrite = true ↔ Param.storageMut ∈ done ∨ ∃ t, Param.configMut t ∈ done := by
  simp only [Access.anyWrite, Bool.or_eq_true, h.wa]
  refine or_congr_right ?_
  constructor
  · intro hne
    cases hw : a.writes with
    | nil => rw [hw] at hne; cases hne
    | cons x l =>
      obtain ⟨t, ht, _⟩ := (h.wr x).1 (by rw [hw]; simp)
      exact ⟨t, ht⟩
  · rintro ⟨t, ht⟩
    obtain ⟨id, hid⟩ := h.reg t (.inr ht)
    have := (h.wr id).2 ⟨t, ht, hid⟩
    cases hw : a.writes with
    | nil => rw [hw] at this; cases this
    | cons x l => rfl

theorem anyRead_iff {s : Storage V} {done : List Param} {a : Access} (h : AInv s done a) :
    a.anyRead = true ↔ (Param.storage ∈ done ∨ Param.storageMut ∈ done) ∨
      ∃ t, Param.config t ∈ done ∨ Param.configMut t ∈ done := by
  simp only [Access.anyRead, Bool.or_eq_true, h.ra]
  refine or_congr_right ?_
  constructor
  · intro hne
    cases hw : a.readsWrites with
    | nil => rw [hw] at hne; cases hne
    | cons x l =>
      obtain ⟨t, ht, _⟩ := (h.rw x).1 (by rw [hw]; simp)
      exact ⟨t, ht⟩
  · rintro ⟨t, ht⟩
    obtain ⟨id, hid⟩ := h.reg t ht
    have := (h.rw id).2 ⟨t, ht, hid⟩
    cases hw : a.readsWrites with
    | nil => rw [hw] at this; cases this
    | cons x l => rfl

theorem okStorage_iff {s : Storage V} {done : List Param} {a : Access} (h : AInv s done a) :
    a.okStorage = true ↔ ∀ q ∈ done, ¬ Conflict q .storage := by
  have h1 : a.okStorage = true ↔ ¬ (Param.storageMut ∈ done ∨ ∃ t, Param.configMut t ∈ done) := by
    rw [← bool_false_iff (anyWrite_iff h)]; simp [Access.okStorage]
  rw [h1]
  constructor
  · intro h1 q hq hc
    cases q <;> simp only [Conflict] at hc
    · exact h1 (.inr ⟨_, hq⟩)
    · exact h1 (.inl hq)
  · rintro h (hq | ⟨t, hq⟩) <;> exact h _ hq trivial

theorem okStorageMut_iff {s : Storage V} {done : List Param} {a : Access} (h : AInv s done a) :
    a.okStorageMut = true ↔ ∀ q ∈ done, ¬ Conflict q .storageMut := by
  have h1 : a.okStorageMut = true ↔ ¬ (Param.storageMut ∈ done ∨ ∃ t, Param.configMut t ∈ done) ∧
      ¬ ((Param.storage ∈ done ∨ Param.storageMut ∈ done) ∨ ∃ t, Param.config t ∈ done ∨ Param.configMut t ∈ done) := by
    rw [← bool_false_iff (anyWrite_iff h), ← bool_false_iff (anyRead_iff h)]; simp [Access.okStorageMut]
  rw [h1]
  constructor
  · rintro ⟨_, h2⟩ q hq hc
    cases q <;> simp only [Conflict] at hc
    · exact h2 (.inr ⟨_, .inl hq⟩)
    · exact h2 (.inr ⟨_, .inr hq⟩)
    · exact h2 (.inl (.inl hq))
    · exact h2 (.inl (.inr hq))
  · intro h
    refine ⟨?_, ?_⟩
    · rintro (hq | ⟨t, hq⟩) <;> exact h _ hq trivial
    · rintro ((hq | hq) | ⟨t, hq | hq⟩) <;> exact h _ hq trivial

theorem assertThen_of {α : Type} {dbg c : Bool} {x : α} (h : c = true) : assertThen dbg c x = .ok x := by
  subst h; cases dbg <;> rfl

/-- What one registration tells. -/
structure Reg (dbg : Bool) (done l : List Param) (s : Storage V) (r : Outcome EfiError (Storage V × Access)) : Prop where
  inv : ∀ q, r = .ok q → AInv q.1 (done ++ l) q.2
  dbg : ∀ q, r = .ok q → dbg = true → Compat done l
  ok : Compat done l → ∃ q, r = .ok q

/-- The storage and the access record of a result. -/
def res {α : Type} (r : Outcome EfiError (α × Init V)) : Outcome EfiError (Storage V × Access) :=
  match r with
  | .ok q => .ok (q.2.s, q.2.a)
  | .err e => .err e
  | .panic => .panic

theorem reg_assert {dbg cond : Bool} {done : List Param} {p : Param} {s : Storage V} {q : PState × Init V}
    (hc : cond = true ↔ ∀ q ∈ done, ¬ Conflict q p) (hi : AInv q.2.s (done ++ [p]) q.2.a) :
    Reg dbg done [p] s (res (assertThen dbg cond q)) := by
  refine ⟨fun r hr => ?_, fun r hr hd => ?_, fun h => ?_⟩
  · cases ha : assertThen dbg cond q with
    | ok q' =>
      obtain ⟨rfl, _⟩ := assertThen_ok ha
      rw [ha] at hr; injection hr with hr; subst hr; exact hi
    | err _ => rw [ha] at hr; cases hr
    | panic => rw [ha] at hr; cases hr
  · cases ha : assertThen dbg cond q with
    | ok q' =>
      obtain ⟨_, hd'⟩ := assertThen_ok ha
      exact compat_single.2 (hc.1 (hd' hd))
    | err _ => rw [ha] at hr; cases hr
    | panic => rw [ha] at hr; cases hr
  · rw [assertThen_of (hc.2 (compat_single.1 h))]
    exact ⟨_, rfl⟩

/-- A parameter that takes part in no conflict. -/
theorem reg_free {dbg : Bool} {done : List Param} {p : Param} {s : Storage V} {q : PState × Init V}
    (hc : ∀ x, ¬ Conflict x p) (hi : AInv q.2.s (done ++ [p]) q.2.a) :
    Reg dbg done [p] s (res (.ok q)) :=
  ⟨fun r hr => by injection hr with hr; subst hr; exact hi, fun _ _ _ => compat_single.2 fun x _ => hc x,
    fun _ => ⟨_, rfl⟩⟩

theorem AInv.add {s : Storage V} {done : List Param} {a : Access} (h : AInv s done a) (p : Param)
    (hp : (∀ t, p ≠ .config t) ∧ (∀ t, p ≠ .configMut t)) {a' : Access} (hw : a'.writes = a.writes)
    (hr : a'.readsWrites = a.readsWrites)
    (hra : a'.readsAll = true ↔ a.readsAll = true ∨ p = .storage ∨ p = .storageMut)
    (hwa : a'.writesAll = true ↔ a.writesAll = true ∨ p = .storageMut)
    (hdf : a'.deferred = true ↔ a.deferred = true ∨ p = .commands) : AInv s (done ++ [p]) a' := by
  have hc : ∀ t, Param.config t ∈ done ++ [p] ↔ Param.config t ∈ done := by
    intro t; simp [Ne.symm (hp.1 t)]
  have hm : ∀ t, Param.configMut t ∈ done ++ [p] ↔ Param.configMut t ∈ done := by
    intro t; simp [Ne.symm (hp.2 t)]
  refine ⟨?_, ?_, ?_, ?_, ?_, ?_⟩
  · intro t; rw [hc, hm]; exact h.reg t
  · intro id; rw [hw, h.wr]; simp only [hm]
  · intro id; rw [hr, h.rw]; simp only [hm, hc]
  · rw [hra, h.ra]; simp only [List.mem_append, List.mem_singleton]
    constructor
    · rintro ((h | h) | h | h)
      · exact .inl (.inl h)
      · exact .inr (.inl h)
      · exact .inl (.inr h.symm)
      · exact .inr (.inr h.symm)
    · rintro ((h | h) | h | h)
      · exact .inl (.inl h)
      · exact .inr (.inl h.symm)
      · exact .inl (.inr h)
      · exact .inr (.inr h.symm)
  · rw [hwa, h.wa]; simp only [List.mem_append, List.mem_singleton, eq_comm]
  · rw [hdf, h.df]; simp only [List.mem_append, List.mem_singleton, eq_comm]

theorem AInv.addConfig {s : Storage V} {done : List Param} {a : Access} (h : AInv s done a) {t id : Nat}
    (ht : mget s.configIdx t = some id) : AInv s (done ++ [.config t]) (a.addRead id) := by
  refine ⟨?_, ?_, ?_, ?_, ?_, ?_⟩
  · intro u hu
    simp only [List.mem_append, List.mem_singleton, Param.config.injEq, reduceCtorEq, or_false] at hu
    rcases hu with (hu | rfl) | hu
    · exact h.reg u (.inl hu)
    · exact ⟨id, ht⟩
    · exact h.reg u (.inr hu)
  · intro i; show i ∈ a.writes ↔ _; rw [h.wr]; simp
  · intro i
    show i ∈ id :: a.readsWrites ↔ _
    rw [List.mem_cons, h.rw]
    simp only [List.mem_append, List.mem_singleton, Param.config.injEq, reduceCtorEq, or_false]
    constructor
    · rintro (rfl | ⟨u, hu, hm⟩)
      · exact ⟨t, .inl (.inr rfl), ht⟩
      · exact ⟨u, hu.imp .inl id', hm⟩
    · rintro ⟨u, (hu | rfl) | hu, hm⟩
      · exact .inr ⟨u, .inl hu, hm⟩
      · rw [ht] at hm; injection hm with hm; exact .inl hm.symm
      · exact .inr ⟨u, .inr hu, hm⟩
  · show a.readsAll = true ↔ _; rw [h.ra]; simp
  · show a.writesAll = true ↔ _; rw [h.wa]; simp
  · show a.deferred = true ↔ _; rw [h.df]; simp
where
  id' {P : Prop} (h : P) : P := h

theorem AInv.addConfigMut {s : Storage V} {done : List Param} {a : Access} (h : AInv s done a) {t id : Nat}
    (ht : mget s.configIdx t = some id) : AInv s (done ++ [.configMut t]) (a.addWrite id) := by
  refine ⟨?_, ?_, ?_, ?_, ?_, ?_⟩
  · intro u hu
    simp only [List.mem_append, List.mem_singleton, Param.configMut.injEq, reduceCtorEq, or_false] at hu
    rcases hu with hu | hu | rfl
    · exact h.reg u (.inl hu)
    · exact h.reg u (.inr hu)
    · exact ⟨id, ht⟩
  · intro i
    show i ∈ id :: a.writes ↔ _
    rw [List.mem_cons, h.wr]
    simp only [List.mem_append, List.mem_singleton, Param.configMut.injEq]
    constructor
    · rintro (rfl | ⟨u, hu, hm⟩)
      · exact ⟨t, .inr rfl, ht⟩
      · exact ⟨u, .inl hu, hm⟩
    · rintro ⟨u, hu | rfl, hm⟩
      · exact .inr ⟨u, hu, hm⟩
      · rw [ht] at hm; injection hm with hm; exact .inl hm.symm
  · intro i
    show i ∈ id :: a.readsWrites ↔ _
    rw [List.mem_cons, h.rw]
    simp only [List.mem_append, List.mem_singleton, Param.configMut.injEq, reduceCtorEq, or_false]
    constructor
    · rintro (rfl | ⟨u, hu, hm⟩)
      · exact ⟨t, .inr (.inr rfl), ht⟩
      · exact ⟨u, hu.imp (fun h => h) .inl, hm⟩
    · rintro ⟨u, hu | hu | rfl, hm⟩
      · exact .inr ⟨u, .inl hu, hm⟩
      · exact .inr ⟨u, .inr hu, hm⟩
      · rw [ht] at hm; injection hm with hm; exact .inl hm.symm
  · show a.readsAll = true ↔ _; rw [h.ra]; simp
  · show a.writesAll = true ↔ _; rw [h.wa]; simp
  · show a.deferred = true ↔ _; rw [h.df]; simp

theorem Reg.map {α β : Type} {dbg : Bool} {done l : List Param} {s : Storage V} {r : Outcome EfiError (α × Init V)}
    {r' : Outcome EfiError (β × Init V)} (h : Reg dbg done l s (res r)) (e : res r = res r') : Reg dbg done l s (res r') :=
  e ▸ h

mutual
theorem reg_init {dbg : Bool} {dflt : Nat → V} : ∀ (p : Param) (i : Init V) (done : List Param), WF i.s →
    AInv i.s done i.a → Reg dbg done p.leaves i.s (res (Param.init dbg dflt i p))
  | .config t, i, done, hs, ha => by
    obtain ⟨w, x, m, _⟩ := addConfigDefault_spec dflt hs t
    have ha' := ha.ext x
    simp only [Param.init, Param.leaves]
    exact reg_assert (okConfig_iff w ha' m) (ha'.addConfig m)
  | .configMut t, i, done, hs, ha => by
    obtain ⟨w, x, m, _⟩ := addConfigDefault_spec dflt hs t
    have ha' := ha.ext x
    simp only [Param.init, Param.leaves]
    exact reg_assert (okConfigMut_iff w ha' m)
      (AInv.addConfigMut (s := (i.s.addConfigDefault dflt t).2.unlockConfig (i.s.addConfigDefault dflt t).1)
        (ha'.ext ⟨fun _ _ h => h, fun _ _ h => h, fun _ _ h => h⟩) m)
  | .service t, i, done, hs, ha => by
    simp only [Param.init, Param.leaves]
    obtain ⟨_, x, _⟩ := entryService_spec hs t
    refine reg_free (fun x hx => by cases x <;> exact hx) ?_
    exact (ha.ext x).add _ ⟨fun _ h => (by cases h), fun _ h => (by cases h)⟩ rfl rfl (by simp) (by simp) (by simp)
  | .hob g t, i, done, hs, ha => by
    simp only [Param.init, Param.leaves]
    have h' : WF (i.s.addHobParser g t) := hs.same rfl rfl rfl rfl rfl rfl
    obtain ⟨_, x, _, _⟩ := registerHob_spec h' t
    refine reg_free (fun x hx => by cases x <;> exact hx) ?_
    have e0 : Ext i.s (i.s.addHobParser g t) := ⟨fun _ _ h => h, fun _ _ h => h, fun _ _ h => h⟩
    exact ((ha.ext e0).ext x).add _ ⟨fun _ h => (by cases h), fun _ h => (by cases h)⟩ rfl rfl (by simp) (by simp) (by simp)
  | .commands, i, done, hs, ha => by
    simp only [Param.init, Param.leaves]
    exact reg_assert (okCommands_iff ha)
      (ha.add _ ⟨fun _ h => (by cases h), fun _ h => (by cases h)⟩ rfl rfl (by simp [Access.markDeferred]) (by simp [Access.markDeferred]) (by simp [Access.markDeferred]))
  | .bootServices, i, done, hs, ha => by
    simp only [Param.init, Param.leaves]
    exact reg_free (fun x hx => by cases x <;> exact hx) (ha.add _ ⟨fun _ h => (by cases h), fun _ h => (by cases h)⟩ rfl rfl (by simp) (by simp) (by simp))
  | .runtimeServices, i, done, hs, ha => by
    simp only [Param.init, Param.leaves]
    exact reg_free (fun x hx => by cases x <;> exact hx) (ha.add _ ⟨fun _ h => (by cases h), fun _ h => (by cases h)⟩ rfl rfl (by simp) (by simp) (by simp))
  | .storage, i, done, hs, ha => by
    simp only [Param.init, Param.leaves]
    exact reg_assert (okStorage_iff ha)
      (ha.add _ ⟨fun _ h => (by cases h), fun _ h => (by cases h)⟩ rfl rfl (by simp [Access.markReadsAll]) (by simp [Access.markReadsAll]) (by simp [Access.markReadsAll]))
  | .storageMut, i, done, hs, ha => by
    simp only [Param.init, Param.leaves]
    exact reg_assert (okStorageMut_iff ha)
      (ha.add _ ⟨fun _ h => (by cases h), fun _ h => (by cases h)⟩ rfl rfl (by simp [Access.markWritesAll]) (by simp [Access.markWritesAll]) (by simp [Access.markWritesAll]))
  | .opt p, i, done, hs, ha => by
    have := reg_init (dbg := dbg) (dflt := dflt) p i done hs ha
    simp only [Param.leaves]
    refine this.map ?_
    simp only [Param.init]
    cases Param.init dbg dflt i p <;> rfl
  | .tuple ps, i, done, hs, ha => by
    have := reg_initAll (dbg := dbg) (dflt := dflt) ps i done hs ha
    simp only [Param.leaves]
    refine this.map ?_
    simp only [Param.init]
    cases initAll dbg dflt i ps <;> rfl
theorem reg_initAll {dbg : Bool} {dflt : Nat → V} : ∀ (ps : List Param) (i : Init V) (done : List Param), WF i.s →
    AInv i.s done i.a → Reg dbg done (paramLeaves ps) i.s (res (initAll dbg dflt i ps))
  | [], i, done, hs, ha => by
    simp only [initAll, paramLeaves]
    refine ⟨fun q hq => ?_, fun _ _ _ => ⟨.nil, by simp⟩, fun _ => ⟨_, rfl⟩⟩
    injection hq with hq; subst hq; simpa using ha
  | p :: ps, i, done, hs, ha => by
    have h1 := reg_init (dbg := dbg) (dflt := dflt) p i done hs ha
    simp only [initAll, paramLeaves]
    cases hp : Param.init dbg dflt i p with
    | ok r =>
      simp only []
      rw [hp] at h1
      have a1 := h1.inv _ rfl
      simp only [] at a1
      obtain ⟨w1, _⟩ := Param.init_ok hs hp
      have h2 := reg_initAll (dbg := dbg) (dflt := dflt) ps r.2 (done ++ p.leaves) w1.wf a1
      cases hq : initAll dbg dflt r.2 ps with
      | ok rs =>
        simp only []
        rw [hq] at h2
        refine ⟨fun q e => ?_, fun q e hd => ?_, fun hc => ⟨_, rfl⟩⟩
        · injection e with e; subst e
          rw [← List.append_assoc]; exact h2.inv _ rfl
        · exact compat_append.2 ⟨h1.dbg _ rfl hd, h2.dbg _ rfl hd⟩
      | err x =>
        rw [hq] at h2
        exact ⟨fun q e => (by cases e), fun q e => (by cases e), fun hc => by
          obtain ⟨q, hq'⟩ := h2.ok (compat_append.1 hc).2; cases hq'⟩
      | panic =>
        rw [hq] at h2
        exact ⟨fun q e => (by cases e), fun q e => (by cases e), fun hc => by
          obtain ⟨q, hq'⟩ := h2.ok (compat_append.1 hc).2; cases hq'⟩
    | err x =>
      rw [hp] at h1
      exact ⟨fun q e => (by cases e), fun q e => (by cases e), fun hc => by
        obtain ⟨q, hq'⟩ := h1.ok (compat_append.1 hc).1; cases hq'⟩
    | panic =>
      rw [hp] at h1
      exact ⟨fun q e => (by cases e), fun q e => (by cases e), fun hc => by
        obtain ⟨q, hq'⟩ := h1.ok (compat_append.1 hc).1; cases hq'⟩
end

/-- **C50, detection.** In a debug build, adding a component to a core built by any calls succeeds exactly when
no two of the component's parameters conflict. -/
theorem component_accepted_iff {dflt : Nat → V} {bs : List (Build V W)} {k : Storage V × List (Ready V W)}
    (dbg : Bool) (hb : build dbg dflt bs (Storage.new, []) = .ok k) (front : Bool) (c : Comp V W) :
    (∃ k', insertComponent true dflt front c k = .ok k') ↔ Compatible c.params := by
  obtain ⟨hk, _⟩ := build_built (k := (Storage.new, ([] : List (Ready V W)))) ⟨WF.new, by simp, rfl⟩ hb
  have h := reg_initAll (dbg := true) (dflt := dflt) c.params ⟨k.1, .new⟩ [] hk.wf (AInv.new _)
  have hcomp : Compat [] (paramLeaves c.params) ↔ Compatible c.params := by simp [Compat, Compatible]
  rw [← hcomp]
  unfold insertComponent
  cases hi : initAll true dflt ⟨k.1, .new⟩ c.params with
  | ok r => rw [hi] at h; exact ⟨fun _ => h.dbg _ rfl rfl, fun _ => ⟨_, rfl⟩⟩
  | err x =>
    rw [hi] at h
    exact ⟨fun ⟨_, e⟩ => (by cases e), fun hc => by obtain ⟨_, e⟩ := h.ok hc; cases e⟩
  | panic =>
    rw [hi] at h
    exact ⟨fun ⟨_, e⟩ => (by cases e), fun hc => by obtain ⟨_, e⟩ := h.ok hc; cases e⟩

/-! ### No panic -/

/-- The borrows are those of the parameters handed out. -/
structure BInv (s : Storage V) (done : List Param) (b : Borrows) : Prop where
  ex : ∀ id, id ∈ b.excl → ∃ t, Param.configMut t ∈ done ∧ mget s.configIdx t = some id
  sh : ∀ id, id ∈ b.shared → ∃ t, Param.config t ∈ done ∧ mget s.configIdx t = some id

theorem BInv.more {s : Storage V} {done l : List Param} {b : Borrows} (h : BInv s done b) : BInv s (done ++ l) b :=
  ⟨fun id hi => by obtain ⟨t, a, b⟩ := h.ex id hi; exact ⟨t, by simp [a], b⟩,
   fun id hi => by obtain ⟨t, a, b⟩ := h.sh id hi; exact ⟨t, by simp [a], b⟩⟩

theorem not_excl {s : Storage V} (hs : WF s) {done : List Param} {b : Borrows} (h : BInv s done b) {t id : Nat}
    (ht : mget s.configIdx t = some id) (hn : Param.configMut t ∉ done) : b.excl.contains id = false := by
  cases hc : b.excl.contains id with
  | false => rfl
  | true =>
    obtain ⟨u, hu, hm⟩ := h.ex id (by simpa using hc)
    have := hs.cT.inj u t id hm ht
    subst this; exact absurd hu hn

theorem not_shared {s : Storage V} (hs : WF s) {done : List Param} {b : Borrows} (h : BInv s done b) {t id : Nat}
    (ht : mget s.configIdx t = some id) (hn : Param.config t ∉ done) : b.shared.contains id = false := by
  cases hc : b.shared.contains id with
  | false => rfl
  | true =>
    obtain ⟨u, hu, hm⟩ := h.sh id (by simpa using hc)
    have := hs.cT.inj u t id hm ht
    subst this; exact absurd hu hn

theorem Compat.none {done l : List Param} {p q : Param} (h : Compat done l) (hl : l = [p]) (hc : Conflict q p) : q ∉ done :=
  fun hq => h.2 q hq p (by rw [hl]; simp) hc

theorem get_ok {s : Storage V} (hs : WF s) : ∀ (p : PState) (b : Borrows) (done : List Param), p.Good s →
    p.erase.Flat → Available s p.erase → Compat done p.erase.leaves → BInv s done b →
    ∃ r, p.get s b = .ok r ∧ BInv s (done ++ p.erase.leaves) r.2
  | .config t id, b, done, hg, _, _, hc, hb => by
    have hn : Param.configMut t ∉ done := hc.none (p := .config t) (by simp [PState.erase, Param.leaves]) rfl
    obtain ⟨c, _, hr⟩ := rawConfig_ok hs hg (not_excl hs hb hg hn)
    refine ⟨(.config t id c, ⟨id :: b.shared, b.excl⟩), by simp [PState.get, hr], ?_, ?_⟩
    · exact hb.more.ex
    · intro i hi
      rcases List.mem_cons.1 hi with rfl | hi
      · exact ⟨t, by simp [PState.erase, Param.leaves], hg⟩
      · exact hb.more.sh i hi
  | .configMut t id, b, done, hg, _, _, hc, hb => by
    have hn : Param.configMut t ∉ done := hc.none (p := .configMut t) (by simp [PState.erase, Param.leaves]) rfl
    have hn' : Param.config t ∉ done := hc.none (p := .configMut t) (by simp [PState.erase, Param.leaves]) rfl
    have h1 := not_excl hs hb hg hn
    have h2 := not_shared hs hb hg hn'
    obtain ⟨c, hcc⟩ := hs.cV t id hg
    have hg' : mget s.configIdx t = some id := hg
    have hsg : sget s.configs id = some c := by simpa [cfg, look, hg'] using hcc
    have hr : rawConfigMut s b id = .ok c := by simp only [rawConfigMut, hsg, h1, h2]; rfl
    refine ⟨(.configMut t id c, ⟨b.shared, id :: b.excl⟩), by simp [PState.get, hr], ?_, ?_⟩
    · intro i hi
      rcases List.mem_cons.1 hi with rfl | hi
      · exact ⟨t, by simp [PState.erase, Param.leaves], hg⟩
      · exact hb.more.ex i hi
    · exact hb.more.sh
  | .service t id, b, done, hg, _, ha, _, hb => by
    obtain ⟨v, hv⟩ := ha
    have hg' : mget s.serviceIdx t = some id := hg
    have hsg : sget s.services id = some v := by simpa [svc, look, hg'] using hv
    exact ⟨(.service t v, b), by simp [PState.get, hsg], hb.more⟩
  | .hob g t id, b, done, hg, _, _, _, hb => by
    obtain ⟨l, _, hr⟩ := rawHob_ok hs hg
    exact ⟨(.hob t l, b), by simp [PState.get, hr], hb.more⟩
  | .commands, b, done, _, _, _, _, hb => ⟨(.commands, b), by simp [PState.get], hb.more⟩
  | .bootServices, b, done, _, _, _, _, hb => ⟨(.bootServices, b), by simp [PState.get], hb.more⟩
  | .runtimeServices, b, done, _, _, _, _, hb => ⟨(.runtimeServices, b), by simp [PState.get], hb.more⟩
  | .storage, b, done, _, _, _, _, hb => ⟨(.storage s, b), by simp [PState.get], hb.more⟩
  | .storageMut, b, done, _, _, _, _, hb => ⟨(.storageMut s, b), by simp [PState.get], hb.more⟩
  | .opt p, b, done, hg, hf, _, hc, hb => by
    simp only [PState.erase, Param.Flat, Param.leaves] at hf hc ⊢
    obtain ⟨v, hv⟩ := validate_returns hs b p hg (by
      rintro t id (rfl | rfl)
      · exact not_excl hs hb (t := t) hg (hc.none (p := .config t) (by simp [PState.erase, Param.leaves]) rfl)
      · exact not_excl hs hb (t := t) hg (hc.none (p := .configMut t) (by simp [PState.erase, Param.leaves]) rfl))
    cases v with
    | false => exact ⟨(.opt none, b), by simp [PState.get, hv], hb.more⟩
    | true =>
      have ha := (validate_ok hs b p hg true hv).2 hf rfl
      obtain ⟨r, hr, hb'⟩ := get_ok hs p b done hg hf ha hc hb
      exact ⟨(.opt (some r.1), r.2), by simp [PState.get, hv, hr], hb'⟩
  | .tuple _, _, _, _, hf, _, _, _ => by simp [PState.erase, Param.Flat] at hf

theorem getAll_ok {s : Storage V} (hs : WF s) : ∀ (ps : List PState) (b : Borrows) (done : List Param), GoodAll s ps →
    (∀ p ∈ eraseAll ps, p.Flat) → (∀ p ∈ eraseAll ps, Available s p) → Compat done (paramLeaves (eraseAll ps)) →
    BInv s done b → ∃ r, getAll s b ps = .ok r
  | [], b, done, _, _, _, _, _ => ⟨([], b), rfl⟩
  | p :: ps, b, done, hg, hf, ha, hc, hb => by
    simp only [eraseAll, paramLeaves] at hc
    obtain ⟨hc1, hc2⟩ := compat_append.1 hc
    obtain ⟨r, hr, hb'⟩ := get_ok hs p b done hg.1 (hf _ (by simp [eraseAll])) (ha _ (by simp [eraseAll])) hc1 hb
    obtain ⟨q, hq⟩ := getAll_ok hs ps r.2 (done ++ p.erase.leaves) hg.2 (fun x hx => hf x (by simp [eraseAll, hx]))
      (fun x hx => ha x (by simp [eraseAll, hx])) hc2 hb'
    exact ⟨(r.1 :: q.1, q.2), by simp [getAll, hr, hq]⟩

/-- A component that may be run without panic: no tuples inside, no conflicts, and in a debug build its code
must not fail. -/
structure Comp.Fine (dbg : Bool) (c : Comp V W) : Prop where
  flat : ∀ p ∈ c.params, p.Flat
  compat : Compatible c.params
  succeeds : dbg = true → ∀ w items, (c.code w items).2.2 = true

theorem run_no_panic {dbg : Bool} {c : Ready V W} {y : Sys V W} (h : WF y.s) (hc : c.Ok y.s) (hf : c.comp.Fine dbg) :
    ∃ r, c.run y = .ok r ∧ (dbg = true → r.1 ≠ none) := by
  have g := grow_applyDeferred h
  obtain ⟨v, hv, _, h2⟩ := validateAll_ok g.wf c.state (hc.good.mono g.ext)
  rw [hc.params] at h2
  cases v with
  | false => exact ⟨(some false, { y with s := y.s.applyDeferred }), by simp only [Ready.run, hv], fun _ => by simp⟩
  | true =>
    obtain ⟨r, hr⟩ := getAll_ok g.wf c.state ⟨[], []⟩ [] (hc.good.mono g.ext) (by rw [hc.params]; exact hf.flat)
      (by rw [hc.params]; exact h2 hf.flat rfl)
      (by rw [hc.params]; exact ⟨hf.compat, by simp⟩) ⟨by simp, by simp⟩
    refine ⟨_, by simp only [Ready.run, hv, hr]; rfl, fun hd => ?_⟩
    simp [hf.succeeds hd]

theorem dispatch_no_panic {dbg : Bool} : ∀ (cs : List (Ready V W)) (y : Sys V W), Sound cs y →
    (∀ c ∈ cs, c.comp.Fine dbg) → ∃ r, dispatchComponents dbg y cs = .ok r
  | [], y, _, _ => ⟨([], y), rfl⟩
  | c :: cs, y, h, hf => by
    obtain ⟨⟨o, z⟩, hr, hd⟩ := run_no_panic h.wf (h.ok c (by simp)) (hf c (by simp))
    have h' := h.step (by simp) (run_case h.wf (h.ok c (by simp)) hr)
    obtain ⟨r, hr'⟩ := dispatch_no_panic (dbg := dbg) cs z ⟨h'.wf, fun d hd => h'.ok d (by simp [hd])⟩
      (fun d hd => hf d (by simp [hd]))
    unfold dispatchComponents
    rw [hr]
    cases o with
    | none =>
      cases dbg with
      | true => exact absurd rfl (hd rfl)
      | false => exact ⟨r, hr'⟩
    | some b =>
      cases b with
      | true => exact ⟨r, hr'⟩
      | false => exact ⟨(c :: r.1, r.2), by simp only [hr']⟩

theorem core_no_panic {dbg : Bool} {drv : Drivers W} : ∀ (fuel : Nat) (cs : List (Ready V W)) (y : Sys V W), Sound cs y →
    (∀ c ∈ cs, c.comp.Fine dbg) → coreDispatcher dbg drv fuel y cs ≠ .panic
  | 0, _, _, _, _ => by simp [coreDispatcher]
  | fuel + 1, cs, y, h, hf => by
    unfold coreDispatcher
    obtain ⟨⟨cs', z⟩, hr⟩ := dispatch_no_panic cs y h hf
    obtain ⟨h', hs⟩ := dispatch_sub h hr
    rw [hr]
    simp only [] at h' hs ⊢
    split
    · exact core_no_panic fuel cs' z h' fun c hc => hf c (hs c hc)
    · split
      · simp
      · exact core_no_panic fuel cs' _ (h'.world _) fun c hc => hf c (hs c hc)
      · simp

theorem build_no_panic {dbg : Bool} {dflt : Nat → V} : ∀ (bs : List (Build V W)) (k : Storage V × List (Ready V W)),
    Built k.1 k.2 → (∀ c ∈ comps bs, Compatible c.params) → ∃ k', build dbg dflt bs k = .ok k'
  | [], k, _, _ => ⟨k, rfl⟩
  | b :: bs, k, h, hc => by
    have : ∃ k', b.step dbg dflt k = .ok k' := by
      cases b with
      | component front c =>
        have hr := reg_initAll (dbg := dbg) (dflt := dflt) c.params ⟨k.1, .new⟩ [] h.wf (AInv.new _)
        have hcc : Compatible c.params := hc c (by simp [comps])
        obtain ⟨q, hq⟩ := hr.ok ⟨hcc, by simp⟩
        simp only [Build.step, insertComponent]
        cases hi : initAll dbg dflt ⟨k.1, .new⟩ c.params with
        | ok r => exact ⟨_, rfl⟩
        | err x => rw [hi] at hq; cases hq
        | panic => rw [hi] at hq; cases hq
      | config t v => exact ⟨_, rfl⟩
      | service ts v => exact ⟨_, rfl⟩
    obtain ⟨k', hk'⟩ := this
    unfold build
    rw [hk']
    refine build_no_panic bs k' (step_built h hk').1 fun c hcm => hc c ?_
    cases b with
    | component front d => show c ∈ d :: comps bs; simp [hcm]
    | config => exact hcm
    | service => exact hcm

/-- **C50, no panic.** If no component has conflicting parameters or tuples inside its parameter list (and, in a
debug build, none returns an error), booting never panics, whatever the components do. (`_partial`: a nested
tuple can panic, see `nested_service_panics`.) -/
theorem boot_no_panic_partial {dbg : Bool} {dflt : Nat → V} {drv : Drivers W} {fuel : Nat} {bs : List (Build V W)}
    {hobs : List (Nat × (Nat → V))} {w : W} (hf : ∀ c ∈ comps bs, c.Fine dbg) :
    boot dbg dflt drv fuel bs hobs w ≠ .panic := by
  unfold boot
  have hb0 : Built (Storage.new : Storage V) ([] : List (Ready V W)) := ⟨WF.new, by simp, rfl⟩
  obtain ⟨k, hb⟩ := build_no_panic (dbg := dbg) (dflt := dflt) bs (Storage.new, []) hb0 fun c hc => (hf c hc).compat
  obtain ⟨hk, hp⟩ := build_built (k := (Storage.new, ([] : List (Ready V W)))) hb0 hb
  rw [hb]
  simp only [start]
  have hfine : ∀ c ∈ k.2, c.comp.Fine dbg := by
    intro c hc
    have := placed_perm bs []
    rw [List.nil_append] at this
    have hp' : (k.2.map (·.comp)).Perm (comps bs) := by rw [hp]; exact this
    exact hf _ (mem_comps hp' hc)
  have h1 : WF { k.1 with bootInit := true, runtimeInit := true } := hk.wf.same rfl rfl rfl rfl rfl rfl
  obtain ⟨h2, x2, _⟩ := parseHobs_ok hobs h1
  have x1 : Ext k.1 { k.1 with bootInit := true, runtimeInit := true } :=
    ⟨fun _ _ h => h, fun _ _ h => h, fun _ _ h => h⟩
  have s2 : Sound k.2 (⟨parseHobs { k.1 with bootInit := true, runtimeInit := true } hobs, w, []⟩ : Sys V W) :=
    ⟨h2, fun c hc => ((hk.ok c hc).mono x1).mono x2⟩
  have n1 := core_no_panic (drv := drv) fuel k.2 _ s2 hfine
  cases hr : coreDispatcher dbg drv fuel
      (⟨parseHobs { k.1 with bootInit := true, runtimeInit := true } hobs, w, []⟩ : Sys V W) k.2 with
  | panic => exact absurd hr n1
  | err x => simp
  | ok q =>
    obtain ⟨cs, z⟩ := q
    obtain ⟨a, _, b, _⟩ := core_spec (P := fun _ => True) (fun _ _ _ _ _ _ _ _ => trivial) (fun _ _ _ => trivial)
      s2 trivial (fun _ h => h) hr
    obtain ⟨l1, l2⟩ := lockConfigs_spec a.wf
    have s3 : Sound cs { z with s := z.s.lockConfigs } := ⟨l1, fun c hc => (a.ok c (b c hc)).mono l2⟩
    exact core_no_panic fuel cs _ s3 fun c hc => hfine c (b c hc)

/-- The example of `Props.lean` meets the conditions. -/
example : ∀ c ∈ comps exampleBuild, c.Fine true := by
  intro c hc
  refine ⟨?_, ?_, fun _ => ?_⟩ <;> revert c <;>
    simp [comps, exampleBuild, Param.Flat, Compatible, paramLeaves, Param.leaves, Conflict]

/-- Accepted and rejected parameter lists. -/
example : Compatible [.config 1, .opt (.config 1), .configMut 2, .commands, .service 3] ∧
    ¬ Compatible [.opt (.config 1), .configMut 1] ∧ ¬ Compatible [.tuple [.commands], .commands] := by
  simp [Compatible, paramLeaves, Param.leaves, Conflict]

/-- In a release build the conflict is not reported but panics when the component runs: here once the
configuration is unlocked, the mutable parameter is handed out and the optional one is looked at. -/
theorem release_conflict_panics :
    boot false (fun _ => 0) (fun w => (some false, w)) 9
      ([.component false ⟨1, [.configMut 5, .opt (.config 5)], fun w _ => (w, [], true)⟩] : List (Build Nat Nat)) [] 0 =
    .panic := rfl

/-- `&mut Storage` together with `Commands` or with a HOB is accepted, although both then refer to the same
storage. -/
theorem storage_mut_aliases_accepted : Compatible [.storageMut, .commands] ∧ Compatible [.storageMut, .hob 1 2] := by
  simp [Compatible, paramLeaves, Param.leaves, Conflict]

end Verif.Component
