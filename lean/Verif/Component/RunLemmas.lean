import Verif.Component.ParamLemmas
/-! What running one component does. -/
namespace Verif.Component
variable {V W : Type}
open Storage

/-- A handed configuration carries the index of its type. -/
def Item.Reg (s : Storage V) : Item V → Prop
  | .config t id _ => mget s.configIdx t = some id
  | .configMut t id _ => mget s.configIdx t = some id
  | _ => True

theorem Item.Reg.mono {s s' : Storage V} (e : Ext s s') {i : Item V} (h : i.Reg s) : i.Reg s' := by
  cases i <;> first | exact e.ce _ _ h | trivial

mutual
theorem get_reg {s : Storage V} : ∀ (p : PState) (b : Borrows) (r : Item V × Borrows), p.Good s →
    p.get s b = .ok r → ∀ x ∈ r.1.leaves, x.Reg s
  | .config t id, b, r, hg, e, x, hx => by
    simp only [PState.get] at e
    cases hr : rawConfig s b id with
    | ok c =>
      rw [hr] at e; injection e with e; subst e
      simp only [Item.leaves, List.mem_singleton] at hx; subst hx; exact hg
    | err _ => rw [hr] at e; cases e
    | panic => rw [hr] at e; cases e
  | .configMut t id, b, r, hg, e, x, hx => by
    simp only [PState.get] at e
    cases hr : rawConfigMut s b id with
    | ok c =>
      rw [hr] at e; injection e with e; subst e
      simp only [Item.leaves, List.mem_singleton] at hx; subst hx; exact hg
    | err _ => rw [hr] at e; cases e
    | panic => rw [hr] at e; cases e
  | .service t id, b, r, hg, e, x, hx => by
    simp only [PState.get] at e
    cases hr : sget s.services id with
    | some c =>
      rw [hr] at e; injection e with e; subst e
      simp only [Item.leaves, List.mem_singleton] at hx; subst hx; trivial
    | none => rw [hr] at e; cases e
  | .hob g t id, b, r, hg, e, x, hx => by
    simp only [PState.get] at e
    cases hr : rawHob s id with
    | ok c =>
      rw [hr] at e; injection e with e; subst e
      simp only [Item.leaves, List.mem_singleton] at hx; subst hx; trivial
    | err _ => rw [hr] at e; cases e
    | panic => rw [hr] at e; cases e
  | .commands, b, r, hg, e, x, hx => by
    simp only [PState.get] at e; injection e with e; subst e
    simp only [Item.leaves, List.mem_singleton] at hx; subst hx; trivial
  | .bootServices, b, r, hg, e, x, hx => by
    simp only [PState.get] at e; injection e with e; subst e
    simp only [Item.leaves, List.mem_singleton] at hx; subst hx; trivial
  | .runtimeServices, b, r, hg, e, x, hx => by
    simp only [PState.get] at e; injection e with e; subst e
    simp only [Item.leaves, List.mem_singleton] at hx; subst hx; trivial
  | .storage, b, r, hg, e, x, hx => by
    simp only [PState.get] at e; injection e with e; subst e
    simp only [Item.leaves, List.mem_singleton] at hx; subst hx; trivial
  | .storageMut, b, r, hg, e, x, hx => by
    simp only [PState.get] at e; injection e with e; subst e
    simp only [Item.leaves, List.mem_singleton] at hx; subst hx; trivial
  | .opt p, b, r, hg, e, x, hx => by
    simp only [PState.get] at e
    cases hv : p.validate s b with
    | ok v =>
      rw [hv] at e
      cases v with
      | false => injection e with e; subst e; simp [Item.leaves] at hx
      | true =>
        simp only [] at e
        cases hr : p.get s b with
        | ok q =>
          rw [hr] at e; injection e with e; subst e
          simp only [Item.leaves] at hx
          exact get_reg p b q hg hr x hx
        | err _ => rw [hr] at e; cases e
        | panic => rw [hr] at e; cases e
    | err _ => rw [hv] at e; cases e
    | panic => rw [hv] at e; cases e
  | .tuple ps, b, r, hg, e, x, hx => by
    simp only [PState.get] at e
    cases hr : getAll s b ps with
    | ok q =>
      rw [hr] at e; injection e with e; subst e
      simp only [Item.leaves] at hx
      exact getAll_reg ps b q hg hr x hx
    | err _ => rw [hr] at e; cases e
    | panic => rw [hr] at e; cases e
theorem getAll_reg {s : Storage V} : ∀ (ps : List PState) (b : Borrows) (r : List (Item V) × Borrows),
    GoodAll s ps → getAll s b ps = .ok r → ∀ x ∈ leavesAll r.1, x.Reg s
  | [], b, r, _, e, x, hx => by
    simp only [getAll] at e; injection e with e; subst e; simp [leavesAll] at hx
  | p :: ps, b, r, hg, e, x, hx => by
    simp only [getAll] at e
    cases hp : p.get s b with
    | ok q =>
      rw [hp] at e
      simp only [Outcome.ok_bind] at e
      cases hq : getAll s q.2 ps with
      | ok q2 =>
        rw [hq] at e; injection e with e; subst e
        simp only [leavesAll] at hx
        rcases List.mem_append.1 hx with hx | hx
        · exact get_reg p b q hg.1 hp x hx
        · exact getAll_reg ps q.2 q2 hg.2 hq x hx
      | err _ => rw [hq] at e; cases e
      | panic => rw [hq] at e; cases e
    | err _ => rw [hp] at e; cases e
    | panic => rw [hp] at e; cases e
end

/-- What never happens to a storage: an index changes, something disappears, a lock is opened. -/
structure Grow (s s' : Storage V) : Prop where
  wf : WF s'
  ext : Ext s s'
  lock : ∀ t c, s.cfg t = some c → c.locked = true → ∃ d, s'.cfg t = some d ∧ d.locked = true
  svc : ∀ t b, s.svc t = some b → ∃ d, s'.svc t = some d
  hob : s'.hob = s.hob
  flags : s'.bootInit = s.bootInit ∧ s'.runtimeInit = s.runtimeInit

theorem Grow.refl {s : Storage V} (h : WF s) : Grow s s :=
  ⟨h, .refl _, fun _ c hc hl => ⟨c, hc, hl⟩, fun _ b hb => ⟨b, hb⟩, rfl, rfl, rfl⟩

theorem Grow.trans {a b c : Storage V} (h : Grow a b) (k : Grow b c) : Grow a c :=
  ⟨k.wf, h.ext.trans k.ext,
    fun t x hx hl => by obtain ⟨y, hy, hl⟩ := h.lock t x hx hl; exact k.lock t y hy hl,
    fun t x hx => by obtain ⟨y, hy⟩ := h.svc t x hx; exact k.svc t y hy,
    k.hob.trans h.hob, k.flags.1.trans h.flags.1, k.flags.2.trans h.flags.2⟩

/-- Only the configuration cell of one type is changed. -/
theorem grow_mod {s : Storage V} (h : WF s) {t i : Nat} (ht : mget s.configIdx t = some i)
    (f : Cfg V → Cfg V) (hf : ∀ c, (f c).ty = c.ty) (hl : ∀ c, c.locked = true → (f c).locked = true) :
    Grow s { s with configs := smodify s.configs i f } := by
  obtain ⟨a, b⟩ := modConfig h ht f hf
  refine ⟨a, ⟨fun _ _ h => h, fun _ _ h => h, fun _ _ h => h⟩, ?_, fun t b hb => ⟨b, hb⟩, rfl, rfl, rfl⟩
  intro u c hc hlc
  rw [b]
  by_cases e : u = t
  · subst e; rw [if_pos rfl, hc]; exact ⟨f c, rfl, hl c hlc⟩
  · rw [if_neg e]; exact ⟨c, hc, hlc⟩

theorem grow_addConfig {s : Storage V} (h : WF s) (t : Nat) (v : V) : Grow s (s.addConfig t v) := by
  obtain ⟨a, b, c⟩ := addConfig_spec h t v
  refine ⟨a, b, ?_, fun t b hb => ⟨b, hb⟩, rfl, rfl, rfl⟩
  intro u d hd hl
  rw [c]
  by_cases e : u = t
  · rw [if_pos e]; exact ⟨_, rfl, rfl⟩
  · rw [if_neg e]; exact ⟨d, hd, hl⟩

theorem addService_flags (ts : List Nat) (v : V) : ∀ (s : Storage V), (s.addService ts v).bootInit = s.bootInit ∧
    (s.addService ts v).runtimeInit = s.runtimeInit ∧ (s.addService ts v).deferred = s.deferred ∧
    (s.addService ts v).parsers = s.parsers := by
  induction ts with
  | nil => exact fun s => ⟨rfl, rfl, rfl, rfl⟩
  | cons t ts ih =>
    intro s
    obtain ⟨a, b, c, d⟩ := ih (s.registerService t ⟨t, v⟩)
    exact ⟨a, b, c, d⟩

theorem addService_cfg {s : Storage V} (h : WF s) (ts : List Nat) (v : V) : (s.addService ts v).cfg = s.cfg := by
  obtain ⟨_, _, c, d, _, _, _⟩ := addService_spec h ts v
  funext u; simp only [cfg, c, d]

theorem grow_addService {s : Storage V} (h : WF s) (ts : List Nat) (v : V) : Grow s (s.addService ts v) := by
  obtain ⟨a, b, c, d, e, f, g⟩ := addService_spec h ts v
  obtain ⟨f1, f2, _⟩ := addService_flags ts v s
  have hh : (s.addService ts v).hob = s.hob := by funext u; simp only [Storage.hob, e, f]
  refine ⟨a, b, ?_, ?_, hh, f1, f2⟩
  · intro t c hc hl; rw [addService_cfg h]; exact ⟨c, hc, hl⟩
  · intro t x hx
    rw [g]
    split
    · exact ⟨_, rfl⟩
    · exact ⟨x, hx⟩

theorem grow_exec {s : Storage V} (h : WF s) : ∀ c : Cmd V, Grow s (s.exec c)
  | .addConfig t v => grow_addConfig h t v
  | .addService ts v => grow_addService h ts v

theorem exec_deferred {s : Storage V} : ∀ c : Cmd V, (s.exec c).deferred = s.deferred
  | .addConfig _ _ => rfl
  | .addService ts v => (addService_flags ts v s).2.2.1

theorem grow_execs : ∀ (l : List (Cmd V)) {s : Storage V}, WF s → Grow s (l.foldl exec s)
  | [], _, h => .refl h
  | c :: l, s, h => (grow_exec h c).trans (grow_execs l (grow_exec h c).wf)

theorem execs_deferred : ∀ (l : List (Cmd V)) {s : Storage V}, (l.foldl exec s).deferred = s.deferred
  | [], _ => rfl
  | c :: l, s => by rw [List.foldl_cons, execs_deferred l, exec_deferred]

theorem grow_applyDeferred {s : Storage V} (h : WF s) : Grow s s.applyDeferred := by
  have h' : WF { s with deferred := [] } := h.same rfl rfl rfl rfl rfl rfl
  have g : Grow s { s with deferred := [] } :=
    ⟨h', ⟨fun _ _ h => h, fun _ _ h => h, fun _ _ h => h⟩, fun _ c hc hl => ⟨c, hc, hl⟩, fun _ b hb => ⟨b, hb⟩, rfl, rfl, rfl⟩
  exact g.trans (grow_execs s.deferred h')

theorem applyDeferred_empty (s : Storage V) : s.applyDeferred.deferred = [] := execs_deferred _

theorem applyDeferred_of_empty {s : Storage V} (h : s.deferred = []) : s.applyDeferred = s := by
  unfold applyDeferred
  rw [h]
  obtain ⟨c, ci, sv, si, p, hb, hi, d, b, r⟩ := s
  simp only at h
  subst h; rfl

theorem applyDeferred_idem (s : Storage V) : s.applyDeferred.applyDeferred = s.applyDeferred :=
  applyDeferred_of_empty (applyDeferred_empty s)

theorem grow_lockAll {s : Storage V} (h : WF s) : Grow s s.lockConfigs := by
  obtain ⟨a, b⟩ := lockConfigs_spec h
  refine ⟨a, b, ?_, fun _ b hb => ⟨b, hb⟩, rfl, rfl, rfl⟩
  intro t c hc _
  rw [lockConfigs_cfg, hc]; exact ⟨_, rfl, rfl⟩

theorem mem_any {items : List (Item V)} {f : Item V → Bool} (h : (leavesAll items).any f = true) :
    ∃ x ∈ leavesAll items, f x = true := List.any_eq_true.1 h

theorem mutOf {items : List (Item V)} {s : Storage V} (hr : ∀ x ∈ leavesAll items, x.Reg s) {id : Nat}
    (h : (leavesAll items).any (isMutOf id) = true) :
    ∃ t c, Item.configMut t id c ∈ leavesAll items ∧ mget s.configIdx t = some id := by
  obtain ⟨x, hx, he⟩ := mem_any h
  cases x with
  | configMut t i c =>
    simp only [isMutOf, beq_iff_eq] at he; subst he
    exact ⟨t, c, hx, hr _ hx⟩
  | _ => cases he

theorem grow_perform {s : Storage V} (h : WF s) {items : List (Item V)} (hr : ∀ x ∈ leavesAll items, x.Reg s)
    {a : Act V} (ha : a.allowed items = true) : Grow s (a.perform s) := by
  cases a with
  | set id v =>
    obtain ⟨t, _, _, ht⟩ := mutOf hr ha
    exact grow_mod h ht _ (fun _ => rfl) (fun _ h => h)
  | lock id =>
    obtain ⟨t, _, _, ht⟩ := mutOf hr ha
    exact grow_mod h ht _ (fun _ => rfl) (fun _ _ => rfl)
  | queue c =>
    exact ⟨h.same rfl rfl rfl rfl rfl rfl, ⟨fun _ _ h => h, fun _ _ h => h, fun _ _ h => h⟩, fun _ c hc hl => ⟨c, hc, hl⟩,
      fun _ b hb => ⟨b, hb⟩, rfl, rfl, rfl⟩
  | exec c => exact grow_exec h c
  | setDirect t v =>
    simp only [Act.perform, onConfig]
    cases hm : mget s.configIdx t with
    | none => exact .refl h
    | some id => exact grow_mod h hm _ (fun _ => rfl) (fun _ h => h)
  | lockDirect t =>
    simp only [Act.perform, onConfig]
    cases hm : mget s.configIdx t with
    | none => exact .refl h
    | some id => exact grow_mod h hm _ (fun _ => rfl) (fun _ _ => rfl)
  | lockAll => exact grow_lockAll h

theorem grow_acts {items : List (Item V)} : ∀ (as : List (Act V)) {s : Storage V}, WF s →
    (∀ x ∈ leavesAll items, x.Reg s) → (∀ a ∈ as, a.allowed items = true) → Grow s (as.foldl Act.perform s)
  | [], _, h, _, _ => .refl h
  | a :: as, s, h, hr, ha => by
    have g := grow_perform h hr (ha a (by simp))
    exact g.trans (grow_acts as g.wf (fun x hx => (hr x hx).mono g.ext) (fun b hb => ha b (by simp [hb])))

theorem grow_performAll {s : Storage V} (h : WF s) {items : List (Item V)}
    (hr : ∀ x ∈ leavesAll items, x.Reg s) (acts : List (Act V)) : Grow s (performAll items s acts) :=
  grow_acts _ h hr fun _ ha => (List.mem_filter.1 ha).2

/-- Running a component: either it is not available and nothing happens but the queue being executed, or it is
called. -/
inductive RunCase (c : Ready V W) (y : Sys V W) : Option Bool → Sys V W → Prop where
  | wait (p : Param) (hp : p ∈ c.comp.params) (hn : ¬ Available y.s.applyDeferred p) :
    RunCase c y (some false) { y with s := y.s.applyDeferred }
  | go (items : List (Item V)) (b : Borrows)
    (hget : getAll y.s.applyDeferred ⟨[], []⟩ c.state = .ok (items, b))
    (hav : (∀ p ∈ c.comp.params, p.Flat) → ∀ p ∈ c.comp.params, Available y.s.applyDeferred p) :
    RunCase c y (if (c.comp.code y.w items).2.2 then some true else none)
      ⟨performAll items y.s.applyDeferred (c.comp.code y.w items).2.1, (c.comp.code y.w items).1,
        y.log ++ [⟨c.comp.name, y.s.applyDeferred, items⟩]⟩

/-- The component's state is what `initialize` made of its parameters. -/
structure Ready.Ok (s : Storage V) (c : Ready V W) : Prop where
  good : GoodAll s c.state
  params : eraseAll c.state = c.comp.params

theorem Ready.Ok.mono {s s' : Storage V} (e : Ext s s') {c : Ready V W} (h : c.Ok s) : c.Ok s' :=
  ⟨h.good.mono e, h.params⟩

theorem run_case {c : Ready V W} {y : Sys V W} (h : WF y.s) (hc : c.Ok y.s) {r : Option Bool × Sys V W}
    (e : c.run y = .ok r) : RunCase c y r.1 r.2 := by
  have g := grow_applyDeferred h
  obtain ⟨v, hv, h1, h2⟩ := validateAll_ok g.wf c.state (hc.good.mono g.ext)
  rw [hc.params] at h1 h2
  unfold Ready.run at e
  simp only [hv] at e
  cases v with
  | false =>
    injection e with e; subst e
    obtain ⟨p, hp, hn⟩ := h1 rfl
    exact .wait p hp hn
  | true =>
    simp only [] at e
    cases hg : getAll y.s.applyDeferred ⟨[], []⟩ c.state with
    | ok q =>
      rw [hg] at e
      injection e with e; subst e
      exact .go q.1 q.2 hg (fun hf => h2 hf rfl)
    | err _ => rw [hg] at e; cases e
    | panic => rw [hg] at e; cases e

theorem RunCase.grow {c : Ready V W} {y z : Sys V W} {o : Option Bool} (h : WF y.s) (hc : c.Ok y.s)
    (k : RunCase c y o z) : Grow y.s z.s := by
  cases k with
  | wait => exact grow_applyDeferred h
  | go items b hget =>
    have g := grow_applyDeferred h
    exact g.trans (grow_performAll g.wf (getAll_reg c.state _ (items, b) (hc.good.mono g.ext) hget) _)

/-! ### Nothing here returns an error -/

/-- Not an error value. -/
def NoErr {α : Type} (r : Outcome EfiError α) : Prop := ∀ x, r ≠ .err x

theorem NoErr.bind {α β : Type} {r : Outcome EfiError α} {f : α → Outcome EfiError β} (h : NoErr r)
    (k : ∀ a, r = .ok a → NoErr (f a)) : NoErr (r >>= f) := by
  cases r with
  | ok a => exact k a rfl
  | err e => exact absurd rfl (h e)
  | panic => exact fun x hx => by cases hx

theorem noErr_ok {α : Type} (a : α) : NoErr (.ok a : Outcome EfiError α) := fun _ h => by cases h

theorem noErr_assert {α : Type} (dbg c : Bool) (a : α) : NoErr (assertThen dbg c a) := by
  unfold assertThen NoErr; split <;> simp

mutual
theorem noErr_init (dbg : Bool) (dflt : Nat → V) : ∀ (i : Init V) (p : Param), NoErr (Param.init dbg dflt i p)
  | i, .config t => by unfold Param.init; exact noErr_assert _ _ _
  | i, .configMut t => by unfold Param.init; exact noErr_assert _ _ _
  | i, .service t => by unfold Param.init; exact noErr_ok _
  | i, .hob g t => by unfold Param.init; exact noErr_ok _
  | i, .commands => by unfold Param.init; exact noErr_assert _ _ _
  | i, .bootServices => by unfold Param.init; exact noErr_ok _
  | i, .runtimeServices => by unfold Param.init; exact noErr_ok _
  | i, .storage => by unfold Param.init; exact noErr_assert _ _ _
  | i, .storageMut => by unfold Param.init; exact noErr_assert _ _ _
  | i, .opt p => by
    unfold Param.init
    cases h : Param.init dbg dflt i p with
    | ok r => exact noErr_ok _
    | err x => exact absurd h (noErr_init dbg dflt i p x)
    | panic => exact fun x hx => by cases hx
  | i, .tuple ps => by
    unfold Param.init
    cases h : initAll dbg dflt i ps with
    | ok r => exact noErr_ok _
    | err x => exact absurd h (noErr_initAll dbg dflt i ps x)
    | panic => exact fun x hx => by cases hx
theorem noErr_initAll (dbg : Bool) (dflt : Nat → V) : ∀ (i : Init V) (ps : List Param), NoErr (initAll dbg dflt i ps)
  | i, [] => by unfold initAll; exact noErr_ok _
  | i, p :: ps => by
    unfold initAll
    cases h : Param.init dbg dflt i p with
    | ok r =>
      simp only []
      cases h' : initAll dbg dflt r.2 ps with
      | ok r => exact noErr_ok _
      | err x => exact absurd h' (noErr_initAll dbg dflt r.2 ps x)
      | panic => exact fun x hx => by cases hx
    | err x => exact absurd h (noErr_init dbg dflt i p x)
    | panic => exact fun x hx => by cases hx
end

theorem noErr_rawConfig (s : Storage V) (b : Borrows) (id : Nat) : NoErr (rawConfig s b id) := by
  unfold rawConfig NoErr; split
  · simp
  · split <;> simp

theorem noErr_rawConfigMut (s : Storage V) (b : Borrows) (id : Nat) : NoErr (rawConfigMut s b id) := by
  unfold rawConfigMut NoErr; split
  · simp
  · split <;> simp

theorem noErr_rawHob (s : Storage V) (id : Nat) : NoErr (rawHob s id) := by
  unfold rawHob NoErr; split <;> simp

theorem noErr_validate (s : Storage V) (b : Borrows) (p : PState) : NoErr (p.validate s b) := by
  cases p with
  | config t id => exact (noErr_rawConfig s b id).bind fun _ _ => noErr_ok _
  | configMut t id => exact (noErr_rawConfig s b id).bind fun _ _ => noErr_ok _
  | hob g t id => exact (noErr_rawHob s id).bind fun _ _ => noErr_ok _
  | _ => exact noErr_ok _

mutual
theorem noErr_get (s : Storage V) : ∀ (p : PState) (b : Borrows), NoErr (p.get s b)
  | .config t id, b => by unfold PState.get; exact (noErr_rawConfig s b id).bind fun _ _ => noErr_ok _
  | .configMut t id, b => by unfold PState.get; exact (noErr_rawConfigMut s b id).bind fun _ _ => noErr_ok _
  | .service t id, b => by unfold PState.get NoErr; split <;> simp
  | .hob g t id, b => by unfold PState.get; exact (noErr_rawHob s id).bind fun _ _ => noErr_ok _
  | .commands, b => by unfold PState.get; exact noErr_ok _
  | .bootServices, b => by unfold PState.get; exact noErr_ok _
  | .runtimeServices, b => by unfold PState.get; exact noErr_ok _
  | .storage, b => by unfold PState.get; exact noErr_ok _
  | .storageMut, b => by unfold PState.get; exact noErr_ok _
  | .opt p, b => by
    unfold PState.get
    cases hv : p.validate s b with
    | ok v =>
      cases v with
      | true => exact (noErr_get s p b).bind fun _ _ => noErr_ok _
      | false => exact noErr_ok _
    | err e => exact absurd hv (noErr_validate s b p e)
    | panic => exact fun x hx => by cases hx
  | .tuple ps, b => by unfold PState.get; exact (noErr_getAll s ps b).bind fun _ _ => noErr_ok _
theorem noErr_getAll (s : Storage V) : ∀ (ps : List PState) (b : Borrows), NoErr (getAll s b ps)
  | [], b => by unfold getAll; exact noErr_ok _
  | p :: ps, b => by
    unfold getAll
    exact (noErr_get s p b).bind fun r _ => (noErr_getAll s ps r.2).bind fun _ _ => noErr_ok _
end

theorem noErr_validateAll (s : Storage V) (b : Borrows) : ∀ ps : List PState, NoErr (validateAll s b ps)
  | [] => noErr_ok _
  | p :: ps => by
    unfold validateAll
    cases hv : p.validate s b with
    | ok v =>
      cases v with
      | true => exact noErr_validateAll s b ps
      | false => exact noErr_ok _
    | err e => exact absurd hv (noErr_validate s b p e)
    | panic => exact fun x hx => by cases hx

theorem noErr_run (c : Ready V W) (y : Sys V W) : NoErr (c.run y) := by
  unfold Ready.run
  simp only []
  cases hv : validateAll y.s.applyDeferred ⟨[], []⟩ c.state with
  | ok v =>
    cases v with
    | true =>
      simp only []
      cases hg : getAll y.s.applyDeferred ⟨[], []⟩ c.state with
      | ok r => exact noErr_ok _
      | err e => exact absurd hg (noErr_getAll _ _ _ e)
      | panic => exact fun x hx => by cases hx
    | false => exact noErr_ok _
  | err e => exact absurd hv (noErr_validateAll _ _ _ e)
  | panic => exact fun x hx => by cases hx

theorem noErr_dispatch (dbg : Bool) : ∀ (cs : List (Ready V W)) (y : Sys V W), NoErr (dispatchComponents dbg y cs)
  | [], y => by unfold dispatchComponents; exact noErr_ok _
  | c :: cs, y => by
    unfold dispatchComponents
    cases hr : c.run y with
    | ok r =>
      obtain ⟨o, z⟩ := r
      cases o with
      | none =>
        simp only []
        cases dbg with
        | true => exact fun x hx => by cases hx
        | false => exact noErr_dispatch false cs z
      | some b =>
        cases b with
        | true => exact noErr_dispatch dbg cs z
        | false =>
          simp only []
          have := noErr_dispatch dbg cs z
          cases hd : dispatchComponents dbg z cs with
          | ok r => exact noErr_ok _
          | err e => exact absurd hd (this e)
          | panic => exact fun x hx => by cases hx
    | err e => exact absurd hr (noErr_run _ _ e)
    | panic => exact fun x hx => by cases hx

end Verif.Component
