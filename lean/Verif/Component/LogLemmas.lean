import Verif.Component.Dispatch
/-! Invariants of the record of runs. -/
namespace Verif.Component
variable {V W : Type}
open Storage

/-- What a record says: whose it is, and that this component's parameters were available and handed over. -/
def RanOk (all : List (Ready V W)) (r : Ran V) : Prop :=
  ∃ c ∈ all, c.comp.name = r.name ∧ WF r.store ∧ ((∀ p ∈ c.comp.params, p.Flat) →
    (∀ p ∈ c.comp.params, Available r.store p) ∧ ∀ x ∈ leavesAll r.items, x.Fits r.store (paramLeaves c.comp.params))

theorem go_fits {c : Ready V W} {y : Sys V W} (h : WF y.s) (hc : c.Ok y.s) {items : List (Item V)} {b : Borrows}
    (hget : getAll y.s.applyDeferred ⟨[], []⟩ c.state = .ok (items, b))
    (hf : ∀ p ∈ c.comp.params, p.Flat) (ha : ∀ p ∈ c.comp.params, Available y.s.applyDeferred p) :
    ∀ x ∈ leavesAll items, x.Fits y.s.applyDeferred (paramLeaves c.comp.params) := by
  have g := grow_applyDeferred h
  have := getAll_fits g.wf c.state ⟨[], []⟩ (items, b) (hc.good.mono g.ext)
    (by rw [hc.params]; exact hf) (by rw [hc.params]; exact ha) hget
  rw [hc.params] at this
  exact this

theorem log_ok (all : List (Ready V W)) : Inv all fun y => ∀ r ∈ y.log, RanOk all r := by
  intro c hc y z o h p k
  cases k with
  | wait => exact p
  | go items b hget hav =>
    intro r hr
    rcases List.mem_append.1 hr with hr | hr
    · exact p r hr
    · rw [List.mem_singleton] at hr; subst hr
      exact ⟨c, hc, rfl, (grow_applyDeferred h.wf).wf, fun hf => ⟨hav hf, go_fits h.wf (h.ok c hc) hget hf (hav hf)⟩⟩

/-- The configuration of this type is locked. -/
def Locked (s : Storage V) (t : Nat) : Prop := ∃ c, s.cfg t = some c ∧ c.locked = true

theorem Locked.grow {s s' : Storage V} (g : Grow s s') {t : Nat} : Locked s t → Locked s' t
  | ⟨c, hc, hl⟩ => g.lock t c hc hl

/-- The locks are in order: what is locked for one run is locked for every later one. -/
def LockOrder (t : Nat) (y : Sys V W) : Prop :=
  y.log.Pairwise (fun a b => Locked a.store t → Locked b.store t) ∧ ∀ r ∈ y.log, Locked r.store t → Locked y.s t

theorem lock_order (all : List (Ready V W)) (t : Nat) : Inv all (LockOrder t) := by
  intro c hc y z o h p k
  have g := k.grow h.wf (h.ok c hc)
  have ga := grow_applyDeferred h.wf
  cases k with
  | wait => exact ⟨p.1, fun r hr hl => (p.2 r hr hl).grow ga⟩
  | go items b hget hav =>
    refine ⟨?_, ?_⟩
    · rw [List.pairwise_append]
      refine ⟨p.1, List.pairwise_singleton _ _, ?_⟩
      intro a ha b hb hl
      rw [List.mem_singleton] at hb; subst hb
      exact (p.2 a ha hl).grow ga
    · intro r hr hl
      rcases List.mem_append.1 hr with hr | hr
      · exact (p.2 r hr hl).grow g
      · rw [List.mem_singleton] at hr; subst hr
        exact hl.grow (grow_performAll ga.wf (getAll_reg c.state _ (items, b) ((h.ok c hc).good.mono ga.ext) hget) _)

/-! ### The value of a locked configuration -/

/-- The command does not set the configuration `t`. -/
def Cmd.spares (t : Nat) : Cmd V → Prop
  | .addConfig u _ => u ≠ t
  | .addService _ _ => True

/-- The component's code never asks for the configuration `t` to be replaced by a queued command. -/
def Comp.Spares (t : Nat) (c : Comp V W) : Prop :=
  ∀ w items, ∀ cmd, Act.queue cmd ∈ (c.code w items).2.1 → cmd.spares t

theorem exec_keeps {s : Storage V} (h : WF s) {t : Nat} {c : Cmd V} (hc : c.spares t) : (s.exec c).cfg t = s.cfg t := by
  cases c with
  | addConfig u v =>
    show (s.addConfig u v).cfg t = _
    rw [(addConfig_spec h u v).2.2, if_neg (Ne.symm hc)]
  | addService ts v => show (s.addService ts v).cfg t = _; rw [addService_cfg h]

theorem execs_keep {t : Nat} : ∀ (l : List (Cmd V)) {s : Storage V}, WF s → (∀ c ∈ l, c.spares t) →
    (l.foldl exec s).cfg t = s.cfg t
  | [], _, _, _ => rfl
  | c :: l, s, h, hl => by
    rw [List.foldl_cons, execs_keep l (grow_exec h c).wf (fun d hd => hl d (by simp [hd])), exec_keeps h (hl c (by simp))]

theorem applyDeferred_keeps {s : Storage V} (h : WF s) {t : Nat} (hd : ∀ c ∈ s.deferred, c.spares t) :
    s.applyDeferred.cfg t = s.cfg t :=
  execs_keep s.deferred (s := { s with deferred := [] }) (h.same rfl rfl rfl rfl rfl rfl) hd

/-- What a component holding none of these does to a configuration that is locked when it starts. -/
theorem act_keeps {t : Nat} {s0 s : Storage V} (h : WF s) (e : Ext s0 s) {items : List (Item V)}
    {ps : List Param} (hf : ∀ x ∈ leavesAll items, x.Fits s0 ps) (hn : Param.storageMut ∉ ps)
    {c : Cfg V} (h0 : s0.cfg t = some c) (hl : c.locked = true) (hc : s.cfg t = some c)
    {a : Act V} (ha : a.allowed items = true) : (a.perform s).cfg t = some c := by
  have nosm : (leavesAll items).any isStorageMut = true → False := by
    intro hx
    obtain ⟨x, hx, he⟩ := mem_any hx
    cases x with
    | storageMut s' => exact hn (hf _ hx).1
    | _ => cases he
  have other : ∀ {id}, (leavesAll items).any (isMutOf id) = true → ∃ u, u ≠ t ∧ mget s.configIdx u = some id := by
    intro id hany
    obtain ⟨x, hx, he⟩ := mem_any hany
    cases x with
    | configMut u i d =>
      simp only [isMutOf, beq_iff_eq] at he; subst he
      obtain ⟨_, hm, hd, hu⟩ := hf _ hx
      refine ⟨u, ?_, e.ce _ _ hm⟩
      rintro rfl
      rw [h0] at hd; injection hd with hd; subst hd; rw [hl] at hu; cases hu
    | _ => cases he
  cases a with
  | set id v =>
    obtain ⟨u, hu, hm⟩ := other ha
    show ({ s with configs := smodify s.configs id _ } : Storage V).cfg t = _
    rw [(modConfig h hm (fun c => { c with val := v }) (fun _ => rfl)).2, if_neg (Ne.symm hu), hc]
  | lock id =>
    obtain ⟨u, hu, hm⟩ := other ha
    show ({ s with configs := smodify s.configs id _ } : Storage V).cfg t = _
    rw [(modConfig h hm (fun c => { c with locked := true }) (fun _ => rfl)).2, if_neg (Ne.symm hu), hc]
  | queue => exact hc
  | exec => exact (nosm ha).elim
  | setDirect => exact (nosm ha).elim
  | lockDirect => exact (nosm ha).elim
  | lockAll =>
    show s.lockConfigs.cfg t = _
    rw [lockConfigs_cfg, hc]
    obtain ⟨l, ty, v⟩ := c
    simp only at hl; subst hl; rfl

theorem Fits.reg {s : Storage V} {ps : List Param} {x : Item V} (h : x.Fits s ps) : x.Reg s := by
  cases x with
  | config => exact h.2.1
  | configMut => exact h.2.1
  | _ => trivial

theorem acts_keep {t : Nat} {s0 : Storage V} {items : List (Item V)} {ps : List Param}
    (hf : ∀ x ∈ leavesAll items, x.Fits s0 ps) (hn : Param.storageMut ∉ ps) {c : Cfg V} (h0 : s0.cfg t = some c)
    (hl : c.locked = true) : ∀ (as : List (Act V)) {s : Storage V}, WF s → Ext s0 s → s.cfg t = some c →
    (∀ a ∈ as, a.allowed items = true) → (as.foldl Act.perform s).cfg t = some c
  | [], _, _, _, hc, _ => hc
  | a :: as, s, h, e, hc, ha => by
    have g := grow_perform h (fun x hx => (Fits.reg (hf x hx)).mono e) (ha a (by simp))
    exact acts_keep hf hn h0 hl as g.wf (e.trans g.ext) (act_keeps h e hf hn h0 hl hc (ha a (by simp)))
      (fun b hb => ha b (by simp [hb]))

/-- The queue after the actions: what was there and what they queue. -/
theorem acts_deferred {items : List (Item V)} {P : Cmd V → Prop} (hn : (leavesAll items).any isStorageMut = false) :
    ∀ (as : List (Act V)) {s : Storage V}, (∀ c ∈ s.deferred, P c) → (∀ c, Act.queue c ∈ as → P c) →
    (∀ a ∈ as, a.allowed items = true) → ∀ c ∈ (as.foldl Act.perform s).deferred, P c
  | [], _, h, _, _ => h
  | a :: as, s, h, hq, ha => by
    have step : ∀ c ∈ (a.perform s).deferred, P c := by
      have ha' := ha a (by simp)
      cases a with
      | set => exact h
      | lock => exact h
      | queue c =>
        intro d hd
        rcases List.mem_append.1 hd with hd | hd
        · exact h d hd
        · rw [List.mem_singleton] at hd; subst hd; exact hq _ (by simp)
      | exec => simp only [Act.allowed, hn] at ha'; cases ha'
      | setDirect => simp only [Act.allowed, hn] at ha'; cases ha'
      | lockDirect => simp only [Act.allowed, hn] at ha'; cases ha'
      | lockAll => exact h
    exact acts_deferred hn as step (fun c hc => hq c (by simp [hc])) (fun b hb => ha b (by simp [hb]))

/-- The invariant for C32: everyone who was handed `Config<t>` saw the value it still has. -/
def Observed (t : Nat) (y : Sys V W) : Prop :=
  (∀ c ∈ y.s.deferred, c.spares t) ∧
    ∀ r ∈ y.log, ∀ id c, Item.config t id c ∈ leavesAll r.items → c.locked = true ∧ y.s.cfg t = some c

theorem observed_inv {all : List (Ready V W)} {t : Nat} (hflat : ∀ c ∈ all, ∀ p ∈ c.comp.params, p.Flat)
    (hst : ∀ c ∈ all, Param.storageMut ∉ paramLeaves c.comp.params) (hq : ∀ c ∈ all, c.comp.Spares t) :
    Inv all (Observed t) := by
  intro c hc y z o h p k
  have g := grow_applyDeferred h.wf
  have keep := applyDeferred_keeps h.wf p.1
  cases k with
  | wait =>
    refine ⟨fun d hd => ?_, fun r hr id x hx => ?_⟩
    · rw [applyDeferred_empty] at hd; simp at hd
    · obtain ⟨a, b⟩ := p.2 r hr id x hx
      exact ⟨a, keep.trans b⟩
  | go items b hget hav =>
    have fits := go_fits h.wf (h.ok c hc) hget (hflat c hc) (hav (hflat c hc))
    have hal : ∀ a ∈ (c.comp.code y.w items).2.1.filter (Act.allowed items), a.allowed items = true :=
      fun a ha => (List.mem_filter.1 ha).2
    have nosm : (leavesAll items).any isStorageMut = false := by
      cases hs : (leavesAll items).any isStorageMut with
      | false => rfl
      | true =>
        obtain ⟨x, hx, he⟩ := mem_any hs
        cases x with
        | storageMut s' => exact absurd (fits _ hx).1 (hst c hc)
        | _ => cases he
    refine ⟨?_, ?_⟩
    · refine acts_deferred nosm _ (P := fun d => d.spares t) ?_ ?_ hal
      · rw [applyDeferred_empty]; simp
      · intro d hd
        exact hq c hc _ _ d (List.mem_filter.1 hd).1
    · intro r hr id x hx
      have kp : x.locked = true → y.s.applyDeferred.cfg t = some x →
          (performAll items y.s.applyDeferred (c.comp.code y.w items).2.1).cfg t = some x :=
        fun hl h0 => acts_keep fits (hst c hc) h0 hl _ g.wf (.refl _) h0 hal
      rcases List.mem_append.1 hr with hr | hr
      · obtain ⟨a, b⟩ := p.2 r hr id x hx
        exact ⟨a, kp a (keep.trans b)⟩
      · rw [List.mem_singleton] at hr; subst hr
        obtain ⟨_, _, a, b⟩ := fits _ hx
        exact ⟨b, kp b a⟩

theorem observed_lock {t : Nat} {y : Sys V W} (p : Observed t y) : Observed t { y with s := y.s.lockConfigs } := by
  refine ⟨p.1, fun r hr id c hc => ?_⟩
  obtain ⟨a, b⟩ := p.2 r hr id c hc
  refine ⟨a, ?_⟩
  show y.s.lockConfigs.cfg t = _
  rw [lockConfigs_cfg, b]
  obtain ⟨l, ty, v⟩ := c
  simp only at a; subst a; rfl

end Verif.Component
