import Verif.Component.Spec
/-! Registering, validating and getting parameters. -/
namespace Verif.Component
variable {V : Type}
open Storage

mutual
/-- The parameter a state belongs to. -/
def PState.erase : PState → Param
  | .config t _ => .config t
  | .configMut t _ => .configMut t
  | .service t _ => .service t
  | .hob g t _ => .hob g t
  | .commands => .commands
  | .bootServices => .bootServices
  | .runtimeServices => .runtimeServices
  | .storage => .storage
  | .storageMut => .storageMut
  | .opt p => .opt p.erase
  | .tuple ps => .tuple (eraseAll ps)
def eraseAll : List PState → List Param
  | [] => []
  | p :: ps => p.erase :: eraseAll ps
end

mutual
/-- The indices are those of the types. -/
def PState.Good (s : Storage V) : PState → Prop
  | .config t id => mget s.configIdx t = some id
  | .configMut t id => mget s.configIdx t = some id
  | .service t id => mget s.serviceIdx t = some id
  | .hob _ t id => mget s.hobIdx t = some id
  | .commands => True
  | .bootServices => True
  | .runtimeServices => True
  | .storage => True
  | .storageMut => True
  | .opt p => p.Good s
  | .tuple ps => GoodAll s ps
def GoodAll (s : Storage V) : List PState → Prop
  | [] => True
  | p :: ps => p.Good s ∧ GoodAll s ps
end

mutual
theorem PState.Good.mono {s s' : Storage V} (e : Ext s s') : ∀ {p : PState}, p.Good s → p.Good s'
  | .config _ _, h => e.ce _ _ h
  | .configMut _ _, h => e.ce _ _ h
  | .service _ _, h => e.se _ _ h
  | .hob _ _ _, h => e.he _ _ h
  | .commands, _ => trivial
  | .bootServices, _ => trivial
  | .runtimeServices, _ => trivial
  | .storage, _ => trivial
  | .storageMut, _ => trivial
  | .opt p, h => PState.Good.mono e (p := p) h
  | .tuple ps, h => GoodAll.mono e (ps := ps) h
theorem GoodAll.mono {s s' : Storage V} (e : Ext s s') : ∀ {ps : List PState}, GoodAll s ps → GoodAll s' ps
  | [], _ => trivial
  | p :: ps, h => ⟨PState.Good.mono e (p := p) h.1, GoodAll.mono e (ps := ps) h.2⟩
end

theorem assertThen_ok {α : Type} {dbg c : Bool} {x r : α} (h : assertThen dbg c x = .ok r) :
    x = r ∧ (dbg = true → c = true) := by
  unfold assertThen at h
  cases dbg <;> cases c <;> simp_all

/-- Nothing but the tables changes when a parameter is registered. -/
structure Quiet (s s' : Storage V) : Prop where
  deferred : s'.deferred = s.deferred
  services : s'.services = s.services

theorem Quiet.trans {a b c : Storage V} (h : Quiet a b) (k : Quiet b c) : Quiet a c :=
  ⟨k.deferred.trans h.deferred, k.services.trans h.services⟩

theorem quiet_default (dflt : Nat → V) (s : Storage V) (t : Nat) : Quiet s (s.addConfigDefault dflt t).2 := by
  unfold addConfigDefault; simp only []; split <;> exact ⟨rfl, rfl⟩

/-- What registering a parameter leaves. -/
structure InitOk (s s' : Storage V) : Prop where
  wf : WF s'
  ext : Ext s s'
  quiet : Quiet s s'

mutual
theorem Param.init_ok {dbg : Bool} {dflt : Nat → V} : ∀ {p : Param} {i : Init V} {r : PState × Init V},
    WF i.s → Param.init dbg dflt i p = .ok r → InitOk i.s r.2.s ∧ r.1.erase = p ∧ r.1.Good r.2.s
  | .config t, i, r, h, e => by
    obtain ⟨rfl, _⟩ := assertThen_ok (by simpa only [Param.init] using e)
    obtain ⟨a, b, c, _⟩ := addConfigDefault_spec dflt h t
    exact ⟨⟨a, b, quiet_default _ _ _⟩, rfl, c⟩
  | .configMut t, i, r, h, e => by
    obtain ⟨rfl, _⟩ := assertThen_ok (by simpa only [Param.init] using e)
    obtain ⟨a, b, c, _⟩ := addConfigDefault_spec dflt h t
    obtain ⟨d, _⟩ := modConfig a c (fun c => { c with locked := false }) (fun _ => rfl)
    exact ⟨⟨d, ⟨b.ce, b.se, b.he⟩, ⟨(quiet_default dflt i.s t).deferred, (quiet_default dflt i.s t).services⟩⟩, rfl, c⟩
  | .service t, i, r, h, e => by
    simp only [Param.init] at e
    injection e with e; subst e
    obtain ⟨a, b, _⟩ := entryService_spec h t
    exact ⟨⟨a, b, rfl, rfl⟩, rfl, entry_get _ _⟩
  | .hob g t, i, r, h, e => by
    simp only [Param.init] at e
    injection e with e; subst e
    have h' : WF (i.s.addHobParser g t) := h.same rfl rfl rfl rfl rfl rfl
    obtain ⟨a, b, c, _⟩ := registerHob_spec h' t
    exact ⟨⟨a, ⟨b.ce, b.se, b.he⟩, rfl, rfl⟩, rfl, c⟩
  | .commands, i, r, h, e => by
    obtain ⟨rfl, _⟩ := assertThen_ok (by simpa only [Param.init] using e)
    exact ⟨⟨h, .refl _, rfl, rfl⟩, rfl, trivial⟩
  | .bootServices, i, r, h, e => by
    simp only [Param.init] at e; injection e with e; subst e
    exact ⟨⟨h, .refl _, rfl, rfl⟩, rfl, trivial⟩
  | .runtimeServices, i, r, h, e => by
    simp only [Param.init] at e; injection e with e; subst e
    exact ⟨⟨h, .refl _, rfl, rfl⟩, rfl, trivial⟩
  | .storage, i, r, h, e => by
    obtain ⟨rfl, _⟩ := assertThen_ok (by simpa only [Param.init] using e)
    exact ⟨⟨h, .refl _, rfl, rfl⟩, rfl, trivial⟩
  | .storageMut, i, r, h, e => by
    obtain ⟨rfl, _⟩ := assertThen_ok (by simpa only [Param.init] using e)
    exact ⟨⟨h, .refl _, rfl, rfl⟩, rfl, trivial⟩
  | .opt p, i, r, h, e => by
    simp only [Param.init] at e
    cases hp : Param.init dbg dflt i p with
    | ok q =>
      rw [hp] at e; injection e with e; subst e
      obtain ⟨a, b, c⟩ := Param.init_ok (p := p) h hp
      exact ⟨a, by simp [PState.erase, b], c⟩
    | err _ => rw [hp] at e; cases e
    | panic => rw [hp] at e; cases e
  | .tuple ps, i, r, h, e => by
    simp only [Param.init] at e
    cases hp : initAll dbg dflt i ps with
    | ok q =>
      rw [hp] at e; injection e with e; subst e
      obtain ⟨a, b, c⟩ := initAll_ok (ps := ps) h hp
      exact ⟨a, by simp [PState.erase, b], c⟩
    | err _ => rw [hp] at e; cases e
    | panic => rw [hp] at e; cases e
theorem initAll_ok {dbg : Bool} {dflt : Nat → V} : ∀ {ps : List Param} {i : Init V} {r : List PState × Init V},
    WF i.s → initAll dbg dflt i ps = .ok r → InitOk i.s r.2.s ∧ eraseAll r.1 = ps ∧ GoodAll r.2.s r.1
  | [], i, r, h, e => by
    simp only [initAll] at e; injection e with e; subst e
    exact ⟨⟨h, .refl _, rfl, rfl⟩, rfl, trivial⟩
  | p :: ps, i, r, h, e => by
    simp only [initAll] at e
    cases hp : Param.init dbg dflt i p with
    | ok q =>
      rw [hp] at e
      simp only [] at e
      cases hq : initAll dbg dflt q.2 ps with
      | ok q2 =>
        rw [hq] at e; injection e with e; subst e
        obtain ⟨a, b, c⟩ := Param.init_ok (p := p) h hp
        obtain ⟨a', b', c'⟩ := initAll_ok (ps := ps) a.wf hq
        exact ⟨⟨a'.wf, a.ext.trans a'.ext, a.quiet.trans a'.quiet⟩, by simp [eraseAll, b, b'],
          PState.Good.mono a'.ext c, c'⟩
      | err _ => rw [hq] at e; cases e
      | panic => rw [hq] at e; cases e
    | err _ => rw [hp] at e; cases e
    | panic => rw [hp] at e; cases e
end

/-! ### Validation -/

theorem rawConfig_ok {s : Storage V} (h : WF s) {t id : Nat} (ht : mget s.configIdx t = some id) {b : Borrows}
    (hb : b.excl.contains id = false) : ∃ c, s.cfg t = some c ∧ rawConfig s b id = .ok c := by
  obtain ⟨c, hc⟩ := h.cV t id ht
  have hs : sget s.configs id = some c := by simpa [cfg, look, ht] using hc
  exact ⟨c, hc, by simp [rawConfig, hs]; simpa using hb⟩

theorem rawConfig_some {s : Storage V} {t id : Nat} (ht : mget s.configIdx t = some id) {b : Borrows} {c : Cfg V}
    (hr : rawConfig s b id = .ok c) : s.cfg t = some c := by
  unfold rawConfig at hr
  cases hs : sget s.configs id with
  | none => rw [hs] at hr; cases hr
  | some d =>
    rw [hs] at hr
    simp only [] at hr
    split at hr
    · cases hr
    · injection hr with hr; subst hr; simp [cfg, look, ht, hs]

theorem rawConfigMut_some {s : Storage V} {t id : Nat} (ht : mget s.configIdx t = some id) {b : Borrows} {c : Cfg V}
    (hr : rawConfigMut s b id = .ok c) : s.cfg t = some c := by
  unfold rawConfigMut at hr
  cases hs : sget s.configs id with
  | none => rw [hs] at hr; cases hr
  | some d =>
    rw [hs] at hr
    simp only [] at hr
    split at hr
    · cases hr
    · injection hr with hr; subst hr; simp [cfg, look, ht, hs]

theorem rawHob_ok {s : Storage V} (h : WF s) {t id : Nat} (ht : mget s.hobIdx t = some id) :
    ∃ l, s.hob t = some l ∧ rawHob s id = .ok l := by
  obtain ⟨c, hc⟩ := h.hV t id ht
  have hs : sget s.hobs id = some c := by simpa [Storage.hob, look, ht] using hc
  exact ⟨c, hc, by simp [rawHob, hs]⟩

/-- A parameter that is not a tuple answers `true` exactly when it is available; a tuple always does. -/
theorem validate_ok {s : Storage V} (h : WF s) (b : Borrows) (p : PState) (hp : p.Good s) (v : Bool)
    (hv : p.validate s b = .ok v) :
    (v = false → ¬ Available s p.erase) ∧ (p.erase.Flat → v = true → Available s p.erase) := by
  cases p with
  | config t id =>
    simp only [PState.validate] at hv
    cases hr : rawConfig s b id with
    | ok c =>
      rw [hr] at hv; injection hv with hv
      have hc := rawConfig_some hp hr
      simp only [PState.erase, Available, hc]
      subst hv
      exact ⟨fun e => (by rintro ⟨d, hd, hl⟩; injection hd with hd; subst hd; rw [hl] at e; cases e),
        fun _ e => ⟨c, rfl, e⟩⟩
    | err _ => rw [hr] at hv; cases hv
    | panic => rw [hr] at hv; cases hv
  | configMut t id =>
    simp only [PState.validate] at hv
    cases hr : rawConfig s b id with
    | ok c =>
      rw [hr] at hv; injection hv with hv
      have hc := rawConfig_some hp hr
      simp only [PState.erase, Available, hc]
      subst hv
      exact ⟨fun e => (by rintro ⟨d, hd, hl⟩; injection hd with hd; subst hd; rw [hl] at e; cases e),
        fun _ e => ⟨c, rfl, by simpa using e⟩⟩
    | err _ => rw [hr] at hv; cases hv
    | panic => rw [hr] at hv; cases hv
  | service t id =>
    simp only [PState.validate] at hv
    injection hv with hv
    have hl : s.svc t = sget s.services id := by
      have : mget s.serviceIdx t = some id := hp
      simp [svc, look, this]
    simp only [PState.erase, Available, hl]
    subst hv
    exact ⟨fun e => (by rintro ⟨d, hd⟩; rw [hd] at e; cases e), fun _ e => Option.isSome_iff_exists.1 e⟩
  | hob g t id =>
    simp only [PState.validate] at hv
    obtain ⟨l, hl, hr⟩ := rawHob_ok h hp
    rw [hr] at hv; injection hv with hv
    simp only [PState.erase, Available, hl]
    subst hv
    cases l with
    | nil => exact ⟨fun _ => (by rintro ⟨d, l, hd⟩; cases hd), fun _ e => by cases e⟩
    | cons x l => exact ⟨fun e => (by cases e), fun _ _ => ⟨x, l, rfl⟩⟩
  | bootServices => simp only [PState.validate] at hv; injection hv with hv; subst hv; exact ⟨fun e h => (by rw [PState.erase, Available, e] at h; cases h), fun _ e => e⟩
  | runtimeServices => simp only [PState.validate] at hv; injection hv with hv; subst hv; exact ⟨fun e h => (by rw [PState.erase, Available, e] at h; cases h), fun _ e => e⟩
  | commands => simp only [PState.validate] at hv; injection hv with hv; subst hv; exact ⟨fun e => (by cases e), fun _ _ => trivial⟩
  | storage => simp only [PState.validate] at hv; injection hv with hv; subst hv; exact ⟨fun e => (by cases e), fun _ _ => trivial⟩
  | storageMut => simp only [PState.validate] at hv; injection hv with hv; subst hv; exact ⟨fun e => (by cases e), fun _ _ => trivial⟩
  | opt p => simp only [PState.validate] at hv; injection hv with hv; subst hv; exact ⟨fun e => (by cases e), fun _ _ => by simp [PState.erase, Available]⟩
  | tuple ps => simp only [PState.validate] at hv; injection hv with hv; subst hv; exact ⟨fun e => (by cases e), fun hf => by simp [PState.erase, Param.Flat] at hf⟩

/-- With no borrows outstanding, validation does not panic. -/
theorem validate_returns {s : Storage V} (h : WF s) (b : Borrows) (p : PState) (hp : p.Good s)
    (hb : ∀ t id, (p = .config t id ∨ p = .configMut t id) → b.excl.contains id = false) :
    ∃ v, p.validate s b = .ok v := by
  cases p with
  | config t id =>
    obtain ⟨c, _, hr⟩ := rawConfig_ok h hp (hb t id (.inl rfl))
    exact ⟨c.locked, by simp [PState.validate, hr]⟩
  | configMut t id =>
    obtain ⟨c, _, hr⟩ := rawConfig_ok h hp (hb t id (.inr rfl))
    exact ⟨!c.locked, by simp [PState.validate, hr]⟩
  | hob g t id =>
    obtain ⟨l, _, hr⟩ := rawHob_ok h hp
    exact ⟨!l.isEmpty, by simp [PState.validate, hr]⟩
  | _ => exact ⟨_, rfl⟩

theorem validateAll_ok {s : Storage V} (h : WF s) : ∀ (ps : List PState), GoodAll s ps →
    ∃ v, validateAll s ⟨[], []⟩ ps = .ok v ∧ (v = false → ∃ p ∈ eraseAll ps, ¬ Available s p) ∧
      ((∀ p ∈ eraseAll ps, p.Flat) → v = true → ∀ p ∈ eraseAll ps, Available s p)
  | [], _ => ⟨true, rfl, nofun, by simp [eraseAll]⟩
  | p :: ps, hg => by
    obtain ⟨v, hv⟩ := validate_returns h ⟨[], []⟩ p hg.1 (fun _ _ _ => rfl)
    obtain ⟨h1, h2⟩ := validate_ok h _ p hg.1 v hv
    simp only [validateAll, hv]
    cases v with
    | false => exact ⟨false, rfl, fun _ => ⟨p.erase, by simp [eraseAll], h1 rfl⟩, fun _ e => by cases e⟩
    | true =>
      obtain ⟨w, hw, h3, h4⟩ := validateAll_ok h ps hg.2
      refine ⟨w, hw, fun e => ?_, fun hf e => ?_⟩
      · obtain ⟨q, hq, hn⟩ := h3 e
        exact ⟨q, by simp [eraseAll, hq], hn⟩
      · intro q hq
        rcases List.mem_cons.1 hq with rfl | hq
        · exact h2 (hf _ (by simp [eraseAll])) rfl
        · exact h4 (fun x hx => hf x (by simp [eraseAll, hx])) e q hq

/-! ### Getting the items -/

/-- What an unwrapped item says about the storage it was taken from and the parameters it was asked for by.
The lock states are those the documentation promises. -/
def Item.Fits (s : Storage V) (ps : List Param) : Item V → Prop
  | .config t id c => Param.config t ∈ ps ∧ mget s.configIdx t = some id ∧ s.cfg t = some c ∧ c.locked = true
  | .configMut t id c => Param.configMut t ∈ ps ∧ mget s.configIdx t = some id ∧ s.cfg t = some c ∧ c.locked = false
  | .service t b => Param.service t ∈ ps ∧ s.svc t = some b
  | .hob t l => (∃ g, Param.hob g t ∈ ps) ∧ s.hob t = some l ∧ l ≠ []
  | .commands => Param.commands ∈ ps
  | .storage s' => Param.storage ∈ ps ∧ s' = s
  | .storageMut s' => Param.storageMut ∈ ps ∧ s' = s
  | _ => True

theorem Item.Fits.mono {s : Storage V} {ps qs : List Param} (h : ∀ p ∈ ps, p ∈ qs) {i : Item V}
    (hi : i.Fits s ps) : i.Fits s qs := by
  cases i with
  | config t id c => exact ⟨h _ hi.1, hi.2⟩
  | configMut t id c => exact ⟨h _ hi.1, hi.2⟩
  | service t b => exact ⟨h _ hi.1, hi.2⟩
  | hob t l => exact ⟨⟨hi.1.choose, h _ hi.1.choose_spec⟩, hi.2⟩
  | commands => exact h _ hi
  | storage s' => exact ⟨h _ hi.1, hi.2⟩
  | storageMut s' => exact ⟨h _ hi.1, hi.2⟩
  | _ => trivial

theorem get_fits {s : Storage V} (h : WF s) : ∀ (p : PState) (b : Borrows) (r : Item V × Borrows), p.Good s →
    p.erase.Flat → Available s p.erase → p.get s b = .ok r → ∀ x ∈ r.1.leaves, x.Fits s p.erase.leaves
  | .config t id, b, r, hg, _, ha, e, x, hx => by
    simp only [PState.get] at e
    cases hr : rawConfig s b id with
    | ok c =>
      rw [hr] at e; injection e with e; subst e
      simp only [Item.leaves, List.mem_singleton] at hx; subst hx
      obtain ⟨d, hd, hl⟩ := ha
      have hc := rawConfig_some hg hr
      rw [hc] at hd; injection hd with hd; subst hd
      exact ⟨by simp [PState.erase, Param.leaves], hg, hc, hl⟩
    | err _ => rw [hr] at e; cases e
    | panic => rw [hr] at e; cases e
  | .configMut t id, b, r, hg, _, ha, e, x, hx => by
    simp only [PState.get] at e
    cases hr : rawConfigMut s b id with
    | ok c =>
      rw [hr] at e; injection e with e; subst e
      simp only [Item.leaves, List.mem_singleton] at hx; subst hx
      obtain ⟨d, hd, hl⟩ := ha
      have hc := rawConfigMut_some hg hr
      rw [hc] at hd; injection hd with hd; subst hd
      exact ⟨by simp [PState.erase, Param.leaves], hg, hc, hl⟩
    | err _ => rw [hr] at e; cases e
    | panic => rw [hr] at e; cases e
  | .service t id, b, r, hg, _, ha, e, x, hx => by
    simp only [PState.get] at e
    cases hr : sget s.services id with
    | some c =>
      rw [hr] at e; injection e with e; subst e
      simp only [Item.leaves, List.mem_singleton] at hx; subst hx
      have hg' : mget s.serviceIdx t = some id := hg
      exact ⟨by simp [PState.erase, Param.leaves], by simp [svc, look, hg', hr]⟩
    | none => rw [hr] at e; cases e
  | .hob g t id, b, r, hg, _, ha, e, x, hx => by
    simp only [PState.get] at e
    obtain ⟨l, hl, hr⟩ := rawHob_ok h hg
    rw [hr] at e; injection e with e; subst e
    simp only [Item.leaves, List.mem_singleton] at hx; subst hx
    obtain ⟨d, m, hd⟩ := ha
    exact ⟨⟨g, by simp [PState.erase, Param.leaves]⟩, hl, by rw [hl] at hd; injection hd with hd; simp [hd]⟩
  | .commands, b, r, hg, _, ha, e, x, hx => by
    simp only [PState.get] at e; injection e with e; subst e
    simp only [Item.leaves, List.mem_singleton] at hx; subst hx
    simp [Item.Fits, PState.erase, Param.leaves]
  | .bootServices, b, r, hg, _, ha, e, x, hx => by
    simp only [PState.get] at e; injection e with e; subst e
    simp only [Item.leaves, List.mem_singleton] at hx; subst hx; trivial
  | .runtimeServices, b, r, hg, _, ha, e, x, hx => by
    simp only [PState.get] at e; injection e with e; subst e
    simp only [Item.leaves, List.mem_singleton] at hx; subst hx; trivial
  | .storage, b, r, hg, _, ha, e, x, hx => by
    simp only [PState.get] at e; injection e with e; subst e
    simp only [Item.leaves, List.mem_singleton] at hx; subst hx
    simp [Item.Fits, PState.erase, Param.leaves]
  | .storageMut, b, r, hg, _, ha, e, x, hx => by
    simp only [PState.get] at e; injection e with e; subst e
    simp only [Item.leaves, List.mem_singleton] at hx; subst hx
    simp [Item.Fits, PState.erase, Param.leaves]
  | .opt p, b, r, hg, hf, _, e, x, hx => by
    simp only [PState.get] at e
    cases hv : p.validate s b with
    | ok v =>
      rw [hv] at e
      cases v with
      | false => injection e with e; subst e; simp [Item.leaves] at hx
      | true =>
        simp only [] at e
        have hf' : p.erase.Flat := by simpa [PState.erase, Param.Flat] using hf
        have ha := (validate_ok h b p hg true hv).2 hf' rfl
        cases hr : p.get s b with
        | ok q =>
          rw [hr] at e; injection e with e; subst e
          simp only [Item.leaves] at hx
          have := get_fits h p b q hg hf' ha hr x hx
          simpa [PState.erase, Param.leaves] using this
        | err _ => rw [hr] at e; cases e
        | panic => rw [hr] at e; cases e
    | err _ => rw [hv] at e; cases e
    | panic => rw [hv] at e; cases e
  | .tuple ps, _, _, _, hf, _, _, _, _ => by simp [PState.erase, Param.Flat] at hf

theorem getAll_fits {s : Storage V} (h : WF s) : ∀ (ps : List PState) (b : Borrows) (r : List (Item V) × Borrows),
    GoodAll s ps → (∀ p ∈ eraseAll ps, p.Flat) → (∀ p ∈ eraseAll ps, Available s p) → getAll s b ps = .ok r →
    ∀ x ∈ leavesAll r.1, x.Fits s (paramLeaves (eraseAll ps))
  | [], b, r, _, _, _, e, x, hx => by
    simp only [getAll] at e; injection e with e; subst e; simp [leavesAll] at hx
  | p :: ps, b, r, hg, hf, ha, e, x, hx => by
    simp only [getAll] at e
    cases hp : p.get s b with
    | ok q =>
      rw [hp] at e
      simp only [Outcome.ok_bind] at e
      cases hq : getAll s q.2 ps with
      | ok q2 =>
        rw [hq] at e; injection e with e; subst e
        simp only [leavesAll] at hx
        rcases List.mem_append.1 hx with hx | hx
        · exact (get_fits h p b q hg.1 (hf _ (by simp [eraseAll])) (ha _ (by simp [eraseAll])) hp x hx).mono
            (by intro y hy; simp [eraseAll, paramLeaves, hy])
        · exact (getAll_fits h ps q.2 q2 hg.2 (fun y hy => hf y (by simp [eraseAll, hy]))
            (fun y hy => ha y (by simp [eraseAll, hy])) hq x hx).mono
            (by intro y hy; simp [eraseAll, paramLeaves, hy])
      | err _ => rw [hq] at e; cases e
      | panic => rw [hq] at e; cases e
    | err _ => rw [hp] at e; cases e
    | panic => rw [hp] at e; cases e

end Verif.Component
