import Verif.Component.RunLemmas
/-! Induction over a dispatch, and over the building calls. -/
namespace Verif.Component
variable {V W : Type}
open Storage

/-- What holds between components: the storage is well formed and so are the components. -/
structure Sound (all : List (Ready V W)) (y : Sys V W) : Prop where
  wf : WF y.s
  ok : ∀ c ∈ all, c.Ok y.s

theorem Sound.step {all : List (Ready V W)} {y z : Sys V W} {c : Ready V W} (h : Sound all y) (hc : c ∈ all)
    {o : Option Bool} (k : RunCase c y o z) : Sound all z :=
  have g := k.grow h.wf (h.ok c hc)
  ⟨g.wf, fun d hd => (h.ok d hd).mono g.ext⟩

/-- An invariant of running single components. -/
def Inv (all : List (Ready V W)) (P : Sys V W → Prop) : Prop :=
  ∀ c ∈ all, ∀ y z o, Sound all y → P y → RunCase c y o z → P z

theorem dispatch_inv {dbg : Bool} {all : List (Ready V W)} {P : Sys V W → Prop} (hP : Inv all P) :
    ∀ {cs : List (Ready V W)} {y : Sys V W} {r : List (Ready V W) × Sys V W}, Sound all y → P y →
    (∀ c ∈ cs, c ∈ all) → dispatchComponents dbg y cs = .ok r →
    Sound all r.2 ∧ P r.2 ∧ ∀ c ∈ r.1, c ∈ cs
  | [], y, r, h, p, _, e => by
    simp only [dispatchComponents] at e; injection e with e; subst e; exact ⟨h, p, by simp⟩
  | c :: cs, y, r, h, p, hs, e => by
    unfold dispatchComponents at e
    have hc : c ∈ all := hs c (by simp)
    have hs' : ∀ d ∈ cs, d ∈ all := fun d hd => hs d (by simp [hd])
    cases hr : c.run y with
    | ok q =>
      obtain ⟨o, z⟩ := q
      have k := run_case h.wf (h.ok c hc) hr
      simp only [] at k
      rw [hr] at e
      have h' := h.step hc k
      have p' := hP c hc y z o h p k
      cases o with
      | none =>
        simp only [] at e
        cases dbg with
        | true => cases e
        | false =>
          obtain ⟨a, b, d⟩ := dispatch_inv hP h' p' hs' e
          exact ⟨a, b, fun x hx => by simp [d x hx]⟩
      | some b =>
        cases b with
        | true =>
          obtain ⟨a, b, d⟩ := dispatch_inv hP h' p' hs' e
          exact ⟨a, b, fun x hx => by simp [d x hx]⟩
        | false =>
          simp only [] at e
          cases hd : dispatchComponents dbg z cs with
          | ok q =>
            rw [hd] at e; injection e with e; subst e
            obtain ⟨a, b, d⟩ := dispatch_inv hP h' p' hs' hd
            refine ⟨a, b, fun x hx => ?_⟩
            rcases List.mem_cons.1 hx with rfl | hx
            · simp
            · simp [d x hx]
          | err _ => rw [hd] at e; cases e
          | panic => rw [hd] at e; cases e
    | err _ => rw [hr] at e; cases e
    | panic => rw [hr] at e; cases e

/-- The names that ran so far, followed by those that are left. -/
def names (cs : List (Ready V W)) (y : Sys V W) : List Nat :=
  y.log.map (·.name) ++ cs.map (·.comp.name)

theorem dispatch_names {dbg : Bool} : ∀ {cs : List (Ready V W)} {y : Sys V W} {r : List (Ready V W) × Sys V W},
    Sound cs y → dispatchComponents dbg y cs = .ok r → (names r.1 r.2).Perm (names cs y)
  | [], y, r, h, e => by
    simp only [dispatchComponents] at e; injection e with e; subst e; exact .refl _
  | c :: cs, y, r, h, e => by
    unfold dispatchComponents at e
    cases hr : c.run y with
    | ok q =>
      obtain ⟨o, z⟩ := q
      have k := run_case h.wf (h.ok c (by simp)) hr
      simp only [] at k
      rw [hr] at e
      have h' := h.step (by simp) k
      have h'' : Sound cs z := ⟨h'.wf, fun d hd => h'.ok d (by simp [hd])⟩
      generalize ho : o = o' at k
      cases k with
      | wait =>
        subst ho
        simp only [] at e
        cases hd : dispatchComponents dbg { y with s := y.s.applyDeferred } cs with
        | ok q =>
          rw [hd] at e; injection e with e; subst e
          have := dispatch_names h'' hd
          unfold names at this ⊢
          simp only [List.map_cons]
          exact (List.perm_middle.trans (List.Perm.cons _ this)).trans List.perm_middle.symm
        | err _ => rw [hd] at e; cases e
        | panic => rw [hd] at e; cases e
      | go items b hget hav =>
        have fin : ∀ {r : List (Ready V W) × Sys V W}, dispatchComponents dbg
              ⟨performAll items y.s.applyDeferred (c.comp.code y.w items).2.1, (c.comp.code y.w items).1,
                y.log ++ [⟨c.comp.name, y.s.applyDeferred, items⟩]⟩ cs = .ok r →
            (names r.1 r.2).Perm (names (c :: cs) y) := by
          intro r e
          have := dispatch_names h'' e
          refine this.trans (List.Perm.of_eq ?_)
          simp [names]
        subst ho
        by_cases hb : (c.comp.code y.w items).2.2 = true
        · simp only [hb, if_true] at e; exact fin e
        · have hb' : (c.comp.code y.w items).2.2 = false := by simpa using hb
          rw [hb'] at e
          simp only [Bool.false_eq_true, if_false] at e
          cases dbg with
          | true => cases e
          | false => exact fin e
    | err _ => rw [hr] at e; cases e
    | panic => rw [hr] at e; cases e

theorem dispatch_short {dbg : Bool} : ∀ {cs : List (Ready V W)} {y : Sys V W} {r : List (Ready V W) × Sys V W},
    dispatchComponents dbg y cs = .ok r → r.1.length ≤ cs.length
  | [], y, r, e => by simp only [dispatchComponents] at e; injection e with e; subst e; simp
  | c :: cs, y, r, e => by
    unfold dispatchComponents at e
    cases hr : c.run y with
    | ok q =>
      obtain ⟨o, z⟩ := q
      rw [hr] at e
      cases o with
      | none =>
        simp only [] at e
        cases dbg with
        | true => cases e
        | false => have := dispatch_short e; simp only [List.length_cons]; omega
      | some b =>
        cases b with
        | true => have := dispatch_short e; simp only [List.length_cons]; omega
        | false =>
          simp only [] at e
          cases hd : dispatchComponents dbg z cs with
          | ok q =>
            rw [hd] at e; injection e with e; subst e
            have := dispatch_short hd
            simp only [List.length_cons]; omega
          | err _ => rw [hd] at e; cases e
          | panic => rw [hd] at e; cases e
    | err _ => rw [hr] at e; cases e
    | panic => rw [hr] at e; cases e

/-- A pass that runs nothing: only the queue was executed, and every component lacks something. -/
theorem dispatch_idle {dbg : Bool} : ∀ {cs : List (Ready V W)} {y : Sys V W} {r : List (Ready V W) × Sys V W},
    Sound cs y → dispatchComponents dbg y cs = .ok r → cs.length = r.1.length →
    r.1 = cs ∧ r.2.w = y.w ∧ r.2.log = y.log ∧ (r.2.s = y.s ∨ r.2.s = y.s.applyDeferred) ∧
      ∀ c ∈ cs, ∃ p ∈ c.comp.params, ¬ Available r.2.s p
  | [], y, r, h, e, _ => by
    simp only [dispatchComponents] at e; injection e with e; subst e; exact ⟨rfl, rfl, rfl, .inl rfl, by simp⟩
  | c :: cs, y, r, h, e, hl => by
    unfold dispatchComponents at e
    cases hr : c.run y with
    | ok q =>
      obtain ⟨o, z⟩ := q
      have k := run_case h.wf (h.ok c (by simp)) hr
      simp only [] at k
      rw [hr] at e
      have h' := h.step (by simp) k
      have h'' : Sound cs z := ⟨h'.wf, fun d hd => h'.ok d (by simp [hd])⟩
      have no : ∀ {r : List (Ready V W) × Sys V W}, dispatchComponents dbg z cs = .ok r →
            (c :: cs).length = r.1.length → False := by
        intro r e hl
        have := dispatch_short e
        simp only [List.length_cons] at hl; omega
      cases o with
      | none =>
        simp only [] at e
        cases dbg with
        | true => cases e
        | false => exact (no e hl).elim
      | some b =>
        cases b with
        | true => exact (no e hl).elim
        | false =>
          simp only [] at e
          cases hd : dispatchComponents dbg z cs with
          | ok q =>
            rw [hd] at e; injection e with e; subst e
            have hl' : cs.length = q.1.length := by simp only [List.length_cons] at hl; omega
            obtain ⟨a1, a2, a3, a4, a5⟩ := dispatch_idle h'' hd hl'
            generalize hob : some false = ob at k
            cases k with
            | wait p hp hn =>
              have hs : q.2.s = y.s.applyDeferred := by
                rcases a4 with a4 | a4
                · exact a4
                · rw [a4]; exact applyDeferred_idem _
              refine ⟨by rw [a1], a2, a3, .inr hs, fun d hd => ?_⟩
              rcases List.mem_cons.1 hd with rfl | hd
              · exact ⟨p, hp, by rw [hs]; exact hn⟩
              · exact a5 d hd
            | go items b hget hav =>
              split at hob <;> cases hob
          | err _ => rw [hd] at e; cases e
          | panic => rw [hd] at e; cases e
    | err _ => rw [hr] at e; cases e
    | panic => rw [hr] at e; cases e

/-! ### The outer loop -/

theorem dispatch_sub {dbg : Bool} {cs : List (Ready V W)} {y : Sys V W} {r : List (Ready V W) × Sys V W}
    (h : Sound cs y) (e : dispatchComponents dbg y cs = .ok r) : Sound r.1 r.2 ∧ ∀ c ∈ r.1, c ∈ cs := by
  obtain ⟨a, _, c⟩ := dispatch_inv (P := fun _ => True) (all := cs) (fun _ _ _ _ _ _ _ _ => trivial) h trivial
    (fun _ h => h) e
  exact ⟨⟨a.wf, fun d hd => a.ok d (c d hd)⟩, c⟩

theorem Sound.world {cs : List (Ready V W)} {y : Sys V W} (h : Sound cs y) (w : W) : Sound cs { y with w := w } :=
  ⟨h.wf, h.ok⟩

/-- What the whole loop does: its invariants, who ran, and the fixpoint. -/
theorem core_spec {dbg : Bool} {drv : Drivers W} {all : List (Ready V W)} {P : Sys V W → Prop} (hP : Inv all P)
    (hw : ∀ y w, P y → P { y with w := w }) : ∀ {fuel : Nat} {cs : List (Ready V W)} {y : Sys V W}
    {r : List (Ready V W) × Sys V W}, Sound all y → P y → (∀ c ∈ cs, c ∈ all) →
    coreDispatcher dbg drv fuel y cs = .ok r →
    Sound all r.2 ∧ P r.2 ∧ (∀ c ∈ r.1, c ∈ cs) ∧ (names r.1 r.2).Perm (names cs y) ∧
      ∀ c ∈ r.1, ∃ p ∈ c.comp.params, ¬ Available r.2.s p
  | 0, _, _, _, _, _, _, e => by cases e
  | fuel + 1, cs, y, r, h, p, hs, e => by
    unfold coreDispatcher at e
    cases hd : dispatchComponents dbg y cs with
    | ok q =>
      obtain ⟨cs', z⟩ := q
      rw [hd] at e
      simp only [] at e
      obtain ⟨h1, p1, s1⟩ := dispatch_inv hP h p hs hd
      have hcs : Sound cs y := ⟨h.wf, fun c hc => h.ok c (hs c hc)⟩
      have n1 := dispatch_names hcs hd
      simp only [] at h1 p1 s1 n1
      have hs1 : ∀ c ∈ cs', c ∈ all := fun c hc => hs c (s1 c hc)
      by_cases hl : cs.length ≠ cs'.length
      · rw [if_pos hl] at e
        obtain ⟨a, b, c, d, f⟩ := core_spec hP hw h1 p1 hs1 e
        exact ⟨a, b, fun x hx => s1 x (c x hx), d.trans n1, f⟩
      · rw [if_neg hl] at e
        cases hv : drv z.w with
        | mk o w =>
          rw [hv] at e
          cases o with
          | none => cases e
          | some b =>
            cases b with
            | true =>
              obtain ⟨a, b, c, d, f⟩ := core_spec hP hw (h1.world w) (hw z w p1) hs1 e
              exact ⟨a, b, fun x hx => s1 x (c x hx), d.trans n1, f⟩
            | false =>
              injection e with e; subst e
              obtain ⟨i1, _, _, _, i5⟩ := dispatch_idle hcs hd (by simpa using hl)
              refine ⟨h1.world w, hw z w p1, s1, n1, fun c hc => ?_⟩
              simp only [] at i1
              subst i1
              exact i5 c hc
    | err _ => rw [hd] at e; cases e
    | panic => rw [hd] at e; cases e

/-! ### Building -/

/-- The components among the building calls, in the order of the list of components. -/
def placed : List (Build V W) → List (Comp V W) → List (Comp V W)
  | [], l => l
  | .component true c :: bs, l => placed bs (c :: l)
  | .component false c :: bs, l => placed bs (l ++ [c])
  | .config _ _ :: bs, l => placed bs l
  | .service _ _ :: bs, l => placed bs l

/-- What building leaves. -/
structure Built (s : Storage V) (cs : List (Ready V W)) : Prop where
  wf : WF s
  ok : ∀ c ∈ cs, c.Ok s
  deferred : s.deferred = []

theorem step_built {dbg : Bool} {dflt : Nat → V} {k k' : Storage V × List (Ready V W)} {b : Build V W}
    (h : Built k.1 k.2) (e : b.step dbg dflt k = .ok k') :
    Built k'.1 k'.2 ∧ k'.2.map (·.comp) = placed [b] (k.2.map (·.comp)) := by
  cases b with
  | component front c =>
    simp only [Build.step, insertComponent] at e
    cases hi : initAll dbg dflt ⟨k.1, .new⟩ c.params with
    | ok r =>
      rw [hi] at e; injection e with e; subst e
      obtain ⟨a, b, d⟩ := initAll_ok (i := ⟨k.1, .new⟩) h.wf hi
      have hok : ∀ d ∈ k.2, d.Ok r.2.s := fun d hd => (h.ok d hd).mono a.ext
      have hnew : Ready.Ok r.2.s (⟨c, r.1⟩ : Ready V W) := ⟨d, b⟩
      refine ⟨⟨a.wf, ?_, by rw [a.quiet.deferred]; exact h.deferred⟩, ?_⟩
      · cases front
        · intro d hd
          rcases List.mem_append.1 hd with hd | hd
          · exact hok d hd
          · rw [List.mem_singleton] at hd; subst hd; exact hnew
        · intro d hd
          rcases List.mem_cons.1 hd with rfl | hd
          · exact hnew
          · exact hok d hd
      · cases front <;> simp [placed]
    | err _ => rw [hi] at e; cases e
    | panic => rw [hi] at e; cases e
  | config t v =>
    simp only [Build.step] at e; injection e with e; subst e
    have g := grow_addConfig h.wf t v
    exact ⟨⟨g.wf, fun c hc => (h.ok c hc).mono g.ext, h.deferred⟩, rfl⟩
  | service ts v =>
    simp only [Build.step] at e; injection e with e; subst e
    have g := grow_addService h.wf ts v
    exact ⟨⟨g.wf, fun c hc => (h.ok c hc).mono g.ext, by rw [(addService_flags ts v k.1).2.2.1]; exact h.deferred⟩, rfl⟩

theorem build_built {dbg : Bool} {dflt : Nat → V} : ∀ {bs : List (Build V W)} {k k' : Storage V × List (Ready V W)},
    Built k.1 k.2 → build dbg dflt bs k = .ok k' →
    Built k'.1 k'.2 ∧ k'.2.map (·.comp) = placed bs (k.2.map (·.comp))
  | [], k, k', h, e => by simp only [build] at e; injection e with e; subst e; exact ⟨h, rfl⟩
  | b :: bs, k, k', h, e => by
    unfold build at e
    cases hb : b.step dbg dflt k with
    | ok q =>
      rw [hb] at e
      obtain ⟨h1, n1⟩ := step_built h hb
      obtain ⟨h2, n2⟩ := build_built h1 e
      refine ⟨h2, n2.trans ?_⟩
      rw [n1]
      cases b with
      | component front c => cases front <;> rfl
      | config => rfl
      | service => rfl
    | err _ => rw [hb] at e; cases e
    | panic => rw [hb] at e; cases e

theorem addHobs_ext (f : Nat → V) : ∀ (ts : List Nat) {s : Storage V}, WF s →
    WF (ts.foldl (fun s t => s.addHob t (f t)) s) ∧ Ext s (ts.foldl (fun s t => s.addHob t (f t)) s) ∧
      (ts.foldl (fun s t => s.addHob t (f t)) s).deferred = s.deferred
  | [], _, h => ⟨h, .refl _, rfl⟩
  | t :: ts, s, h => by
    obtain ⟨a, b, _⟩ := addHob_spec h t (f t)
    obtain ⟨a', b', c'⟩ := addHobs_ext f ts a
    exact ⟨a', b.trans b', c'⟩

theorem parseHobs_ok : ∀ (hs : List (Nat × (Nat → V))) {s : Storage V}, WF s →
    WF (parseHobs s hs) ∧ Ext s (parseHobs s hs) ∧ (parseHobs s hs).deferred = s.deferred
  | [], s, h => ⟨h, .refl _, rfl⟩
  | (g, f) :: hs, s, h => by
    obtain ⟨a, b, c⟩ := addHobs_ext f (s.hobParsers g) h
    obtain ⟨a', b', c'⟩ := parseHobs_ok hs a
    exact ⟨a', b.trans b', c'.trans c⟩

/-- What the whole boot does. -/
theorem start_spec {dbg : Bool} {drv : Drivers W} {fuel : Nat} {hobs : List (Nat × (Nat → V))} {w : W}
    {k : Storage V × List (Ready V W)} {r : List (Ready V W) × Sys V W} {P : Sys V W → Prop}
    (hk : Built k.1 k.2) (hP : Inv k.2 P) (hw : ∀ y w, P y → P { y with w := w })
    (hl : ∀ y, WF y.s → P y → P { y with s := y.s.lockConfigs })
    (h0 : ∀ s, WF s → s.deferred = [] → P ⟨s, w, []⟩) (e : start dbg drv fuel hobs w k = .ok r) :
    Sound k.2 r.2 ∧ P r.2 ∧ (∀ c ∈ r.1, c ∈ k.2) ∧
      (r.2.log.map (·.name) ++ r.1.map (·.comp.name)).Perm (k.2.map (·.comp.name)) ∧
      ∀ c ∈ r.1, ∃ p ∈ c.comp.params, ¬ Available r.2.s p := by
  unfold start at e
  simp only [] at e
  have h1 : WF { k.1 with bootInit := true, runtimeInit := true } := hk.wf.same rfl rfl rfl rfl rfl rfl
  obtain ⟨h2, x2, d2⟩ := parseHobs_ok hobs h1
  have x1 : Ext k.1 { k.1 with bootInit := true, runtimeInit := true } :=
    ⟨fun _ _ h => h, fun _ _ h => h, fun _ _ h => h⟩
  have s2 : Sound k.2 (⟨parseHobs { k.1 with bootInit := true, runtimeInit := true } hobs, w, []⟩ : Sys V W) :=
    ⟨h2, fun c hc => ((hk.ok c hc).mono x1).mono x2⟩
  cases h3 : coreDispatcher dbg drv fuel
      (⟨parseHobs { k.1 with bootInit := true, runtimeInit := true } hobs, w, []⟩ : Sys V W) k.2 with
  | ok q =>
    rw [h3] at e
    obtain ⟨a1, a2, a3, a4, _⟩ := core_spec hP hw s2 (h0 _ h2 (by rw [d2]; exact hk.deferred)) (fun _ h => h) h3
    obtain ⟨l1, l2⟩ := lockConfigs_spec a1.wf
    have a1' : Sound k.2 { q.2 with s := q.2.s.lockConfigs } := ⟨l1, fun c hc => (a1.ok c hc).mono l2⟩
    obtain ⟨b1, b2, b3, b4, b5⟩ := core_spec hP hw a1' (hl q.2 a1.wf a2) a3 e
    refine ⟨b1, b2, fun c hc => a3 c (b3 c hc), ?_, b5⟩
    have := b4.trans a4
    simpa [names] using this
  | err _ => rw [h3] at e; cases e
  | panic => rw [h3] at e; cases e

end Verif.Component
