import Verif.Component.LogLemmas
/-!
Properties C32 and C33: which components run, when, how often, and what they see of the configurations.

All theorems are about a whole boot: any sequence of building calls, any HOBs, any code in the components
and any behaviour of the driver dispatcher between the passes. The record `log` of the result lists the runs
in order, with the storage each was started with and what it was handed.
-/
namespace Verif.Component
variable {V W : Type}
open Storage

/-- The components of the building calls. -/
def comps (bs : List (Build V W)) : List (Comp V W) :=
  bs.filterMap fun
    | .component _ c => some c
    | _ => none

theorem placed_perm : ∀ (bs : List (Build V W)) (l : List (Comp V W)), (placed bs l).Perm (l ++ comps bs)
  | [], l => by simp [placed, comps]
  | .component true c :: bs, l => by
    refine (placed_perm bs (c :: l)).trans ?_
    show List.Perm _ (l ++ c :: comps bs)
    exact List.perm_middle.symm
  | .component false c :: bs, l => by
    refine (placed_perm bs (l ++ [c])).trans (.of_eq ?_)
    show _ = l ++ c :: comps bs
    simp
  | .config _ _ :: bs, l => placed_perm bs l
  | .service _ _ :: bs, l => placed_perm bs l

theorem boot_built {dbg : Bool} {dflt : Nat → V} {drv : Drivers W} {fuel : Nat} {bs : List (Build V W)}
    {hobs : List (Nat × (Nat → V))} {w : W} {r : List (Ready V W) × Sys V W}
    (e : boot dbg dflt drv fuel bs hobs w = .ok r) :
    ∃ k : Storage V × List (Ready V W), Built k.1 k.2 ∧ (k.2.map (·.comp)).Perm (comps bs) ∧
      start dbg drv fuel hobs w k = .ok r := by
  unfold boot at e
  cases hb : build dbg dflt bs (Storage.new, ([] : List (Ready V W))) with
  | ok k =>
    rw [hb] at e
    obtain ⟨a, b⟩ := build_built (k := (Storage.new, ([] : List (Ready V W)))) ⟨WF.new, by simp, rfl⟩ hb
    refine ⟨k, a, ?_, e⟩
    rw [b]
    simpa using placed_perm bs []
  | err _ => rw [hb] at e; cases e
  | panic => rw [hb] at e; cases e

theorem mem_comps {k : List (Ready V W)} {bs : List (Build V W)} (h : (k.map (·.comp)).Perm (comps bs))
    {c : Ready V W} (hc : c ∈ k) : c.comp ∈ comps bs := h.mem_iff.1 (List.mem_map.2 ⟨c, hc, rfl⟩)

/-! ### C33 -/

/-- **C33, at most once.** The runs and the components that are left are together exactly the components
the core was built with: no component runs twice and none is lost. -/
theorem each_once {dbg : Bool} {dflt : Nat → V} {drv : Drivers W} {fuel : Nat} {bs : List (Build V W)}
    {hobs : List (Nat × (Nat → V))} {w : W} {left : List (Ready V W)} {y : Sys V W}
    (e : boot dbg dflt drv fuel bs hobs w = .ok (left, y)) :
    (y.log.map (·.name) ++ left.map (·.comp.name)).Perm ((comps bs).map (·.name)) ∧
      ∀ c ∈ left, c.comp ∈ comps bs := by
  obtain ⟨k, hk, hp, e⟩ := boot_built e
  obtain ⟨_, _, a, b, _⟩ := start_spec (P := fun _ => True) hk (fun _ _ _ _ _ _ _ _ => trivial) (fun _ _ _ => trivial)
    (fun _ _ _ => trivial) (fun _ _ _ => trivial) e
  refine ⟨b.trans ?_, fun c hc => mem_comps hp (a c hc)⟩
  have := hp.map (·.name)
  rwa [List.map_map] at this

/-- **C33, only when available.** A component whose parameters contain no further tuples is run only when
all its parameters are available. (`_partial`: a tuple or `Option` of a tuple among the parameters is not
looked into, see `nested_tuple_not_validated`.) -/
theorem runs_when_available_partial {dbg : Bool} {dflt : Nat → V} {drv : Drivers W} {fuel : Nat}
    {bs : List (Build V W)} {hobs : List (Nat × (Nat → V))} {w : W} {left : List (Ready V W)} {y : Sys V W}
    (e : boot dbg dflt drv fuel bs hobs w = .ok (left, y)) (hu : ((comps bs).map (·.name)).Nodup)
    {c : Comp V W} (hc : c ∈ comps bs) (hf : ∀ p ∈ c.params, p.Flat)
    {r : Ran V} (hr : r ∈ y.log) (hn : r.name = c.name) : ∀ p ∈ c.params, Available r.store p := by
  obtain ⟨k, hk, hp, e⟩ := boot_built e
  obtain ⟨_, a, _⟩ := start_spec (P := fun y => ∀ r ∈ y.log, RanOk k.2 r) hk (log_ok k.2) (fun _ _ h => h)
    (fun _ _ h => h) (fun _ _ _ => by simp) e
  obtain ⟨d, hd, hdn, _, h2⟩ := a r hr
  have : d.comp = c := inj_of_nodup hu (mem_comps hp hd) hc (by rw [hdn, hn])
  subst this
  exact (h2 hf).1
where
  inj_of_nodup {l : List (Comp V W)} (h : (l.map (·.name)).Nodup) {a b : Comp V W} (ha : a ∈ l) (hb : b ∈ l)
      (e : a.name = b.name) : a = b := by
    induction l with
    | nil => cases ha
    | cons x l ih =>
      rw [List.map_cons, List.nodup_cons] at h
      rcases List.mem_cons.1 ha with rfl | ha' <;> rcases List.mem_cons.1 hb with rfl | hb'
      · rfl
      · exact absurd (List.mem_map.2 ⟨b, hb', e.symm⟩) h.1
      · exact absurd (List.mem_map.2 ⟨a, ha', e⟩) h.1
      · exact ih h.2 ha' hb'

/-- **C33, fixpoint.** When the dispatcher returns, every component that did not run has a parameter that
is not available. -/
theorem fixpoint {dbg : Bool} {dflt : Nat → V} {drv : Drivers W} {fuel : Nat} {bs : List (Build V W)}
    {hobs : List (Nat × (Nat → V))} {w : W} {left : List (Ready V W)} {y : Sys V W}
    (e : boot dbg dflt drv fuel bs hobs w = .ok (left, y)) :
    ∀ c ∈ left, ∃ p ∈ c.comp.params, ¬ Available y.s p := by
  obtain ⟨k, hk, _, e⟩ := boot_built e
  exact (start_spec (P := fun _ => True) hk (fun _ _ _ _ _ _ _ _ => trivial) (fun _ _ _ => trivial)
    (fun _ _ _ => trivial) (fun _ _ _ => trivial) e).2.2.2.2

/-- **C33, termination** of one dispatch loop: if the driver dispatcher cannot go on starting drivers forever
by itself, a bounded number of rounds is enough, whatever the components do. -/
theorem core_terminates (dbg : Bool) {drv : Drivers W} (hw : WellFounded fun w' w => drv w = (some true, w'))
    (cs : List (Ready V W)) (y : Sys V W) (h : Sound cs y) :
    ∃ N r, r ≠ .err .aborted ∧ ∀ fuel, N ≤ fuel → coreDispatcher dbg drv fuel y cs = r := by
  generalize hn : cs.length = n
  induction n using Nat.strongRecOn generalizing cs y with
  | ind n ih =>
    generalize hyw : y.w = w0
    induction w0 using hw.induction generalizing y with
    | _ w0 ihw =>
      cases hd : dispatchComponents dbg y cs with
      | err x => exact absurd hd (noErr_dispatch dbg cs y x)
      | panic =>
        refine ⟨1, .panic, by simp, fun fuel hf => ?_⟩
        obtain ⟨f, rfl⟩ : ∃ f, fuel = f + 1 := ⟨fuel - 1, by omega⟩
        simp only [coreDispatcher, hd]
      | ok q =>
        obtain ⟨cs', z⟩ := q
        have hle := dispatch_short hd
        obtain ⟨hs, _⟩ := dispatch_sub h hd
        simp only [] at hle hs
        by_cases hl : cs.length ≠ cs'.length
        · obtain ⟨N, r, hr, hN⟩ := ih cs'.length (by omega) cs' z hs rfl
          refine ⟨N + 1, r, hr, fun fuel hf => ?_⟩
          obtain ⟨f, rfl⟩ : ∃ f, fuel = f + 1 := ⟨fuel - 1, by omega⟩
          simp only [coreDispatcher, hd, if_pos hl]
          exact hN f (by omega)
        · obtain ⟨i1, i2, _⟩ := dispatch_idle h hd (by simpa using hl)
          simp only [] at i1 i2
          cases hv : drv z.w with
          | mk o w' =>
            cases o with
            | none =>
              refine ⟨1, .err .deviceError, by simp, fun fuel hf => ?_⟩
              obtain ⟨f, rfl⟩ : ∃ f, fuel = f + 1 := ⟨fuel - 1, by omega⟩
              simp only [coreDispatcher, hd, if_neg hl, hv]
            | some b =>
              cases b with
              | false =>
                refine ⟨1, .ok (cs', { z with w := w' }), by simp, fun fuel hf => ?_⟩
                obtain ⟨f, rfl⟩ : ∃ f, fuel = f + 1 := ⟨fuel - 1, by omega⟩
                simp only [coreDispatcher, hd, if_neg hl, hv]
              | true =>
                subst i1
                obtain ⟨N, r, hr, hN⟩ := ihw w' (by rw [← hyw, ← i2]; exact hv) { z with w := w' } (hs.world w') rfl
                refine ⟨N + 1, r, hr, fun fuel hf => ?_⟩
                obtain ⟨f, rfl⟩ : ∃ f, fuel = f + 1 := ⟨fuel - 1, by omega⟩
                simp only [coreDispatcher, hd, if_neg hl, hv]
                exact hN f (by omega)

/-- **C33, termination** of the whole boot. -/
theorem boot_terminates (dbg : Bool) (dflt : Nat → V) {drv : Drivers W}
    (hw : WellFounded fun w' w => drv w = (some true, w')) (bs : List (Build V W))
    (hobs : List (Nat × (Nat → V))) (w : W) :
    ∃ N r, r ≠ .err .aborted ∧ ∀ fuel, N ≤ fuel → boot dbg dflt drv fuel bs hobs w = r := by
  unfold boot
  cases hb : build dbg dflt bs (Storage.new, ([] : List (Ready V W))) with
  | err x => exact absurd hb (noErr_build dbg dflt bs _ x)
  | panic => exact ⟨0, .panic, by simp, fun _ _ => rfl⟩
  | ok k =>
    obtain ⟨hk, _⟩ := build_built (k := (Storage.new, ([] : List (Ready V W)))) ⟨WF.new, by simp, rfl⟩ hb
    simp only [start]
    have h1 : WF { k.1 with bootInit := true, runtimeInit := true } := hk.wf.same rfl rfl rfl rfl rfl rfl
    obtain ⟨h2, x2, _⟩ := parseHobs_ok hobs h1
    have x1 : Ext k.1 { k.1 with bootInit := true, runtimeInit := true } :=
      ⟨fun _ _ h => h, fun _ _ h => h, fun _ _ h => h⟩
    have s2 : Sound k.2 (⟨parseHobs { k.1 with bootInit := true, runtimeInit := true } hobs, w, []⟩ : Sys V W) :=
      ⟨h2, fun c hc => ((hk.ok c hc).mono x1).mono x2⟩
    obtain ⟨N, r, hr, hN⟩ := core_terminates dbg hw k.2 _ s2
    cases r with
    | err x => exact ⟨N, .err x, hr, fun fuel hf => by rw [hN fuel hf]⟩
    | panic => exact ⟨N, .panic, hr, fun fuel hf => by rw [hN fuel hf]⟩
    | ok q =>
      obtain ⟨cs, z⟩ := q
      obtain ⟨a, _, b, _⟩ := core_spec (P := fun _ => True) (fun _ _ _ _ _ _ _ _ => trivial) (fun _ _ _ => trivial)
        s2 trivial (fun _ h => h) (hN N (Nat.le_refl _))
      obtain ⟨l1, l2⟩ := lockConfigs_spec a.wf
      have s3 : Sound cs { z with s := z.s.lockConfigs } := ⟨l1, fun c hc => (a.ok c (b c hc)).mono l2⟩
      obtain ⟨M, q, hq, hM⟩ := core_terminates dbg hw cs _ s3
      refine ⟨max N M, q, hq, fun fuel hf => ?_⟩
      rw [hN fuel (by omega)]
      exact hM fuel (by omega)
where
  noErr_build (dbg : Bool) (dflt : Nat → V) : ∀ (bs : List (Build V W)) (k : Storage V × List (Ready V W)),
      NoErr (build dbg dflt bs k)
    | [], k => noErr_ok _
    | b :: bs, k => by
      unfold build
      have hb : NoErr (b.step dbg dflt k) := by
        cases b with
        | component front c =>
          simp only [Build.step, insertComponent]
          cases hi : initAll dbg dflt ⟨k.1, .new⟩ c.params with
          | ok r => exact noErr_ok _
          | err x => exact absurd hi (noErr_initAll dbg dflt _ _ x)
          | panic => exact fun x hx => by cases hx
        | config t v => exact noErr_ok _
        | service ts v => exact noErr_ok _
      cases hs : b.step dbg dflt k with
      | ok k' => exact noErr_build dbg dflt bs k'
      | err x => exact absurd hs (hb x)
      | panic => exact fun x hx => by cases hx

/-! ### C32 -/

/-- **C32, locks.** What a component is handed: every read-only configuration is locked and every mutable one
is not, and both are those of the storage it is started with. (`_partial`: components with tuples inside
their parameter list are left out, see `nested_tuple_not_validated`.) -/
theorem handed_locks_partial {dbg : Bool} {dflt : Nat → V} {drv : Drivers W} {fuel : Nat}
    {bs : List (Build V W)} {hobs : List (Nat × (Nat → V))} {w : W} {left : List (Ready V W)} {y : Sys V W}
    (e : boot dbg dflt drv fuel bs hobs w = .ok (left, y)) (hf : ∀ c ∈ comps bs, ∀ p ∈ c.params, p.Flat)
    {r : Ran V} (hr : r ∈ y.log) :
    (∀ t id c, Item.config t id c ∈ leavesAll r.items → r.store.cfg t = some c ∧ c.locked = true) ∧
    (∀ t id c, Item.configMut t id c ∈ leavesAll r.items → r.store.cfg t = some c ∧ c.locked = false) := by
  obtain ⟨k, hk, hp, e⟩ := boot_built e
  obtain ⟨_, a, _⟩ := start_spec (P := fun y => ∀ r ∈ y.log, RanOk k.2 r) hk (log_ok k.2) (fun _ _ h => h)
    (fun _ _ h => h) (fun _ _ _ => by simp) e
  obtain ⟨d, hd, hdn, _, h2⟩ := a r hr
  have fits := (h2 (hf d.comp (mem_comps hp hd))).2
  exact ⟨fun t id c hc => (fits _ hc).2.2, fun t id c hc => (fits _ hc).2.2⟩

/-- **C32, no write after a read.** Once some component has been handed `Config<t>`, no later component is
handed `ConfigMut<t>`, whatever the components do. -/
theorem no_mut_after_read_partial {dbg : Bool} {dflt : Nat → V} {drv : Drivers W} {fuel : Nat}
    {bs : List (Build V W)} {hobs : List (Nat × (Nat → V))} {w : W} {left : List (Ready V W)} {y : Sys V W}
    (e : boot dbg dflt drv fuel bs hobs w = .ok (left, y)) (hf : ∀ c ∈ comps bs, ∀ p ∈ c.params, p.Flat)
    {before between after : List (Ran V)} {r1 r2 : Ran V}
    (hlog : y.log = before ++ r1 :: between ++ r2 :: after) {t id1 : Nat} {c1 : Cfg V}
    (h1 : Item.config t id1 c1 ∈ leavesAll r1.items) :
    ∀ id2 c2, Item.configMut t id2 c2 ∉ leavesAll r2.items := by
  intro id2 c2 h2
  have l1 := (handed_locks_partial e hf (r := r1) (by rw [hlog]; simp)).1 t id1 c1 h1
  have l2 := (handed_locks_partial e hf (r := r2) (by rw [hlog]; simp)).2 t id2 c2 h2
  obtain ⟨k, hk, hp, e⟩ := boot_built e
  obtain ⟨_, a, _⟩ := start_spec (P := LockOrder t) hk (lock_order k.2 t) (fun _ _ h => h)
    (fun y hy h => ⟨h.1, fun r hr hl => (h.2 r hr hl).grow (grow_lockAll hy)⟩) (fun _ _ _ => ⟨.nil, by simp⟩) e
  have hp := a.1
  simp only [] at hp hlog
  rw [hlog, List.append_assoc, List.cons_append, List.pairwise_append] at hp
  have hp := hp.2.1
  rw [List.pairwise_cons] at hp
  obtain ⟨d, hd, hl⟩ := hp.1 r2 (by simp) ⟨c1, l1.1, l1.2⟩
  rw [l2.1] at hd; injection hd with hd; subst hd
  rw [l2.2] at hl; cases hl

/-- **C32, one value.** If no component has `&mut Storage` and none queues a command that replaces the
configuration `t`, every component that is handed `Config<t>` sees the same value, and this is the value at
the end. (`_partial`: without these conditions the value can change after it was observed, see
`queued_config_changes`; components with tuples inside their parameter list are left out.) -/
theorem one_value_partial {dbg : Bool} {dflt : Nat → V} {drv : Drivers W} {fuel : Nat}
    {bs : List (Build V W)} {hobs : List (Nat × (Nat → V))} {w : W} {left : List (Ready V W)} {y : Sys V W}
    (e : boot dbg dflt drv fuel bs hobs w = .ok (left, y)) (hf : ∀ c ∈ comps bs, ∀ p ∈ c.params, p.Flat) {t : Nat}
    (hs : ∀ c ∈ comps bs, Param.storageMut ∉ paramLeaves c.params) (hq : ∀ c ∈ comps bs, c.Spares t)
    {r : Ran V} (hr : r ∈ y.log) {id : Nat} {c : Cfg V} (hc : Item.config t id c ∈ leavesAll r.items) :
    c.locked = true ∧ y.s.cfg t = some c := by
  obtain ⟨k, hk, hp, e⟩ := boot_built e
  obtain ⟨_, a, _⟩ := start_spec (P := Observed t) hk
    (observed_inv (fun c hc => hf _ (mem_comps hp hc)) (fun c hc => hs _ (mem_comps hp hc))
      (fun c hc => hq _ (mem_comps hp hc))) (fun _ _ h => h)
    (fun y _ h => observed_lock h) (fun s _ hd => ⟨by rw [hd]; simp, by simp⟩) e
  exact a.2 r hr id c hc

/-! ### A boot that meets all these conditions

Component 1 waits for service 8, which component 2 registers through a command; component 3 changes
configuration 5 and locks it; component 1 reads it; component 4 waits for a HOB that never comes. -/

/-- Look at the result. -/
def _root_.Verif.Outcome.map {ε α β : Type} (o : Outcome ε α) (f : α → β) : Outcome ε β :=
  match o with
  | .ok a => .ok (f a)
  | .err e => .err e
  | .panic => .panic

/-- The components of the example. -/
def exampleBuild : List (Build Nat Nat) :=
  [.component false ⟨1, [.config 5, .service 8], fun w _ => (w, [], true)⟩,
   .component false ⟨2, [.commands, .opt (.hob 1 1)], fun w _ => (w, [.queue (.addService [8] 80)], true)⟩,
   .component false ⟨3, [.configMut 5], fun w _ => (w, [.set 0 55, .lock 0], true)⟩,
   .component false ⟨4, [.hob 1 7], fun w _ => (w, [], true)⟩]

/-- Drivers: two in all. -/
def exampleDrivers : Drivers Nat := fun w => if w < 2 then (some true, w + 1) else (some false, w)

/-- What happens: 2, 3, 1 run in this order, 4 is left, and 1 sees the value 55. -/
example : (boot true (fun _ => 0) exampleDrivers 9 exampleBuild [] 0).map
      (fun r => (r.2.log.map (·.name), r.1.map (·.comp.name), r.2.s.cfg 5)) =
    .ok ([2, 3, 1], [4], some ⟨true, 5, 55⟩) := rfl

/-- It meets the conditions of the theorems above. -/
example : ((comps exampleBuild).map (·.name)).Nodup ∧ (∀ c ∈ comps exampleBuild, ∀ p ∈ c.params, p.Flat) ∧
    (∀ c ∈ comps exampleBuild, Param.storageMut ∉ paramLeaves c.params) ∧
    (∀ c ∈ comps exampleBuild, c.Spares 5) ∧
    WellFounded (fun w' w => exampleDrivers w = (some true, w')) := by
  refine ⟨by simp [comps, exampleBuild], ?_, ?_, ?_, ?_⟩
  · simp [comps, exampleBuild, Param.Flat]
  · simp [comps, exampleBuild, paramLeaves, Param.leaves]
  · simp [comps, exampleBuild, Comp.Spares, Cmd.spares]
  · refine Subrelation.wf ?_ (measure fun w => 2 - w).wf
    intro a b h
    simp only [exampleDrivers] at h
    split at h
    · injection h with _ h; subst h; show 2 - (b + 1) < 2 - b; omega
    · injection h with h; cases h

/-! ### Findings -/

/-- The configuration in an item. -/
def itemView : Item Nat → Nat × Bool × Nat
  | .config t _ c => (t, c.locked, c.val)
  | .configMut t _ c => (t, c.locked, c.val)
  | _ => (0, false, 0)

/-- A read-only configuration inside a nested tuple is handed out unlocked, before the component that
changes it has run: component 1 sees 0, component 3 then sees 55. -/
theorem nested_tuple_not_validated :
    (boot false (fun _ => 0) (fun w => (some false, w)) 9
      ([.component false ⟨1, [.tuple [.config 5]], fun w _ => (w, [], true)⟩,
        .component false ⟨2, [.configMut 5], fun w _ => (w, [.set 0 55, .lock 0], true)⟩,
        .component false ⟨3, [.config 5], fun w _ => (w, [], true)⟩] : List (Build Nat Nat)) [] 0).map
      (fun r => r.2.log.map fun x => (x.name, (leavesAll x.items).map itemView)) =
    .ok [(1, [(5, false, 0)]), (2, [(5, false, 0)]), (3, [(5, true, 55)])] := rfl

/-- A service inside a nested tuple that is not there yet is a panic, not a wait. -/
theorem nested_service_panics :
    boot false (fun _ => 0) (fun w => (some false, w)) 9
      ([.component false ⟨1, [.tuple [.service 8]], fun w _ => (w, [], true)⟩] : List (Build Nat Nat)) [] 0 =
    .panic := rfl

/-- The value of a locked configuration that was already observed is replaced by a queued command: component
1 sees 50, component 3 sees 51. -/
theorem queued_config_changes :
    (boot false (fun _ => 0) (fun w => (some false, w)) 9
      ([.config 5 50, .component false ⟨1, [.config 5], fun w _ => (w, [], true)⟩,
        .component false ⟨2, [.commands], fun w _ => (w, [.queue (.addConfig 5 51)], true)⟩,
        .component false ⟨3, [.config 5], fun w _ => (w, [], true)⟩] : List (Build Nat Nat)) [] 0).map
      (fun r => r.2.log.map fun x => (x.name, (leavesAll x.items).map itemView)) =
    .ok [(1, [(5, true, 50)]), (2, [(0, false, 0)]), (3, [(5, true, 51)])] := rfl

/-- The same through `&mut Storage`, whose `get_config_mut` does not look at the lock. -/
theorem storage_mut_changes_locked :
    (boot false (fun _ => 0) (fun w => (some false, w)) 9
      ([.config 5 50, .component false ⟨1, [.config 5], fun w _ => (w, [], true)⟩,
        .component false ⟨2, [.storageMut], fun w _ => (w, [.setDirect 5 51], true)⟩,
        .component false ⟨3, [.config 5], fun w _ => (w, [], true)⟩] : List (Build Nat Nat)) [] 0).map
      (fun r => r.2.log.map fun x => (x.name, (leavesAll x.items).map itemView)) =
    .ok [(1, [(5, true, 50)]), (2, [(0, false, 0)]), (3, [(5, true, 51)])] := rfl

/-- `with_config` after `with_component` locks the configuration the component wants to change: it never
runs. With the two calls swapped it runs. -/
theorem with_config_order_matters :
    (boot false (fun _ => 0) (fun w => (some false, w)) 9
      ([.component false ⟨1, [.configMut 5], fun w _ => (w, [.set 0 51], true)⟩, .config 5 50] :
        List (Build Nat Nat)) [] 0).map (fun r => (r.2.log.map (·.name), r.1.map (·.comp.name))) = .ok ([], [1]) ∧
    (boot false (fun _ => 0) (fun w => (some false, w)) 9
      ([.config 5 50, .component false ⟨1, [.configMut 5], fun w _ => (w, [.set 0 51], true)⟩] :
        List (Build Nat Nat)) [] 0).map (fun r => (r.2.log.map (·.name), r.1.map (·.comp.name))) = .ok ([1], []) :=
  ⟨rfl, rfl⟩

end Verif.Component
