import Verif.Component.StorageLemmas
/-!
Property C49: whatever is stored is found again under the type it was stored for, and under no other;
looking something up never fails on its type.
-/
namespace Verif.Component
variable {V : Type}

/-- The calls that change the storage. `want…` is what registering a parameter does to the storage. -/
inductive Op (V : Type) where
  | addConfig (t : Nat) (v : V)
  | setConfig (t : Nat) (v : V)
  | lockAll
  | wantConfig (t : Nat)
  | wantConfigMut (t : Nat)
  | addService (ts : List Nat) (v : V)
  | wantService (t : Nat)
  | addHob (t : Nat) (v : V)
  | wantHob (t : Nat)

/-- One call. -/
def Op.run (dflt : Nat → V) (s : Storage V) : Op V → Storage V
  | .addConfig t v => s.addConfig t v
  | .setConfig t v =>
    match mget s.configIdx t with
    | some i => s.writeConfig i v
    | none => s
  | .lockAll => s.lockConfigs
  | .wantConfig t => (s.addConfigDefault dflt t).2
  | .wantConfigMut t => (s.addConfigDefault dflt t).2.unlockConfig (s.addConfigDefault dflt t).1
  | .addService ts v => s.addService ts v
  | .wantService t => { s with serviceIdx := (entry s.serviceIdx t).2 }
  | .addHob t v => s.addHob t v
  | .wantHob t => (s.registerHob t).2

/-- The specification: the configuration of type `u` after a call, given the one before. -/
def Op.config (dflt : Nat → V) (u : Nat) (old : Option V) : Op V → Option V
  | .addConfig t v => if t = u then some v else old
  | .setConfig t v => if t = u then old.map fun _ => v else old
  | .wantConfig t => if t = u then some (old.getD (dflt t)) else old
  | .wantConfigMut t => if t = u then some (old.getD (dflt t)) else old
  | _ => old

/-- The specification: the service `u` after a call. -/
def Op.service (u : Nat) (old : Option V) : Op V → Option V
  | .addService ts v => if u ∈ ts then some v else old
  | _ => old

/-- The specification: the HOBs of type `u` after a call. -/
def Op.hobs (u : Nat) (old : List V) : Op V → List V
  | .addHob t v => if t = u then old ++ [v] else old
  | _ => old

/-- `None` for no HOBs at all. -/
def nonEmpty (l : List V) : Option (List V) := if l.isEmpty then none else some l

open Storage

theorem derefAll_ok {t : Nat} : ∀ {l : List (Boxed V)}, (∀ b ∈ l, b.ty = t) → derefAll t l = .ok (l.map (·.val))
  | [], _ => rfl
  | b :: bs, h => by
    have hb := h b (by simp)
    simp only [derefAll, if_pos hb, derefAll_ok (l := bs) (fun c hc => h c (by simp [hc])), Outcome.ok_bind,
      List.map_cons]

theorem getConfig_eq {s : Storage V} (h : WF s) (t : Nat) : s.getConfig t = .ok ((s.cfg t).map (·.val)) := by
  unfold getConfig
  cases hm : mget s.configIdx t with
  | none => simp [cfg, look, hm]
  | some i =>
    obtain ⟨c, hc⟩ := h.cV t i hm
    have := h.cTy t c hc
    have hs : sget s.configs i = some c := by simpa [cfg, look, hm] using hc
    simp [hs, this, hc]

theorem getService_eq {s : Storage V} (h : WF s) (t : Nat) : s.getService t = .ok ((s.svc t).map (·.val)) := by
  unfold getService
  cases hm : mget s.serviceIdx t with
  | none => simp [svc, look, hm]
  | some i =>
    have hl : s.svc t = sget s.services i := by simp [svc, look, hm]
    cases hs : sget s.services i with
    | none => simp [hl, hs]
    | some b =>
      have := h.sTy t b (by rw [hl, hs])
      simp [this, hl, hs]

theorem getHob_eq {s : Storage V} (h : WF s) (t : Nat) :
    s.getHob t = .ok (nonEmpty (((s.hob t).getD []).map (·.val))) := by
  unfold getHob
  cases hm : mget s.hobIdx t with
  | none => simp [Storage.hob, look, hm, nonEmpty]
  | some i =>
    have hl : s.hob t = sget s.hobs i := by simp [Storage.hob, look, hm]
    cases hs : sget s.hobs i with
    | none => simp [hl, hs, nonEmpty]
    | some l =>
      cases l with
      | nil => simp [hl, hs, nonEmpty]
      | cons b bs =>
        have := derefAll_ok (t := t) (l := b :: bs) (h.hTy t _ (by rw [hl, hs]))
        simp only [this, Outcome.ok_bind, hl, hs, Option.getD_some]
        simp [nonEmpty]

/-- What the storage holds, as the specification sees it. -/
def Holds (s : Storage V) (c : Nat → Option V) (v : Nat → Option V) (h : Nat → List V) : Prop :=
  ∀ t, (s.cfg t).map (·.val) = c t ∧ (s.svc t).map (·.val) = v t ∧ ((s.hob t).getD []).map (·.val) = h t

theorem map_ite_map {c : Cfg V → Cfg V} (o : Option (Cfg V)) (hc : ∀ x, (c x).val = x.val) :
    (o.map c).map (·.val) = o.map (·.val) := by cases o <;> simp [hc]

theorem step_holds (dflt : Nat → V) {s : Storage V} (h : WF s) (o : Op V) :
    WF (o.run dflt s) ∧ ∀ u, ((o.run dflt s).cfg u).map (·.val) = o.config dflt u ((s.cfg u).map (·.val)) ∧
      ((o.run dflt s).svc u).map (·.val) = o.service u ((s.svc u).map (·.val)) ∧
      (((o.run dflt s).hob u).getD []).map (·.val) = o.hobs u (((s.hob u).getD []).map (·.val)) := by
  cases o with
  | addConfig t v =>
    obtain ⟨a, _, c⟩ := addConfig_spec h t v
    refine ⟨a, fun u => ⟨?_, rfl, rfl⟩⟩
    simp only [Op.run, Op.config, c]
    by_cases e : u = t
    · simp [e]
    · simp [e, Ne.symm e]
  | setConfig t v =>
    simp only [Op.run]
    cases hm : mget s.configIdx t with
    | none =>
      have hn : s.cfg t = none := by simp [cfg, look, hm]
      refine ⟨h, fun u => ⟨?_, rfl, rfl⟩⟩
      simp only [Op.config]
      by_cases e : t = u
      · subst e; simp [hn]
      · simp [e]
    | some i =>
      obtain ⟨a, c⟩ := modConfig h hm (fun c => { c with val := v }) (fun _ => rfl)
      refine ⟨a, fun u => ⟨?_, rfl, rfl⟩⟩
      show (Storage.cfg (Storage.writeConfig s i v) u).map _ = _
      unfold Storage.writeConfig
      rw [c]
      simp only [Op.config]
      by_cases e : u = t
      · subst e; simp only [if_true]; cases s.cfg u <;> rfl
      · simp [e, Ne.symm e]
  | lockAll =>
    refine ⟨(lockConfigs_spec h).1, fun u => ⟨?_, rfl, rfl⟩⟩
    simp only [Op.run, lockConfigs_cfg, Op.config]
    exact map_ite_map _ fun _ => rfl
  | wantConfig t =>
    obtain ⟨a, _, _, c⟩ := addConfigDefault_spec dflt h t
    have hsv : (s.addConfigDefault dflt t).2.svc = s.svc := by
      unfold addConfigDefault; simp only []; split <;> rfl
    have hhb : (s.addConfigDefault dflt t).2.hob = s.hob := by
      unfold addConfigDefault; simp only []; split <;> rfl
    refine ⟨a, fun u => ⟨?_, by simp only [Op.run, hsv, Op.service], by simp only [Op.run, hhb, Op.hobs]⟩⟩
    simp only [Op.run, Op.config, c]
    by_cases e : u = t
    · subst e; simp only [if_true]; cases s.cfg u <;> rfl
    · simp [e, Ne.symm e]
  | wantConfigMut t =>
    obtain ⟨a, _, g, c⟩ := addConfigDefault_spec dflt h t
    have hsv : (s.addConfigDefault dflt t).2.svc = s.svc := by
      unfold addConfigDefault; simp only []; split <;> rfl
    have hhb : (s.addConfigDefault dflt t).2.hob = s.hob := by
      unfold addConfigDefault; simp only []; split <;> rfl
    obtain ⟨a', c'⟩ := modConfig a g (fun c => { c with locked := false }) (fun _ => rfl)
    refine ⟨a', fun u => ⟨?_, ?_, ?_⟩⟩
    · simp only [Op.run]
      unfold unlockConfig
      rw [c']
      simp only [c, Op.config]
      by_cases e : u = t
      · subst e; simp only [if_true]; cases s.cfg u <;> rfl
      · simp [e, Ne.symm e]
    · show ((s.addConfigDefault dflt t).2.svc u).map _ = _
      rw [hsv]; rfl
    · show (((s.addConfigDefault dflt t).2.hob u).getD []).map _ = _
      rw [hhb]; rfl
  | addService ts v =>
    obtain ⟨a, _, h1, h2, h3, h4, c⟩ := addService_spec h ts v
    refine ⟨a, fun u => ⟨?_, ?_, ?_⟩⟩
    · simp only [Op.run, cfg, h1, h2, Op.config]
    · simp only [Op.run, c, Op.service]
      by_cases e : u ∈ ts <;> simp [e]
    · simp only [Op.run, Storage.hob, h3, h4, Op.hobs]
  | wantService t =>
    obtain ⟨a, _, c⟩ := entryService_spec h t
    refine ⟨a, fun u => ⟨rfl, ?_, rfl⟩⟩
    simp only [Op.run, c, Op.service]
  | addHob t v =>
    obtain ⟨a, _, c⟩ := addHob_spec h t v
    refine ⟨a, fun u => ⟨rfl, rfl, ?_⟩⟩
    simp only [Op.run, c, Op.hobs]
    by_cases e : u = t
    · subst e; simp
    · simp [e, Ne.symm e]
  | wantHob t =>
    obtain ⟨a, _, _, c⟩ := registerHob_spec h t
    refine ⟨a, fun u => ⟨rfl, rfl, ?_⟩⟩
    simp only [Op.run, c, Op.hobs]
    by_cases e : u = t
    · subst e; simp
    · simp [e]

/-- **C49.** After any sequence of calls on a new storage, looking up a configuration, a service or the
HOBs of any type never panics and gives exactly what these calls stored for that type. -/
theorem lookup_spec (dflt : Nat → V) (ops : List (Op V)) (t : Nat) :
    (ops.foldl (Op.run dflt) Storage.new).getConfig t = .ok (ops.foldl (fun o op => op.config dflt t o) none) ∧
    (ops.foldl (Op.run dflt) Storage.new).getService t = .ok (ops.foldl (fun o op => op.service t o) none) ∧
    (ops.foldl (Op.run dflt) Storage.new).getHob t = .ok (nonEmpty (ops.foldl (fun o op => op.hobs t o) [])) := by
  have key : ∀ (ops : List (Op V)) (s : Storage V), WF s → WF (ops.foldl (Op.run dflt) s) ∧
      ((ops.foldl (Op.run dflt) s).cfg t).map (·.val) =
        ops.foldl (fun o op => op.config dflt t o) ((s.cfg t).map (·.val)) ∧
      ((ops.foldl (Op.run dflt) s).svc t).map (·.val) =
        ops.foldl (fun o op => op.service t o) ((s.svc t).map (·.val)) ∧
      (((ops.foldl (Op.run dflt) s).hob t).getD []).map (·.val) =
        ops.foldl (fun o op => op.hobs t o) (((s.hob t).getD []).map (·.val)) := by
    intro ops
    induction ops with
    | nil => exact fun s h => ⟨h, rfl, rfl, rfl⟩
    | cons o ops ih =>
      intro s h
      obtain ⟨h1, h2⟩ := step_holds dflt h o
      obtain ⟨a, b, c, d⟩ := ih (o.run dflt s) h1
      obtain ⟨x, y, z⟩ := h2 t
      refine ⟨a, ?_, ?_, ?_⟩
      · rw [List.foldl_cons, List.foldl_cons, b, x]
      · rw [List.foldl_cons, List.foldl_cons, c, y]
      · rw [List.foldl_cons, List.foldl_cons, d, z]
  obtain ⟨a, b, c, d⟩ := key ops Storage.new WF.new
  refine ⟨?_, ?_, ?_⟩
  · rw [getConfig_eq a, b]; rfl
  · rw [getService_eq a, c]; rfl
  · rw [getHob_eq a, d]; rfl

/-- Two configurations, one asked for before it is set, a service under two traits, and two HOBs. -/
example :
    let ops : List (Op Nat) := [.wantConfig 5, .wantService 8, .addConfig 7 70, .addService [8, 9] 80,
      .wantConfigMut 7, .setConfig 7 71, .addHob 3 30, .addConfig 5 50, .addHob 3 31]
    let s := ops.foldl (Op.run fun _ => 0) Storage.new
    (s.getConfig 5, s.getConfig 7, s.getConfig 6, s.getService 9, s.getService 7, s.getHob 3, s.getHob 5) =
      (.ok (some 50), .ok (some 71), .ok none, .ok (some 80), .ok none, .ok (some [30, 31]), .ok none) := rfl

/-- A service registered by hand the way the documentation of `IntoService::register_service` shows
(service.rs lines 143-166: the leaked value is a `Box<dyn T>`, a type `b` other than the `&'static T` that
`Deref` asks for) is found, but using it runs into the unreachable branch of `Deref`. -/
theorem boxed_service_unusable (t b : Nat) (v : V) (h : b ≠ t) :
    (Storage.new.registerService t ⟨b, v⟩).getService t = .panic := by
  have : ¬ (b = t) := h
  simp [Storage.new, registerService, getService, entry, mget, sinsert, sget, this]

end Verif.Component
