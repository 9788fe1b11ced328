import Verif.Component.TableLemmas
/-! Every operation on the storage keeps its tables well formed; what it does to the stored values. -/
namespace Verif.Component
variable {V : Type}

namespace Storage

/-- The configuration of type `t`. -/
def cfg (s : Storage V) (t : Nat) : Option (Cfg V) := look s.configIdx s.configs t
/-- The service `t`. -/
def svc (s : Storage V) (t : Nat) : Option (Boxed V) := look s.serviceIdx s.services t
/-- The HOBs of type `t`. -/
def hob (s : Storage V) (t : Nat) : Option (List (Boxed V)) := look s.hobIdx s.hobs t

/-- The tables are well formed: every registered configuration and HOB type has a cell, and what is stored
for a type is of that type. -/
structure WF (s : Storage V) : Prop where
  cT : Tab s.configIdx s.configs
  sT : Tab s.serviceIdx s.services
  hT : Tab s.hobIdx s.hobs
  cV : ∀ t i, mget s.configIdx t = some i → ∃ c, s.cfg t = some c
  hV : ∀ t i, mget s.hobIdx t = some i → ∃ l, s.hob t = some l
  cTy : ∀ t c, s.cfg t = some c → c.ty = t
  sTy : ∀ t b, s.svc t = some b → b.ty = t
  hTy : ∀ t l, s.hob t = some l → ∀ b ∈ l, b.ty = t

/-- No index changes. -/
structure Ext (s s' : Storage V) : Prop where
  ce : ∀ t i, mget s.configIdx t = some i → mget s'.configIdx t = some i
  se : ∀ t i, mget s.serviceIdx t = some i → mget s'.serviceIdx t = some i
  he : ∀ t i, mget s.hobIdx t = some i → mget s'.hobIdx t = some i

theorem Ext.refl (s : Storage V) : Ext s s := ⟨fun _ _ h => h, fun _ _ h => h, fun _ _ h => h⟩
theorem Ext.trans {a b c : Storage V} (h : Ext a b) (k : Ext b c) : Ext a c :=
  ⟨fun t i e => k.ce t i (h.ce t i e), fun t i e => k.se t i (h.se t i e), fun t i e => k.he t i (h.he t i e)⟩

theorem WF.new : WF (new : Storage V) :=
  ⟨.nil, .nil, .nil, nofun, nofun, nofun, nofun, nofun⟩

/-- Changing nothing but the queue and the flags. -/
theorem WF.same {s s' : Storage V} (h : WF s) (hc : s'.configs = s.configs) (hci : s'.configIdx = s.configIdx)
    (hs : s'.services = s.services) (hsi : s'.serviceIdx = s.serviceIdx) (hh : s'.hobs = s.hobs)
    (hhi : s'.hobIdx = s.hobIdx) : WF s' := by
  obtain ⟨c, ci, sv, si, p, hb, hi, d, b, r⟩ := s
  obtain ⟨c', ci', sv', si', p', hb', hi', d', b', r'⟩ := s'
  simp only at hc hci hs hsi hh hhi
  subst hc hci hs hsi hh hhi
  exact ⟨h.cT, h.sT, h.hT, h.cV, h.hV, h.cTy, h.sTy, h.hTy⟩

/-- A configuration is stored: what is there afterwards. -/
theorem putConfig {s : Storage V} (h : WF s) {t : Nat} {idx : List (Nat × Nat)} {i : Nat}
    (hidx : idx = (entry s.configIdx t).2) (hi : i = (entry s.configIdx t).1) (c : Cfg V) (hc : c.ty = t)
    {s' : Storage V} (hs' : s' = { s with configIdx := idx, configs := sinsert s.configs i c }) :
    WF s' ∧ Ext s s' ∧ ∀ u, s'.cfg u = if u = t then some c else s.cfg u := by
  have hT := h.cT.entry t
  have hg : mget idx t = some i := by rw [hidx, hi]; exact entry_get _ _
  rw [← hidx] at hT
  have hlook : ∀ u, s'.cfg u = if u = t then some c else s.cfg u := by
    intro u; subst hs'
    show look idx (sinsert s.configs i c) u = _
    rw [hT.look_insert hg, hidx, h.cT.look_entry]; rfl
  refine ⟨⟨?_, ?_, ?_, ?_, ?_, ?_, ?_, ?_⟩, ⟨?_, ?_, ?_⟩, hlook⟩
  · subst hs'; exact hT.insert hg c
  · subst hs'; exact h.sT
  · subst hs'; exact h.hT
  · intro u j hu
    rw [hlook]
    by_cases e : u = t
    · exact ⟨c, by rw [if_pos e]⟩
    · rw [if_neg e]
      subst hs'
      have hu' : mget idx u = some j := hu
      rw [hidx, entry_other _ _ _ e] at hu'
      exact h.cV u j hu'
  · subst hs'; exact h.hV
  · intro u d hd
    rw [hlook] at hd
    by_cases e : u = t
    · rw [if_pos e] at hd; injection hd with hd; subst hd; rw [hc, e]
    · rw [if_neg e] at hd; exact h.cTy u d hd
  · subst hs'; exact h.sTy
  · subst hs'; exact h.hTy
  · intro u j hu; subst hs'
    show mget idx u = some j
    rw [hidx]; exact entry_keep _ _ _ _ hu
  · subst hs'; exact fun _ _ h => h
  · subst hs'; exact fun _ _ h => h

theorem addConfig_spec {s : Storage V} (h : WF s) (t : Nat) (v : V) :
    WF (s.addConfig t v) ∧ Ext s (s.addConfig t v) ∧
      ∀ u, (s.addConfig t v).cfg u = if u = t then some ⟨true, t, v⟩ else s.cfg u :=
  putConfig h rfl rfl ⟨true, t, v⟩ rfl rfl

theorem addConfigDefault_spec (dflt : Nat → V) {s : Storage V} (h : WF s) (t : Nat) :
    WF (s.addConfigDefault dflt t).2 ∧ Ext s (s.addConfigDefault dflt t).2 ∧
      mget (s.addConfigDefault dflt t).2.configIdx t = some (s.addConfigDefault dflt t).1 ∧
      ∀ u, (s.addConfigDefault dflt t).2.cfg u =
        if u = t then some ((s.cfg t).getD ⟨true, t, dflt t⟩) else s.cfg u := by
  unfold addConfigDefault
  by_cases hc : scontains (s.registerConfig t).2.configs (s.registerConfig t).1 = true
  · simp only [hc, if_true]
    have hl : ∀ u, (s.registerConfig t).2.cfg u = s.cfg u := fun u => h.cT.look_entry t u
    have hsome : ∃ c, s.cfg t = some c := by
      have : (s.registerConfig t).2.cfg t = sget s.configs (entry s.configIdx t).1 := by
        show look (entry s.configIdx t).2 s.configs t = _
        simp only [look, entry_get]
      rw [hl] at this
      rw [scontains_eq] at hc
      have hc' : (sget s.configs (entry s.configIdx t).1).isSome = true := hc
      rw [← this] at hc'
      exact Option.isSome_iff_exists.1 hc'
    obtain ⟨c, hct⟩ := hsome
    refine ⟨⟨h.cT.entry t, h.sT, h.hT, ?_, h.hV, ?_, h.sTy, h.hTy⟩, ⟨?_, fun _ _ h => h, fun _ _ h => h⟩,
      entry_get _ _, ?_⟩
    · intro u j hu
      rw [hl]
      by_cases e : u = t
      · subst e; exact ⟨c, hct⟩
      · exact h.cV u j (by rw [← entry_other _ _ _ e]; exact hu)
    · intro u d hd; rw [hl] at hd; exact h.cTy u d hd
    · intro u j hu; exact entry_keep _ _ _ _ hu
    · intro u
      rw [hl]
      by_cases e : u = t
      · subst e; rw [if_pos rfl, hct]; rfl
      · rw [if_neg e]
  · simp only [hc]
    have hnone : s.cfg t = none := by
      have h1 : (s.registerConfig t).2.cfg t = sget s.configs (entry s.configIdx t).1 := by
        show look (entry s.configIdx t).2 s.configs t = _
        simp only [look, entry_get]
      rw [show (s.registerConfig t).2.cfg t = s.cfg t from h.cT.look_entry t t] at h1
      rw [scontains_eq] at hc
      have hc' : ¬(sget s.configs (entry s.configIdx t).1).isSome = true := hc
      rw [h1]; simpa using hc'
    have := putConfig h (t := t) rfl rfl ⟨true, t, dflt t⟩ rfl (s' := _) rfl
    obtain ⟨hw, he, hl⟩ := this
    exact ⟨hw, he, entry_get _ _, fun u => by
      simp only [hnone]
      exact hl u⟩

/-- A cell is changed in place. -/
theorem modConfig {s : Storage V} (h : WF s) {t i : Nat} (ht : mget s.configIdx t = some i)
    (f : Cfg V → Cfg V) (hf : ∀ c, (f c).ty = c.ty) :
    WF { s with configs := smodify s.configs i f } ∧
      ∀ u, ({ s with configs := smodify s.configs i f } : Storage V).cfg u =
        if u = t then (s.cfg t).map f else s.cfg u := by
  have hl : ∀ u, ({ s with configs := smodify s.configs i f } : Storage V).cfg u =
      if u = t then (s.cfg t).map f else s.cfg u := fun u => h.cT.look_modify ht f u
  refine ⟨⟨h.cT.modify i f, h.sT, h.hT, ?_, h.hV, ?_, h.sTy, h.hTy⟩, hl⟩
  · intro u j hu
    rw [hl]
    obtain ⟨c, hc⟩ := h.cV u j hu
    by_cases e : u = t
    · subst e; rw [if_pos rfl, hc]; exact ⟨_, rfl⟩
    · rw [if_neg e]; exact ⟨c, hc⟩
  · intro u d hd
    rw [hl] at hd
    by_cases e : u = t
    · subst e
      rw [if_pos rfl] at hd
      obtain ⟨c, hc⟩ := h.cV u i ht
      rw [hc] at hd; injection hd with hd; subst hd
      rw [hf]; exact h.cTy u c hc
    · rw [if_neg e] at hd; exact h.cTy u d hd

theorem lockConfigs_cfg {s : Storage V} (u : Nat) :
    s.lockConfigs.cfg u = (s.cfg u).map fun c => { c with locked := true } := by
  show look s.configIdx (s.configs.map _) u = (look s.configIdx s.configs u).map _
  unfold look
  cases mget s.configIdx u with
  | none => rfl
  | some i => exact sget_map _ _ _

theorem lockConfigs_spec {s : Storage V} (h : WF s) : WF s.lockConfigs ∧ Ext s s.lockConfigs := by
  refine ⟨⟨⟨h.cT.bound, h.cT.inj, ?_⟩, h.sT, h.hT, ?_, h.hV, ?_, h.sTy, h.hTy⟩, fun _ _ h => h, fun _ _ h => h, fun _ _ h => h⟩
  · show (s.configs.map _).length ≤ _
    rw [List.length_map]; exact h.cT.small
  · intro u j hu
    obtain ⟨c, hc⟩ := h.cV u j hu
    rw [lockConfigs_cfg, hc]; exact ⟨_, rfl⟩
  · intro u d hd
    rw [lockConfigs_cfg] at hd
    cases hc : s.cfg u with
    | none => rw [hc] at hd; cases hd
    | some c => rw [hc] at hd; injection hd with hd; subst hd; exact h.cTy u c hc

theorem registerService_spec {s : Storage V} (h : WF s) (t : Nat) (v : V) :
    WF (s.registerService t ⟨t, v⟩) ∧ Ext s (s.registerService t ⟨t, v⟩) ∧
      ∀ u, (s.registerService t ⟨t, v⟩).svc u = if u = t then some ⟨t, v⟩ else s.svc u := by
  have hT := h.sT.entry t
  have hl : ∀ u, (s.registerService t ⟨t, v⟩).svc u = if u = t then some ⟨t, v⟩ else s.svc u := by
    intro u
    show look (entry s.serviceIdx t).2 (sinsert s.services (entry s.serviceIdx t).1 ⟨t, v⟩) u = _
    rw [hT.look_insert (entry_get _ _), h.sT.look_entry]; rfl
  refine ⟨⟨h.cT, hT.insert (entry_get _ _) _, h.hT, h.cV, h.hV, h.cTy, ?_, h.hTy⟩,
    ⟨fun _ _ h => h, fun u j hu => entry_keep _ _ _ _ hu, fun _ _ h => h⟩, hl⟩
  intro u b hb
  rw [hl] at hb
  by_cases e : u = t
  · rw [if_pos e] at hb; injection hb with hb; subst hb; exact e.symm
  · rw [if_neg e] at hb; exact h.sTy u b hb

theorem entryService_spec {s : Storage V} (h : WF s) (t : Nat) :
    WF { s with serviceIdx := (entry s.serviceIdx t).2 } ∧ Ext s { s with serviceIdx := (entry s.serviceIdx t).2 } ∧
      ∀ u, ({ s with serviceIdx := (entry s.serviceIdx t).2 } : Storage V).svc u = s.svc u := by
  have hl : ∀ u, ({ s with serviceIdx := (entry s.serviceIdx t).2 } : Storage V).svc u = s.svc u :=
    fun u => h.sT.look_entry t u
  exact ⟨⟨h.cT, h.sT.entry t, h.hT, h.cV, h.hV, h.cTy, fun u b hb => h.sTy u b (by rw [← hl]; exact hb), h.hTy⟩,
    ⟨fun _ _ h => h, fun u j hu => entry_keep _ _ _ _ hu, fun _ _ h => h⟩, hl⟩

/-- The value of service `u` after an implementation is registered under `ts`. -/
theorem addService_spec {s : Storage V} (h : WF s) (ts : List Nat) (v : V) :
    WF (s.addService ts v) ∧ Ext s (s.addService ts v) ∧ (s.addService ts v).configs = s.configs ∧
      (s.addService ts v).configIdx = s.configIdx ∧ (s.addService ts v).hobs = s.hobs ∧
      (s.addService ts v).hobIdx = s.hobIdx ∧
      ∀ u, (s.addService ts v).svc u = if u ∈ ts then some ⟨u, v⟩ else s.svc u := by
  induction ts generalizing s with
  | nil => exact ⟨h, .refl _, rfl, rfl, rfl, rfl, fun u => by simp [addService]⟩
  | cons t ts ih =>
    obtain ⟨h1, e1, l1⟩ := registerService_spec h t v
    obtain ⟨h2, e2, a, b, c, d, l2⟩ := ih h1
    refine ⟨h2, e1.trans e2, a, b, c, d, fun u => ?_⟩
    show ((s.registerService t ⟨t, v⟩).addService ts v).svc u = _
    rw [l2, l1]
    by_cases hu : u ∈ ts
    · simp [hu]
    · by_cases hut : u = t
      · subst hut; simp [hu]
      · simp [hu, hut]

theorem registerHob_spec {s : Storage V} (h : WF s) (t : Nat) :
    WF (s.registerHob t).2 ∧ Ext s (s.registerHob t).2 ∧
      mget (s.registerHob t).2.hobIdx t = some (s.registerHob t).1 ∧
      ∀ u, (s.registerHob t).2.hob u = if u = t then some ((s.hob t).getD []) else s.hob u := by
  have hT := h.hT.entry t
  have h1 : s.hob t = sget s.hobs (entry s.hobIdx t).1 := by
    have := h.hT.look_entry t t
    simp only [look, entry_get] at this
    rw [this]; rfl
  have hfin : ∀ (s' : Storage V), s'.configs = s.configs → s'.configIdx = s.configIdx → s'.services = s.services →
      s'.serviceIdx = s.serviceIdx → s'.hobIdx = (entry s.hobIdx t).2 → Tab s'.hobIdx s'.hobs →
      (∀ u, s'.hob u = if u = t then some ((s.hob t).getD []) else s.hob u) → WF s' ∧ Ext s s' := by
    intro s' a b c d e hT' hl
    refine ⟨⟨by rw [a, b]; exact h.cT, by rw [c, d]; exact h.sT, hT', ?_, ?_, ?_, ?_, ?_⟩, ⟨?_, ?_, ?_⟩⟩
    · intro u j hu; unfold cfg; rw [a, b]; rw [b] at hu; exact h.cV u j hu
    · intro u j hu
      rw [hl]
      by_cases e' : u = t
      · rw [if_pos e']; exact ⟨_, rfl⟩
      · rw [if_neg e']; exact h.hV u j (by rw [e, entry_other _ _ _ e'] at hu; exact hu)
    · intro u d; unfold cfg; rw [a, b]; exact h.cTy u d
    · intro u v; unfold svc; rw [c, d]; exact h.sTy u v
    · intro u l hul
      rw [hl] at hul
      by_cases e' : u = t
      · subst e'
        rw [if_pos rfl] at hul; injection hul with hul
        cases ho : s.hob u with
        | none => rw [ho] at hul; subst hul; simp
        | some l' => rw [ho] at hul; subst hul; exact h.hTy u l' ho
      · rw [if_neg e'] at hul; exact h.hTy u l hul
    · rw [b]; exact fun _ _ h => h
    · rw [d]; exact fun _ _ h => h
    · rw [e]; exact fun u j hu => entry_keep _ _ _ _ hu
  have key : Tab (entry s.hobIdx t).2 (hobCell s.hobs (entry s.hobIdx t).1) ∧
      ∀ u, look (entry s.hobIdx t).2 (hobCell s.hobs (entry s.hobIdx t).1) u =
        if u = t then some ((s.hob t).getD []) else s.hob u := by
    unfold hobCell
    cases hs : sget s.hobs (entry s.hobIdx t).1 with
    | some l =>
      refine ⟨hT, fun u => ?_⟩
      simp only []
      rw [h.hT.look_entry t u]
      by_cases e' : u = t
      · subst e'; rw [if_pos rfl, show look s.hobIdx s.hobs u = s.hob u from rfl, h1, hs]; rfl
      · rw [if_neg e']; rfl
    | none =>
      refine ⟨hT.insert (entry_get _ _) [], fun u => ?_⟩
      rw [hT.look_insert (entry_get _ _), h.hT.look_entry, h1, hs]; rfl
  have := hfin (s.registerHob t).2 rfl rfl rfl rfl rfl key.1 key.2
  exact ⟨this.1, this.2, entry_get _ _, key.2⟩

theorem addHob_spec {s : Storage V} (h : WF s) (t : Nat) (v : V) :
    WF (s.addHob t v) ∧ Ext s (s.addHob t v) ∧
      ∀ u, (s.addHob t v).hob u = if u = t then some ((s.hob t).getD [] ++ [⟨t, v⟩]) else s.hob u := by
  obtain ⟨h1, e1, g1, l1⟩ := registerHob_spec h t
  have hl : ∀ u, (s.addHob t v).hob u = if u = t then some ((s.hob t).getD [] ++ [⟨t, v⟩]) else s.hob u := by
    intro u
    show look (s.registerHob t).2.hobIdx (smodify (s.registerHob t).2.hobs (s.registerHob t).1 _) u = _
    rw [h1.hT.look_modify g1]
    have lt := l1 t
    rw [if_pos rfl] at lt
    rw [show look (s.registerHob t).2.hobIdx (s.registerHob t).2.hobs t = some ((s.hob t).getD []) from lt]
    by_cases e : u = t
    · rw [if_pos e, if_pos e]; rfl
    · rw [if_neg e, if_neg e]
      have := l1 u
      rw [if_neg e] at this; exact this
  refine ⟨⟨h1.cT, h1.sT, h1.hT.modify _ _, h1.cV, ?_, h1.cTy, h1.sTy, ?_⟩, ⟨e1.ce, e1.se, e1.he⟩, hl⟩
  · intro u j hu
    rw [hl]
    by_cases e : u = t
    · rw [if_pos e]; exact ⟨_, rfl⟩
    · rw [if_neg e]
      obtain ⟨l, hl'⟩ := h1.hV u j hu
      rw [l1, if_neg e] at hl'
      exact ⟨l, hl'⟩
  · intro u l hul b hb
    rw [hl] at hul
    by_cases e : u = t
    · subst e
      rw [if_pos rfl] at hul; injection hul with hul; subst hul
      rcases List.mem_append.1 hb with hb | hb
      · have := h1.hTy u _ (by rw [l1, if_pos rfl]) b hb
        exact this
      · simp at hb; subst hb; rfl
    · rw [if_neg e] at hul; exact h.hTy u l hul b hb

end Storage
end Verif.Component
