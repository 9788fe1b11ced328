import Verif.Resources.Steps
/-!
C52: after `add_hob_resource_descriptors_to_gcd` the address map is what the resource descriptors say.
-/
namespace Verif.Resources
open Verif.Gcd Verif.Hob

variable {nodeSize : Nat}

/-- The memory and I/O space of the machine come from some history of calls, and the memory map has been created. -/
structure Ready (nodeSize : Nat) (s : Machine) : Prop where
  mem : Reachable nodeSize s.mem
  map : s.mem.blocks ≠ []
  io : IoReachable s.io

/-- What one HOB does. -/
theorem addOne_ok {dbg : Bool} {steps : Nat} {free : Nat × Nat} {v : View} {s s' : Machine} (hs : Ready nodeSize s)
    (hf : free.1 ≤ free.2) (h : addOne dbg steps nodeSize free v s = .ok s') :
    Ready nodeSize s' ∧
    (∀ d attrs, resourceOf v = some (d, attrs) → d.start.toNat + d.length.toNat < W ∧
      (∀ ty, MapsTo d ty → attributesValid d.attr.toNat = true ∧ Adds dbg d ty attrs s.mem s'.mem (Reaches free d)) ∧
      (∀ ty, MapsToIo d ty → AddsIo d ty s.io s'.io) ∧
      ((∀ ty, ¬ MapsTo d ty) → s'.mem = s.mem) ∧ ((∀ ty, ¬ MapsToIo d ty) → s'.io = s.io)) ∧
    (resourceOf v = none → s' = s) := by
  unfold addOne at h
  split at h
  · rename_i hv
    simp only [Res.ok.injEq] at h
    subst h
    refine ⟨hs, fun d attrs e => ?_, fun _ => rfl⟩
    rw [hv] at e; cases e
  · rename_i d attrs hv
    split at h
    · cases h
    · rename_i hW
      obtain ⟨io, e1, h⟩ := Res.bind_ok h
      obtain ⟨mem, e2, h⟩ := Res.bind_ok h
      simp only [Res.ok.injEq] at h
      subst h
      obtain ⟨m1, m2, m3, m4⟩ := addMem_ok hs.mem hs.map hf (by omega) e2
      obtain ⟨i1, i2, i3⟩ := addIo_ok hs.io (by omega) e1
      refine ⟨⟨m3, m4, i3⟩, ?_, fun e => by rw [hv] at e; cases e⟩
      intro d' attrs' e
      rw [hv, Option.some.injEq, Prod.mk.injEq] at e
      obtain ⟨rfl, rfl⟩ := e
      refine ⟨by omega, ?_, i1, ?_, i2⟩
      · intro ty hm
        obtain ⟨rfl, hne⟩ := mapsTo_iff.1 hm
        exact m2 hne
      · intro hn
        apply m1
        apply Classical.byContradiction
        intro hk
        exact hn _ (mapsTo_iff.2 ⟨rfl, hk⟩)

theorem mapsTo_exists {d : ResourceDescriptor} {ty : MemType} (h : MapsTo d ty) : ty ≠ .nonExistent := (mapsTo_iff.1 h).2

theorem mapsTo_unique {d : ResourceDescriptor} {t t' : MemType} (h : MapsTo d t) (h' : MapsTo d t') : t = t' :=
  (mapsTo_iff.1 h).1.symm.trans (mapsTo_iff.1 h').1

theorem mapsToIo_unique {d : ResourceDescriptor} {t t' : IoType} (h : MapsToIo d t) (h' : MapsToIo d t') : t = t' := by
  cases h with
  | io h => cases h' with
    | io => rfl
    | reserved h' => rw [h] at h'; exact absurd h' (by decide)
  | reserved h => cases h' with
    | io h' => rw [h] at h'; exact absurd h' (by decide)
    | reserved => rfl

/-- A HOB does not touch memory that already exists. -/
theorem addOne_keeps {dbg : Bool} {steps : Nat} {free : Nat × Nat} {v : View} {s s' : Machine} (hs : Ready nodeSize s)
    (hf : free.1 ≤ free.2) (h : addOne dbg steps nodeSize free v s = .ok s') :
    (∀ a c, cellAt s.mem.blocks a = some c → c.type ≠ .nonExistent → cellAt s'.mem.blocks a = some c) ∧
    (∀ a c, cellAt s.io.map a = some c → c.type ≠ .nonExistent → cellAt s'.io.map a = some c) := by
  obtain ⟨_, h1, h2⟩ := addOne_ok hs hf h
  cases hv : resourceOf v with
  | none => rw [h2 hv]; exact ⟨fun _ _ hc _ => hc, fun _ _ hc _ => hc⟩
  | some p =>
    obtain ⟨d, attrs⟩ := p
    obtain ⟨_, m, i, m0, i0⟩ := h1 d attrs hv
    constructor
    · intro a c hc hn
      by_cases hm : ∃ ty, MapsTo d ty
      · obtain ⟨ty, hm⟩ := hm
        have had := (m ty hm).2
        rw [had.rest a ?_]; exact hc
        intro hin
        obtain ⟨c', e, t⟩ := had.before a hin
        rw [hc, Option.some.injEq] at e
        subst e
        exact hn t
      · rw [m0 (fun ty h => hm ⟨ty, h⟩)]; exact hc
    · intro a c hc hn
      by_cases hm : ∃ ty, MapsToIo d ty
      · obtain ⟨ty, hm⟩ := hm
        have had := i ty hm
        rw [had.rest a ?_]; exact hc
        intro hin
        obtain ⟨c', e, t⟩ := had.before a hin
        rw [hc, Option.some.injEq] at e
        subst e
        exact hn t
      · rw [i0 (fun ty h => hm ⟨ty, h⟩)]; exact hc

theorem addAll_keeps {dbg : Bool} {steps : Nat} {free : Nat × Nat} (hf : free.1 ≤ free.2) : ∀ {vs : List View} {s s' : Machine},
    Ready nodeSize s → addAll dbg steps nodeSize free vs s = .ok s' → Ready nodeSize s' ∧
    (∀ a c, cellAt s.mem.blocks a = some c → c.type ≠ .nonExistent → cellAt s'.mem.blocks a = some c) ∧
    (∀ a c, cellAt s.io.map a = some c → c.type ≠ .nonExistent → cellAt s'.io.map a = some c)
  | [], s, s', hs, h => by
    simp only [addAll, Res.ok.injEq] at h
    subst h
    exact ⟨hs, fun _ _ hc _ => hc, fun _ _ hc _ => hc⟩
  | v :: vs, s, s', hs, h => by
    obtain ⟨s1, e1, e2⟩ := Res.bind_ok h
    obtain ⟨k1, k2⟩ := addOne_keeps hs hf e1
    obtain ⟨r, l1, l2⟩ := addAll_keeps hf (addOne_ok hs hf e1).1 e2
    exact ⟨r, fun a c hc hn => l1 a c (k1 a c hc hn) hn, fun a c hc hn => l2 a c (k2 a c hc hn) hn⟩

theorem addAll_mapped {dbg : Bool} {steps : Nat} {free : Nat × Nat} (hf : free.1 ≤ free.2) : ∀ {vs : List View} {s s' : Machine},
    Ready nodeSize s → addAll dbg steps nodeSize free vs s = .ok s' → ∀ v ∈ vs, ∀ d attrs, resourceOf v = some (d, attrs) →
    d.start.toNat + d.length.toNat < W ∧
    (∀ ty, MapsTo d ty → attributesValid d.attr.toNat = true ∧ ∀ a, Reaches free d a →
      (∃ c, cellAt s.mem.blocks a = some c ∧ c.type = .nonExistent) ∧
      ∃ c, cellAt s'.mem.blocks a = some c ∧ Placed d ty c ∧
        (c.attrs = attributesOf ty attrs ∨ (dbg = false ∧ attrs ≠ none ∧ c.attrs = 0x2000))) ∧
    (∀ ty, MapsToIo d ty → ∀ a, Covers d a →
      (∃ c, cellAt s.io.map a = some c ∧ c.type = .nonExistent) ∧
      ∃ c, cellAt s'.io.map a = some c ∧ c.type = ty ∧ c.allocated = false)
  | [], s, s', hs, h => by intro v hv; cases hv
  | w :: vs, s, s', hs, h => by
    obtain ⟨s1, e1, e2⟩ := Res.bind_ok h
    obtain ⟨r1, o1, _⟩ := addOne_ok hs hf e1
    obtain ⟨_, k1, k2⟩ := addAll_keeps hf r1 e2
    intro v hv d attrs hd
    rcases List.mem_cons.1 hv with rfl | hv
    · obtain ⟨hW, m, i, _, _⟩ := o1 d attrs hd
      refine ⟨hW, fun ty hm => ⟨(m ty hm).1, fun a ha => ⟨(m ty hm).2.before a ha, ?_⟩⟩, fun ty hm a ha => ⟨(i ty hm).before a ha, ?_⟩⟩
      · obtain ⟨c, e, p, q⟩ := (m ty hm).2.after a ha
        exact ⟨c, k1 a c e (by rw [p.type]; exact mapsTo_exists hm), p, q⟩
      · obtain ⟨c, e, p, q⟩ := (i ty hm).after a ha
        refine ⟨c, k2 a c e (by rw [p]; cases hm <;> simp), p, q⟩
    · obtain ⟨hW, m, i⟩ := addAll_mapped hf r1 e2 v hv d attrs hd
      obtain ⟨q1, q2⟩ := addOne_keeps hs hf e1
      have key : ∀ {σ : Type} (P : σ → Prop) {x y : Option σ}, (∃ c, y = some c ∧ P c) → (x = none → y = none) →
          (∀ c, x = some c → ¬ P c → y = some c) → ∃ c, x = some c ∧ P c := by
        rintro σ P x y ⟨c, rfl, hp⟩ h1 h2
        cases x with
        | none => cases h1 rfl
        | some d =>
          refine ⟨d, rfl, ?_⟩
          apply Classical.byContradiction
          intro hn
          have := h2 d rfl hn
          rw [Option.some.injEq] at this
          subst this
          exact hn hp
      have n1 : ∀ a, cellAt s.mem.blocks a = none → cellAt s1.mem.blocks a = none := by
        intro a ha
        cases hw : resourceOf w with
        | none => rw [(addOne_ok hs hf e1).2.2 hw]; exact ha
        | some p =>
          obtain ⟨_, m', _, m0, _⟩ := o1 p.1 p.2 hw
          by_cases hm : ∃ ty, MapsTo p.1 ty
          · obtain ⟨ty, hm⟩ := hm
            rw [(m' ty hm).2.rest a]; exact ha
            intro hin
            obtain ⟨c, e, _⟩ := (m' ty hm).2.before a hin
            rw [ha] at e; cases e
          · rw [m0 fun ty h => hm ⟨ty, h⟩]; exact ha
      have n2 : ∀ a, cellAt s.io.map a = none → cellAt s1.io.map a = none := by
        intro a ha
        cases hw : resourceOf w with
        | none => rw [(addOne_ok hs hf e1).2.2 hw]; exact ha
        | some p =>
          obtain ⟨_, _, i', _, i0⟩ := o1 p.1 p.2 hw
          by_cases hm : ∃ ty, MapsToIo p.1 ty
          · obtain ⟨ty, hm⟩ := hm
            rw [(i' ty hm).rest a]; exact ha
            intro hin
            obtain ⟨c, e, _⟩ := (i' ty hm).before a hin
            rw [ha] at e; cases e
          · rw [i0 fun ty h => hm ⟨ty, h⟩]; exact ha
      refine ⟨hW, fun ty hm => ⟨(m ty hm).1, fun a ha => ⟨?_, ((m ty hm).2 a ha).2⟩⟩, fun ty hm a ha => ⟨?_, (i ty hm a ha).2⟩⟩
      · exact key (fun c => c.type = .nonExistent) ((m ty hm).2 a ha).1 (n1 a) (q1 a)
      · exact key (fun c => c.type = .nonExistent) (i ty hm a ha).1 (n2 a) (q2 a)

theorem addAll_rest {dbg : Bool} {steps : Nat} {free : Nat × Nat} (hf : free.1 ≤ free.2) : ∀ {vs : List View} {s s' : Machine},
    Ready nodeSize s → addAll dbg steps nodeSize free vs s = .ok s' →
    (∀ a, (∀ v ∈ vs, ∀ d attrs ty, resourceOf v = some (d, attrs) → MapsTo d ty → ¬ Reaches free d a) →
      cellAt s'.mem.blocks a = cellAt s.mem.blocks a) ∧
    (∀ a, (∀ v ∈ vs, ∀ d attrs ty, resourceOf v = some (d, attrs) → MapsToIo d ty → ¬ Covers d a) →
      cellAt s'.io.map a = cellAt s.io.map a)
  | [], s, s', hs, h => by
    simp only [addAll, Res.ok.injEq] at h
    subst h
    exact ⟨fun _ _ => rfl, fun _ _ => rfl⟩
  | w :: vs, s, s', hs, h => by
    obtain ⟨s1, e1, e2⟩ := Res.bind_ok h
    obtain ⟨r1, o1, o2⟩ := addOne_ok hs hf e1
    obtain ⟨l1, l2⟩ := addAll_rest hf r1 e2
    constructor
    · intro a ha
      rw [l1 a fun v hv => ha v (List.mem_cons_of_mem _ hv)]
      cases hw : resourceOf w with
      | none => rw [o2 hw]
      | some p =>
        obtain ⟨_, m, _, m0, _⟩ := o1 p.1 p.2 hw
        by_cases hm : ∃ ty, MapsTo p.1 ty
        · obtain ⟨ty, hm⟩ := hm
          exact (m ty hm).2.rest a (ha w List.mem_cons_self p.1 p.2 ty hw hm)
        · rw [m0 fun ty h => hm ⟨ty, h⟩]
    · intro a ha
      rw [l2 a fun v hv => ha v (List.mem_cons_of_mem _ hv)]
      cases hw : resourceOf w with
      | none => rw [o2 hw]
      | some p =>
        obtain ⟨_, _, i, _, i0⟩ := o1 p.1 p.2 hw
        by_cases hm : ∃ ty, MapsToIo p.1 ty
        · obtain ⟨ty, hm⟩ := hm
          exact (i ty hm).rest a (ha w List.mem_cons_self p.1 p.2 ty hw hm)
        · rw [i0 fun ty h => hm ⟨ty, h⟩]

end Verif.Resources
