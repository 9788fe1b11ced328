import Verif.Resources.Lemmas
/-! The single steps of adding a resource. -/
namespace Verif.Resources
open Verif.Gcd Verif.Hob

variable {nodeSize : Nat} {g g' : Gcd} {base len : Nat}

theorem reachable_add (hr : Reachable nodeSize g) {ty : MemType} {caps : Nat} (hb : base < W) (hl : len < W) (hc : caps < W) :
    Reachable nodeSize (g.add nodeSize ty base len caps).2 := by
  obtain ⟨bits, prio, ops, ho, rfl⟩ := hr
  refine ⟨bits, prio, ops ++ [.add ty base len caps], ?_, ?_⟩
  · intro op h
    rcases List.mem_append.1 h with h | h
    · exact ho op h
    · rw [List.mem_singleton.1 h]; exact ⟨hb, hl, hc⟩
  · simp [Gcd.run, Gcd.step]

theorem reachable_set (hr : Reachable nodeSize g) {attrs : Nat} (hb : base < W) (hl : len < W) (hc : attrs < W) :
    Reachable nodeSize (g.setAttributes base len attrs).2 := by
  obtain ⟨bits, prio, ops, ho, rfl⟩ := hr
  refine ⟨bits, prio, ops ++ [.setAttributes base len attrs], ?_, ?_⟩
  · intro op h
    rcases List.mem_append.1 h with h | h
    · exact ho op h
    · rw [List.mem_singleton.1 h]; exact ⟨hb, hl, hc⟩
  · simp [Gcd.run, Gcd.step]

theorem updated_ne {l l' : List (Block Cell)} {c : Cell} (hp : 0 < len) (h : Updated l l' base len c) : l' ≠ [] := by
  intro e
  have := h base
  rw [e, if_pos ⟨Nat.le_refl _, by omega⟩] at this
  cases this

/-- On a range in one state the loop sets the attributes once. -/
theorem setEarly_uniform (hr : Reachable nodeSize g) {c : Cell} (hu : Uniform g.blocks base len c) (dbg : Bool) (attrs : Nat) :
    (∀ steps, setEarly dbg (steps + 2) base len attrs g =
      match g.setAttributes base len attrs with
      | (.ok _, g') => .ok (pagingResult attrs (.ok ()), g')
      | (.err _, g') => if dbg then .panic else .ok (pagingResult attrs (.ok ()), g')
      | (.panic, _) => .panic) ∧
    (∀ r, setEarly dbg 0 base len attrs g ≠ .ok r) ∧ ∀ r, setEarly dbg 1 base len attrs g ≠ .ok r := by
  have hi := (reachable_inv hr).inv
  have hb := addw_le hi hu
  have hp := hu.1
  have hW := hi.ltW
  rcases hi.map with ⟨_, hn⟩ | ⟨_, hg, _⟩
  · rw [hn] at hu; exact absurd hu uniform_nil
  obtain ⟨z, hz, hplug, hbase, hin, _⟩ := seek_spec (k := base) hg.tiles hi.pos
  have hmem : z.cur ∈ g.blocks := by rw [← hplug]; exact mem_plug z
  obtain ⟨⟨_, _, hend⟩, _⟩ := uniform_holds hg hu hmem hbase (hin (by omega))
  have hcur := tiles_mem hg.tiles hmem
  have hd : g.descriptorFor base = .ok z.cur := by
    unfold Gcd.descriptorFor
    rw [if_neg (by have := hi.pos; omega), hz]
  have hadd : addw z.cur.base z.cur.len = z.cur.base + z.cur.len := by
    unfold addw; exact Nat.mod_eq_of_lt (by omega)
  have hmin : min (addw z.cur.base z.cur.len) (addw base len) = base + len := by
    rw [hadd, hb.2]; omega
  have hsub : subw (base + len) base = len := by
    unfold subw
    have : base + len + W - base = len + W := by omega
    rw [this, Nat.add_mod_right, Nat.mod_eq_of_lt (by omega)]
  refine ⟨fun steps => ?_, fun r h => (by cases h), fun r h => ?_⟩
  · unfold setEarly
    rw [setEarlyLoop, if_neg (by rw [hb.2]; omega), hd]
    simp only [hmin, hsub]
    cases g.setAttributes base len attrs with
    | mk o g1 =>
      cases o with
      | ok _ => simp only [setEarlyLoop]; rw [if_pos (by rw [hb.2]; omega)]
      | err _ =>
        cases dbg with
        | true => simp
        | false => simp only [Bool.false_eq_true, if_false, setEarlyLoop]; rw [if_pos (by rw [hb.2]; omega)]
      | panic => rfl
  · unfold setEarly at h
    rw [setEarlyLoop, if_neg (by rw [hb.2]; omega), hd] at h
    simp only [hmin, hsub] at h
    revert h
    cases g.setAttributes base len attrs with
    | mk o g1 =>
      cases o <;> simp only [setEarlyLoop] <;> intro h
      · cases h
      · cases dbg <;> cases h
      · cases h

/-- What can come of it. -/
theorem setEarly_ok (hr : Reachable nodeSize g) {c : Cell} (hu : Uniform g.blocks base len c) {dbg : Bool} {attrs steps : Nat}
    {r : Outcome EfiError Unit × Gcd} (h : setEarly dbg steps base len attrs g = .ok r) :
    r.1 = pagingResult attrs (.ok ()) ∧ (g.setAttributes base len attrs = (.ok (), r.2) ∨ (dbg = false ∧ r.2 = g)) := by
  obtain ⟨h2, h0, h1⟩ := setEarly_uniform hr hu dbg attrs
  match steps, h with
  | 0, h => exact absurd h (h0 r)
  | 1, h => exact absurd h (h1 r)
  | steps + 2, h =>
    rw [h2 steps] at h
    have hl : len < W := by
      have := addw_le (reachable_inv hr).inv hu
      have := (reachable_inv hr).inv.ltW
      omega
    have herr := fun e g'' => set_attributes_err (g' := g'') (e := e) hr hl (base := base) (attrs := attrs)
    revert h herr
    generalize g.setAttributes base len attrs = y
    obtain ⟨o, g1⟩ := y
    intro h herr
    cases o with
    | ok u => simp only [Res.ok.injEq] at h; subst h; exact ⟨rfl, .inl rfl⟩
    | err e =>
      have hg := herr e g1 rfl
      cases dbg with
      | true => simp at h
      | false =>
        simp only [Bool.false_eq_true, if_false, Res.ok.injEq] at h
        subst h
        exact ⟨rfl, .inr ⟨rfl, hg⟩⟩
    | panic => cases h

/-- `g'` is `g` after adding, where nothing existed, memory of the descriptor `d` at the addresses `S`. -/
structure Adds (dbg : Bool) (d : ResourceDescriptor) (ty : MemType) (attrs : Option Nat) (g g' : Gcd) (S : Nat → Prop) : Prop where
  before : ∀ a, S a → ∃ c, cellAt g.blocks a = some c ∧ c.type = .nonExistent
  after : ∀ a, S a → ∃ c, cellAt g'.blocks a = some c ∧ Placed d ty c ∧
    (c.attrs = attributesOf ty attrs ∨ (dbg = false ∧ attrs ≠ none ∧ c.attrs = 0x2000))
  rest : ∀ a, ¬ S a → cellAt g'.blocks a = cellAt g.blocks a

theorem in_sub {r : Nat × Nat} (hr : r.1 ≤ r.2) (a : Nat) : (r.1 ≤ a ∧ a < r.1 + (r.2 - r.1)) ↔ In r a := by
  unfold In; omega

theorem addPiece_ok (hr : Reachable nodeSize g) (hne : g.blocks ≠ []) {dbg : Bool} {steps : Nat} {ty : MemType}
    {d : ResourceDescriptor} {attrs : Option Nat} {r : Nat × Nat} (h1 : r.1 < W) (h2 : r.2 < W)
    (h : addPiece dbg steps nodeSize ty (getCapabilities ty d.attr.toNat) (attrs.map (wanted ty)) r g = .ok g') :
    Adds dbg d ty attrs g g' (In r) ∧ Reachable nodeSize g' ∧ g'.blocks ≠ [] := by
  have hl : r.2 - r.1 < W := by omega
  unfold addPiece at h
  have hra := reachable_add (base := r.1) hr (ty := ty) h1 hl (getCapabilities_lt (ty := ty) (d := d))
  have hok := fun g1 => add_ok (base := r.1) (len := r.2 - r.1) (ty := ty) (g' := g1) (caps := getCapabilities ty d.attr.toNat) hr hne hl
  revert h hra hok
  generalize g.add nodeSize ty r.1 (r.2 - r.1) (getCapabilities ty d.attr.toNat) = y
  obtain ⟨o, g1⟩ := y
  intro h hra hok
  cases o with
  | err e => cases h
  | panic => cases h
  | ok u =>
    simp only [] at h hra
    obtain ⟨c, hu, ha, ht, hty, hup, _⟩ := hok g1 rfl
    have hle : r.1 ≤ r.2 := by have := hu.1; omega
    have hin := in_sub hle
    have hbefore : ∀ a, In r a → ∃ c, cellAt g.blocks a = some c ∧ c.type = .nonExistent :=
      fun a hi => ⟨c, hu.2 a ((hin a).2 hi).1 ((hin a).2 hi).2, ht⟩
    have hcell : ∀ a, cellAt g1.blocks a = if In r a then some { c with
        type := ty, attrs := 0x2000,
        caps := getCapabilities ty d.attr.toNat ||| 0x8000000000026000 |||
          (if ty = .memoryMappedIo then 0x4000000000000000 else 0) } else cellAt g.blocks a := by
      intro a
      rw [hup a]
      by_cases hi : In r a
      · rw [if_pos ((hin a).2 hi), if_pos hi]
      · rw [if_neg (fun x => hi ((hin a).1 x)), if_neg hi]
    have hn1 : g1.blocks ≠ [] := updated_ne hu.1 hup
    cases attrs with
    | none =>
      simp only [Option.map_none, setWanted, Res.ok.injEq] at h
      subst h
      refine ⟨⟨hbefore, ?_, ?_⟩, hra, hn1⟩
      · intro a hi
        rw [hcell a, if_pos hi]
        exact ⟨_, rfl, ⟨ha, rfl, placed_caps⟩, .inl rfl⟩
      · intro a hi; rw [hcell a, if_neg hi]
    | some x =>
      simp only [Option.map_some, setWanted] at h
      have hu1 : Uniform g1.blocks r.1 (r.2 - r.1) { c with
          type := ty, attrs := 0x2000,
          caps := getCapabilities ty d.attr.toNat ||| 0x8000000000026000 |||
            (if ty = .memoryMappedIo then 0x4000000000000000 else 0) } :=
        ⟨hu.1, fun a b1 b2 => by rw [hcell a, if_pos ((hin a).1 ⟨b1, b2⟩)]⟩
      have hse := fun y => setEarly_ok (r := y) hra hu1 (dbg := dbg) (attrs := wanted ty x) (steps := steps)
      revert h hse
      generalize setEarly dbg steps r.1 (r.2 - r.1) (wanted ty x) g1 = z
      intro h hse
      cases z with
      | panic => cases h
      | running => cases h
      | ok y =>
        obtain ⟨_, hy⟩ := hse y rfl
        simp only [Res.bind, expectNotReady] at h
        split at h
        · simp only [Res.ok.injEq] at h
          subst h
          rcases hy with hy | ⟨hd, hy⟩
          · have hrs := reachable_set (base := r.1) hra h1 hl (wanted_lt ty x)
            obtain ⟨c1, hu2, _, _, hup2, _⟩ := set_attributes_ok hra hl hy
            have hc1 := uniform_unique hu1 hu2
            subst hc1
            rw [hy] at hrs
            have hc2 : ∀ a, In r a → cellAt y.2.blocks a = some _ := fun a hi => by
              rw [hup2 a, if_pos ((hin a).2 hi)]
            refine ⟨⟨hbefore, ?_, ?_⟩, hrs, updated_ne hu.1 hup2⟩
            · intro a hi
              exact ⟨_, hc2 a hi, ⟨ha, rfl, placed_caps⟩, .inl (wanted_eq ty x)⟩
            · intro a hi
              rw [hup2 a, if_neg (fun z => hi ((hin a).1 z)), hcell a, if_neg hi]
          · rw [hy]
            refine ⟨⟨hbefore, ?_, ?_⟩, hra, hn1⟩
            · intro a hi
              rw [hcell a, if_pos hi]
              exact ⟨_, rfl, ⟨ha, rfl, placed_caps⟩, .inr ⟨hd, by simp, rfl⟩⟩
            · intro a hi; rw [hcell a, if_neg hi]
        · cases h

theorem Adds.none {dbg : Bool} {d : ResourceDescriptor} {ty : MemType} {attrs : Option Nat} {g : Gcd} {S : Nat → Prop}
    (h : ∀ a, ¬ S a) : Adds dbg d ty attrs g g S :=
  ⟨fun a ha => absurd ha (h a), fun a ha => absurd ha (h a), fun _ _ => rfl⟩

theorem Adds.trans {dbg : Bool} {d : ResourceDescriptor} {ty : MemType} {attrs : Option Nat} {g1 g2 g3 : Gcd} {S T : Nat → Prop}
    (hty : ty ≠ .nonExistent) (h1 : Adds dbg d ty attrs g1 g2 S) (h2 : Adds dbg d ty attrs g2 g3 T) :
    Adds dbg d ty attrs g1 g3 (fun a => S a ∨ T a) := by
  have hdis : ∀ a, S a → ¬ T a := by
    intro a hs ht
    obtain ⟨c, e1, p, _⟩ := h1.after a hs
    obtain ⟨c', e2, n⟩ := h2.before a ht
    rw [e1, Option.some.injEq] at e2
    subst e2
    exact hty (p.type.symm.trans n)
  refine ⟨?_, ?_, ?_⟩
  · rintro a (hs | ht)
    · exact h1.before a hs
    · rw [← h1.rest a (fun hs => hdis a hs ht)]; exact h2.before a ht
  · rintro a (hs | ht)
    · rw [h2.rest a (hdis a hs)]; exact h1.after a hs
    · exact h2.after a ht
  · intro a hn
    rw [h2.rest a (fun h => hn (.inr h)), h1.rest a (fun h => hn (.inl h))]

theorem Adds.congr {dbg : Bool} {d : ResourceDescriptor} {ty : MemType} {attrs : Option Nat} {g g' : Gcd} {S T : Nat → Prop}
    (h : Adds dbg d ty attrs g g' S) (hst : ∀ a, S a ↔ T a) : Adds dbg d ty attrs g g' T :=
  ⟨fun a ha => h.before a ((hst a).2 ha), fun a ha => h.after a ((hst a).2 ha), fun a ha => h.rest a (fun x => ha ((hst a).1 x))⟩

theorem Res.bind_ok {α β : Type} {x : Res α} {f : α → Res β} {b : β} (h : x.bind f = .ok b) : ∃ a, x = .ok a ∧ f a = .ok b := by
  cases x with
  | ok a => exact ⟨a, rfl, h⟩
  | panic => cases h
  | running => cases h

theorem addPieces_ok {dbg : Bool} {steps : Nat} {ty : MemType} (hty : ty ≠ .nonExistent)
    {d : ResourceDescriptor} {attrs : Option Nat} : ∀ {l : List (Nat × Nat)} {g g' : Gcd}, Reachable nodeSize g → g.blocks ≠ [] →
    (∀ r ∈ l, r.1 < W ∧ r.2 < W) →
    addPieces dbg steps nodeSize ty (getCapabilities ty d.attr.toNat) (attrs.map (wanted ty)) l g = .ok g' →
    Adds dbg d ty attrs g g' (fun a => ∃ r ∈ l, In r a) ∧ Reachable nodeSize g' ∧ g'.blocks ≠ []
  | [], g, g', hr, hne, _, h => by
    simp only [addPieces, Res.ok.injEq] at h
    subst h
    exact ⟨.none (by simp), hr, hne⟩
  | r :: l, g, g', hr, hne, hb, h => by
    obtain ⟨g1, e1, e2⟩ := Res.bind_ok h
    obtain ⟨b1, b2⟩ := hb r List.mem_cons_self
    obtain ⟨a1, r1, n1⟩ := addPiece_ok hr hne b1 b2 e1
    obtain ⟨a2, r2, n2⟩ := addPieces_ok hty r1 n1 (fun x hx => hb x (List.mem_cons_of_mem _ hx)) e2
    exact ⟨(a1.trans hty a2).congr (by simp), r2, n2⟩

/-- The addresses at which the code adds the memory of a descriptor. -/
def Reaches (free : Nat × Nat) (d : ResourceDescriptor) (a : Nat) : Prop := Covers d a ∧ ¬ In free a ∧ ¬ StartsIn free d

theorem addMem_ok {dbg : Bool} {steps : Nat} {free : Nat × Nat} {d : ResourceDescriptor} {attrs : Option Nat}
    (hr : Reachable nodeSize g) (hne : g.blocks ≠ []) (hf : free.1 ≤ free.2) (hW : d.start.toNat + d.length.toNat < W)
    (h : addMem dbg steps nodeSize free d attrs g = .ok g') :
    (memKind d = .nonExistent → g' = g) ∧
    (memKind d ≠ .nonExistent → attributesValid d.attr.toNat = true ∧ Adds dbg d (memKind d) attrs g g' (Reaches free d)) ∧
    Reachable nodeSize g' ∧ g'.blocks ≠ [] := by
  unfold addMem at h
  split at h
  · rename_i hk
    simp only [Res.ok.injEq] at h
    subst h
    exact ⟨fun _ => rfl, fun x => absurd hk x, hr, hne⟩
  · rename_i hk
    split at h
    · cases h
    · rename_i hv
      obtain ⟨a1, r1, n1⟩ := addPieces_ok hk hr hne (pieces_bounds (by simp) hW hf) h
      refine ⟨fun x => absurd x hk, fun _ => ⟨by simpa using hv, a1.congr fun a => ?_⟩, r1, n1⟩
      unfold Reaches Covers StartsIn
      exact pieces_spec hf a

/-! ### I/O -/

variable {i i' : Io}

theorem ioReachable_add (hr : IoReachable i) {ty : IoType} (hb : base < W) (hl : len < W) : IoReachable (i.add ty base len).2 := by
  obtain ⟨bits, ops, ho, rfl⟩ := hr
  refine ⟨bits, ops ++ [.add ty base len], ?_, ?_⟩
  · intro op h
    rcases List.mem_append.1 h with h | h
    · exact ho op h
    · rw [List.mem_singleton.1 h]; exact ⟨hb, hl⟩
  · simp [Io.run, Io.step]

/-- `i'` is `i` after adding I/O space of the type at the addresses of the descriptor. -/
structure AddsIo (d : ResourceDescriptor) (ty : IoType) (i i' : Io) : Prop where
  before : ∀ a, Covers d a → ∃ c, cellAt i.map a = some c ∧ c.type = .nonExistent
  after : ∀ a, Covers d a → ∃ c, cellAt i'.map a = some c ∧ c.type = ty ∧ c.allocated = false
  rest : ∀ a, ¬ Covers d a → cellAt i'.map a = cellAt i.map a

theorem expectIo_ok (hr : IoReachable i) {d : ResourceDescriptor} {ty : IoType}
    (hW : d.start.toNat + d.length.toNat < W)
    (h : expectIo (i.add ty d.start.toNat d.length.toNat) = .ok i') : AddsIo d ty i i' ∧ IoReachable i' := by
  have hl : d.length.toNat < W := by omega
  have hb : d.start.toNat < W := by omega
  have hra := ioReachable_add hr (ty := ty) hb hl
  have hok := fun i1 => io_add_ok (g' := i1) hr hl (ty := ty) (base := d.start.toNat)
  revert h hra hok
  generalize i.add ty d.start.toNat d.length.toNat = y
  obtain ⟨o, i1⟩ := y
  intro h hra hok
  cases o with
  | err e => cases h
  | panic => cases h
  | ok u =>
    simp only [expectIo, Res.ok.injEq] at h
    subst h
    obtain ⟨c, hu, ha, ht, _, hup⟩ := hok i1 rfl
    refine ⟨⟨fun a hc => ⟨c, hu.2 a hc.1 hc.2, ht⟩, fun a hc => ?_, fun a hc => ?_⟩, hra⟩
    · unfold Covers at hc; rw [hup a, if_pos hc]; exact ⟨_, rfl, rfl, ha⟩
    · unfold Covers at hc; rw [hup a, if_neg hc]

theorem addIo_ok {dbg : Bool} (hr : IoReachable i) {d : ResourceDescriptor} (hW : d.start.toNat + d.length.toNat < W)
    (h : addIo dbg d i = .ok i') :
    (∀ ty, MapsToIo d ty → AddsIo d ty i i') ∧ ((∀ ty, ¬ MapsToIo d ty) → i' = i) ∧ IoReachable i' := by
  unfold addIo at h
  split at h
  · rename_i ht
    obtain ⟨h1, h2⟩ := expectIo_ok hr hW h
    refine ⟨fun ty hm => ?_, fun hn => absurd (.io ht) (hn .io), h2⟩
    cases hm with
    | io _ => exact h1
    | reserved h6 => rw [show d.resourceType = 2 from ht] at h6; exact absurd h6 (by decide)
  · rename_i ht
    split at h
    · rename_i h6
      obtain ⟨h1, h2⟩ := expectIo_ok hr hW h
      refine ⟨fun ty hm => ?_, fun hn => absurd (.reserved h6) (hn .reserved), h2⟩
      cases hm with
      | io h2 => exact absurd h2 ht
      | reserved _ => exact h1
    · rename_i h6
      have : i' = i := by
        split at h
        · simpa using h.symm
        · split at h
          · cases h
          · simpa using h.symm
      subst this
      refine ⟨fun ty hm => ?_, fun _ => rfl, hr⟩
      cases hm with
      | io h2 => exact absurd h2 ht
      | reserved h => exact absurd h h6

end Verif.Resources
