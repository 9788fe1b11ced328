import Verif.Resources.Props
import Verif.Base.Props
import Verif.Hob.Props
import Verif.Gcd.AllocProps
/-!
C52: the address map from the start of `init_gcd` to the end of `add_hob_resource_descriptors_to_gcd`.
-/
namespace Verif.Resources
open Verif.Gcd Verif.Hob

variable {nodeSize : Nat}

theorem freeMemory_iff {p : Handoff} {f : Nat × Nat} : FreeMemory p f ↔
    Base.IsRoundUp p.freeMemoryBottom.toNat 0x1000 f.1 ∧ Base.IsRoundDown p.freeMemoryTop.toNat 0x1000 f.2 := by
  constructor
  · rintro ⟨h1, h2⟩
    refine ⟨⟨h1.1, h1.2.1, fun m hm hp => ?_⟩, ⟨h2.1, h2.2.1, fun m hm hp => ?_⟩⟩ <;> omega
  · rintro ⟨h1, h2⟩
    have a := h1.2.2 (p.freeMemoryBottom.toNat + (0x1000 - 1) - (p.freeMemoryBottom.toNat + (0x1000 - 1)) % 0x1000) (by omega) (by omega)
    have b := h2.2.2 (p.freeMemoryTop.toNat - p.freeMemoryTop.toNat % 0x1000) (by omega) (by omega)
    exact ⟨⟨h1.1, h1.2.1, by omega⟩, ⟨h2.1, h2.2.1, by omega⟩⟩

theorem freeMemory_unique {p : Handoff} {f f' : Nat × Nat} (h : FreeMemory p f) (h' : FreeMemory p f') : f = f' := by
  have := h.start
  have := h.stop
  have := h'.start
  have := h'.stop
  exact Prod.ext (by omega) (by omega)

theorem freeRange_ok {dbg : Bool} {p : Handoff} {f : Nat × Nat} (h : freeRange dbg p = .ok f) :
    FreeMemory p f ∧ f.1 < W ∧ f.2 < W ∧ (dbg = true → f.1 ≤ f.2) := by
  have e1 := (Base.alignUp_spec 64 p.freeMemoryBottom.toNat 0x1000 p.freeMemoryBottom.toNat_lt).1 ⟨12, rfl⟩
  have e2 := (Base.alignDown_spec 64 p.freeMemoryTop.toNat 0x1000 p.freeMemoryTop.toNat_lt).1 ⟨12, rfl⟩
  obtain ⟨r1, u, e1⟩ := e1
  obtain ⟨r2, e2, d⟩ := e2
  unfold freeRange at h
  rw [e1, e2] at h
  by_cases hr : r1 < 2 ^ 64
  · rw [if_pos hr] at h
    dsimp only at h
    have h2 : r2 < 2 ^ 64 := by have := d.2.1; have := p.freeMemoryTop.toNat_lt; omega
    split at h
    · cases h
    · rename_i hc
      injection h with h
      subst h
      refine ⟨freeMemory_iff.2 ⟨u, d⟩, hr, h2, fun hd => ?_⟩
      subst hd
      simpa using hc
  · rw [if_neg hr] at h
    cases h

theorem freeRange_succeeds {dbg : Bool} {p : Handoff} {f : Nat × Nat} (h : FreeMemory p f) (hlt : f.1 ≤ f.2) :
    freeRange dbg p = .ok f := by
  have e1 := (Base.alignUp_spec 64 p.freeMemoryBottom.toNat 0x1000 p.freeMemoryBottom.toNat_lt).1 ⟨12, rfl⟩
  have e2 := (Base.alignDown_spec 64 p.freeMemoryTop.toNat 0x1000 p.freeMemoryTop.toNat_lt).1 ⟨12, rfl⟩
  obtain ⟨r1, u, e1⟩ := e1
  obtain ⟨r2, e2, d⟩ := e2
  have := freeMemory_unique (f := (r1, r2)) (freeMemory_iff.2 ⟨u, d⟩) h
  subst this
  have h2 : r1 < 2 ^ 64 := by
    have := d.2.1; have := p.freeMemoryTop.toNat_lt; dsimp only at hlt; omega
  unfold freeRange
  rw [e1, e2, if_pos h2]
  dsimp only
  rw [if_neg (by simp; intro _; omega)]

/-! ### The initial region -/

theorem initLoop_ok {dbg : Bool} : ∀ {vs : List View} {s s' : Init}, initLoop dbg vs s = .ok s' →
    (handoffs vs = [] → s'.free = s.free ∧ s'.range = s.range) ∧
    (∀ p, handoffs vs = [p] → freeRange dbg p = .ok s'.free ∧ s'.range = (p.memoryBottom.toNat, p.memoryTop.toNat)) ∧
    (cpus vs = [] → s'.machine = s.machine) ∧
    (∀ c, cpus vs = [c] → s'.machine =
      ⟨{ s.machine.mem with max := oneShl c.memorySpace.toNat }, { s.machine.io with max := oneShl c.ioSpace.toNat }⟩)
  | [], s, s', h => by
    simp only [initLoop, Res.ok.injEq] at h
    subst h
    simp [handoffs, cpus]
  | v :: vs, s, s', h => by
    have other : (∀ p, v ≠ .handoff p) → (∀ c, v ≠ .cpu c) → initLoop dbg vs s = .ok s' →
        (handoffs (v :: vs) = [] → s'.free = s.free ∧ s'.range = s.range) ∧
        (∀ p, handoffs (v :: vs) = [p] →
          freeRange dbg p = .ok s'.free ∧ s'.range = (p.memoryBottom.toNat, p.memoryTop.toNat)) ∧
        (cpus (v :: vs) = [] → s'.machine = s.machine) ∧
        (∀ c, cpus (v :: vs) = [c] → s'.machine =
          ⟨{ s.machine.mem with max := oneShl c.memorySpace.toNat }, { s.machine.io with max := oneShl c.ioSpace.toNat }⟩) := by
      intro hv1 hv2 h
      have a : handoffs (v :: vs) = handoffs vs := by
        unfold handoffs
        rw [List.filterMap_cons_none]
        split
        · exact absurd rfl (hv1 _)
        · rfl
      have b : cpus (v :: vs) = cpus vs := by
        unfold cpus
        rw [List.filterMap_cons_none]
        split
        · exact absurd rfl (hv2 _)
        · rfl
      rw [a, b]
      exact initLoop_ok h
    cases v with
    | handoff p =>
      obtain ⟨f, hf, h⟩ := Res.bind_ok h
      obtain ⟨h1, -, h3, h4⟩ := initLoop_ok h
      refine ⟨by simp [handoffs], ?_, ?_, ?_⟩
      · intro q hq
        have hq' : p = q ∧ handoffs vs = [] := by simpa [handoffs] using hq
        obtain ⟨rfl, hn⟩ := hq'
        obtain ⟨a, b⟩ := h1 hn
        rw [a, b]
        exact ⟨hf, rfl⟩
      · intro hc; exact h3 (by simpa [cpus] using hc)
      · intro c hc; exact h4 c (by simpa [cpus] using hc)
    | cpu c =>
      obtain ⟨h1, h2, h3, -⟩ := initLoop_ok (vs := vs) h
      refine ⟨fun hh => h1 (by simpa [handoffs] using hh), fun p hh => h2 p (by simpa [handoffs] using hh), by simp [cpus], ?_⟩
      intro q hq
      have hq' : c = q ∧ cpus vs = [] := by simpa [cpus] using hq
      obtain ⟨rfl, hn⟩ := hq'
      exact h3 hn
    | _ => exact other (by simp) (by simp) h

/-- C52 (start-up): if `init_gcd` returns, the memory space has the size the CPU HOB gives and contains exactly the free memory
of the handoff HOB, as system memory that can be used and is mapped write-back; its first pages hold the map itself.
Nothing else exists, and no I/O space exists. -/
theorem init_ok {dbg : Bool} {vs : List View} {s : Machine} {p : Handoff} {c : Cpu} (hn : 0 < nodeSize)
    (hp : handoffs vs = [p]) (hc : cpus vs = [c]) (h : initGcd dbg nodeSize vs = .ok s) :
    ∃ f, FreeMemory p f ∧ p.memoryBottom < p.memoryTop ∧ f.1 + 4096 * nodeSize ≤ f.2 ∧ f.2 ≤ 2 ^ (c.memorySpace.toNat % 64) ∧
      Ready nodeSize s ∧
      (∀ a, cellAt s.mem.blocks a =
        if f.1 ≤ a ∧ a < f.1 + 4096 * nodeSize then some ⟨true, .systemMemory, 0x800000000002700F, 0x4008, 6, 0⟩
        else if f.1 ≤ a ∧ a < f.2 then some ⟨false, .systemMemory, 0x800000000002700F, 0x2008, 0, 0⟩
        else if a < 2 ^ (c.memorySpace.toNat % 64) then some emptyCell
        else none) ∧
      ∀ a, cellAt s.io.map a = if a < 2 ^ (c.ioSpace.toNat % 64) then some emptyIoCell else none := by
  obtain ⟨t, e1, e2⟩ := Res.bind_ok h
  obtain ⟨-, h2, -, h4⟩ := initLoop_ok e1
  obtain ⟨hf, hr⟩ := h2 p hp
  have hm := h4 c hc
  obtain ⟨fm, w1, w2, -⟩ := freeRange_ok hf
  unfold initFinish at e2
  split at e2
  · cases e2
  split at e2
  · cases e2
  split at e2
  · cases e2
  rename_i hb
  have hb : p.memoryBottom < p.memoryTop := by
    rw [hr] at hb
    exact UInt64.lt_iff_toNat_lt.2 (by omega)
  revert e2
  rw [hm]
  dsimp only
  have hg : (⟨oneShl c.memorySpace.toNat, 0, [], false, false⟩ : Gcd) = Gcd.start c.memorySpace.toNat false := rfl
  rw [hg]
  have hreach : Reachable nodeSize (Gcd.start c.memorySpace.toNat false) := ⟨_, _, [], by simp, rfl⟩
  have hsub : subw t.free.2 t.free.1 < W := by unfold subw; exact Nat.mod_lt _ (by decide)
  have hmax : (Gcd.start c.memorySpace.toNat false).max = 2 ^ (c.memorySpace.toNat % 64) := rfl
  have hmaxW : 2 ^ (c.memorySpace.toNat % 64) < W := (reachable_inv hreach).inv.ltW
  have hfa := fun g' => first_add_ok (g' := g') hreach rfl hn w1 hsub (ty := .systemMemory) (caps := 0x2700F)
  have hra := reachable_add hreach (ty := .systemMemory) w1 hsub (caps := 0x2700F) (by decide)
  revert hfa hra
  generalize (Gcd.start c.memorySpace.toNat false).add nodeSize .systemMemory t.free.1 (subw t.free.2 t.free.1) 0x2700F = y
  obtain ⟨o, g⟩ := y
  intro hfa hra e2
  cases o with
  | err _ => cases e2
  | panic => cases e2
  | ok _ =>
    injection e2 with e2
    subst e2
    obtain ⟨-, n1, n2, -, cells⟩ := hfa g rfl
    rw [hmax] at n2 cells
    have hlen : subw t.free.2 t.free.1 = t.free.2 - t.free.1 ∧ t.free.1 ≤ t.free.2 := by
      unfold subw at n2 ⊢
      by_cases hle : t.free.1 ≤ t.free.2
      · refine ⟨?_, hle⟩
        have : t.free.2 + W - t.free.1 = (t.free.2 - t.free.1) + W := by omega
        rw [this, Nat.add_mod_right, Nat.mod_eq_of_lt (by omega)]
      · exfalso
        rw [Nat.mod_eq_of_lt (by omega)] at n2
        omega
    obtain ⟨hl, hle⟩ := hlen
    rw [hl] at n1 n2
    have hcaps : (0x2700F : Nat) ||| 0x8000000000026000 = 0x800000000002700F := by decide
    rw [hcaps] at cells
    have hcell0 := cells t.free.1
    rw [if_pos (by have : 0 < 4096 * nodeSize := by omega
                   omega)] at hcell0
    refine ⟨t.free, fm, hb, by omega, by omega, ⟨hra, ?_, ⟨c.ioSpace.toNat, [], by simp, rfl⟩⟩, ?_, ?_⟩
    · intro hnil
      dsimp only at hnil hcell0
      rw [hnil] at hcell0
      cases hcell0
    · intro a
      dsimp only
      rw [cells a, hl]
      have : (t.free.1 ≤ a ∧ a < t.free.1 + (t.free.2 - t.free.1)) = (t.free.1 ≤ a ∧ a < t.free.2) := by
        apply propext; omega
      simp only [this]
      rfl
    · intro a
      have hpos : 0 < oneShl c.ioSpace.toNat := Nat.two_pow_pos _
      have hmap : ∀ m, (⟨m, 0, []⟩ : Io).map = [⟨0, m, emptyIoCell⟩] := fun m => rfl
      rw [hmap]
      simp only [cellAt, Nat.zero_add, Nat.zero_le, true_and]
      rfl

/-! ### The resource descriptors -/

theorem describes_iff {v : View} {d : ResourceDescriptor} {attrs : Option Nat} :
    Describes v d attrs ↔ resourceOf v = some (d, attrs) := by
  constructor
  · rintro (_ | _) <;> rfl
  · intro h
    cases v <;> simp only [resourceOf, Option.some.injEq, Prod.mk.injEq, reduceCtorEq] at h
    · obtain ⟨rfl, rfl⟩ := h; exact .one _
    · obtain ⟨rfl, rfl⟩ := h; exact .two _

theorem consistent_iff {d : ResourceDescriptor} : Consistent d ↔ attributesValid d.attr.toNat = true := by
  unfold attributesValid Consistent Has
  simp only [ne_eq, pow_mask_zero (x := d.attr.toNat) (i := 7) (m := 0x80) rfl, pow_mask_zero (x := d.attr.toNat) (i := 8) (m := 0x100) rfl,
    pow_mask_zero (x := d.attr.toNat) (i := 9) (m := 0x200) rfl, pow_mask_zero (x := d.attr.toNat) (i := 18) (m := 0x40000) rfl,
    pow_mask_zero (x := d.attr.toNat) (i := 23) (m := 0x800000) rfl, pow_mask_zero (x := d.attr.toNat) (i := 19) (m := 0x80000) rfl, pow_mask_zero (x := d.attr.toNat) (i := 21) (m := 0x200000) rfl,
    pow_mask_zero (x := d.attr.toNat) (i := 22) (m := 0x400000) rfl, pow_mask_zero (x := d.attr.toNat) (i := 24) (m := 0x1000000) rfl]
  simp only [List.mem_cons, List.not_mem_nil, or_false]
  constructor
  · intro h
    have h1 := h (7, 19) (by simp)
    have h2 := h (8, 21) (by simp)
    have h3 := h (9, 22) (by simp)
    have h4 := h (18, 19) (by simp)
    have h5 := h (23, 24) (by simp)
    dsimp only at h1 h2 h3 h4 h5
    grind
  · intro h
    rintro e (rfl | rfl | rfl | rfl | rfl) <;> dsimp only <;> grind

theorem phit_eq {vs : List View} {p : Handoff} {l : List Handoff} (h : handoffs vs = p :: l) : phit vs = some p := by
  induction vs with
  | nil => simp [handoffs] at h
  | cons v vs ih =>
    cases v <;> simp_all [handoffs, phit]

theorem addResources_eq {dbg : Bool} {steps : Nat} {vs : List View} {s s' : Machine} {p : Handoff} {f : Nat × Nat}
    (hp : handoffs vs = [p]) (hf : FreeMemory p f) (hle : f.1 ≤ f.2) (h : addResources dbg steps nodeSize vs s = .ok s') :
    addAll dbg steps nodeSize f vs s = .ok s' := by
  unfold addResources at h
  rw [phit_eq hp] at h
  simp only [freeRange_succeeds hf hle, Res.bind] at h
  exact h

/-- C52: if `add_hob_resource_descriptors_to_gcd` returns, the range of every resource descriptor did not exist before, outside
the free memory, and is now unallocated memory of the kind the descriptor stands for, with the capabilities it gives;
likewise for I/O. The attributes are those of a descriptor of version 2, except that a release build passes over attributes
the memory does not support. Not proved, because false: that nothing is left out of a descriptor whose range begins inside
the free memory (`tail_is_lost`). -/
theorem resources_mapped_partial {dbg : Bool} {steps : Nat} {vs : List View} {s s' : Machine} {p : Handoff} {f : Nat × Nat}
    (hs : Ready nodeSize s) (hp : handoffs vs = [p]) (hf : FreeMemory p f) (hle : f.1 ≤ f.2)
    (h : addResources dbg steps nodeSize vs s = .ok s') :
    ∀ v ∈ vs, ∀ d attrs, Describes v d attrs → d.start.toNat + d.length.toNat < 2 ^ 64 ∧
      (∀ ty, MapsTo d ty → Consistent d ∧ ∀ a, Covers d a → ¬ In f a → ¬ StartsIn f d →
        (∃ c, cellAt s.mem.blocks a = some c ∧ c.type = .nonExistent) ∧
        ∃ c, cellAt s'.mem.blocks a = some c ∧ Placed d ty c ∧
          (c.attrs = attributesOf ty attrs ∨ (dbg = false ∧ attrs ≠ none ∧ c.attrs = 0x2000))) ∧
      (∀ ty, MapsToIo d ty → ∀ a, Covers d a →
        (∃ c, cellAt s.io.map a = some c ∧ c.type = .nonExistent) ∧
        ∃ c, cellAt s'.io.map a = some c ∧ c.type = ty ∧ c.allocated = false) := by
  intro v hv d attrs hd
  obtain ⟨h1, h2, h3⟩ := addAll_mapped hle hs (addResources_eq hp hf hle h) v hv d attrs (describes_iff.1 hd)
  refine ⟨h1, fun ty ht => ?_, h3⟩
  obtain ⟨h4, h5⟩ := h2 ty ht
  exact ⟨consistent_iff.2 h4, fun a x y z => h5 a ⟨x, y, z⟩⟩

/-- C52: no other address changes: the free memory, memory no descriptor describes, and memory that already existed keep
their state, and so does I/O space. -/
theorem resources_rest {dbg : Bool} {steps : Nat} {vs : List View} {s s' : Machine} {p : Handoff} {f : Nat × Nat}
    (hs : Ready nodeSize s) (hp : handoffs vs = [p]) (hf : FreeMemory p f) (hle : f.1 ≤ f.2)
    (h : addResources dbg steps nodeSize vs s = .ok s') :
    Ready nodeSize s' ∧
    (∀ a, In f a → cellAt s'.mem.blocks a = cellAt s.mem.blocks a) ∧
    (∀ a c, cellAt s.mem.blocks a = some c → c.type ≠ .nonExistent → cellAt s'.mem.blocks a = some c) ∧
    (∀ a, (∀ v ∈ vs, ∀ d attrs ty, Describes v d attrs → MapsTo d ty → ¬ Covers d a) →
      cellAt s'.mem.blocks a = cellAt s.mem.blocks a) ∧
    (∀ a, (∀ v ∈ vs, ∀ d attrs ty, Describes v d attrs → MapsToIo d ty → ¬ Covers d a) →
      cellAt s'.io.map a = cellAt s.io.map a) := by
  have h' := addResources_eq hp hf hle h
  obtain ⟨k1, k2, -⟩ := addAll_keeps hle hs h'
  obtain ⟨r1, r2⟩ := addAll_rest hle hs h'
  refine ⟨k1, fun a ha => r1 a fun v hv d attrs ty _ _ hr => hr.2.1 ha, k2, fun a ha => r1 a ?_, fun a ha => r2 a ?_⟩
  · intro v hv d attrs ty hd hm hr
    exact ha v hv d attrs ty (describes_iff.2 hd) hm hr.1
  · intro v hv d attrs ty hd hm
    exact ha v hv d attrs ty (describes_iff.2 hd) hm

/-- Two descriptors of memory never overlap outside the free memory, if start-up succeeds. -/
theorem resources_disjoint {dbg : Bool} {steps : Nat} {free : Nat × Nat} (hf : free.1 ≤ free.2) : ∀ {vs : List View} {s s' : Machine},
    Ready nodeSize s → addAll dbg steps nodeSize free vs s = .ok s' →
    vs.Pairwise fun v w => ∀ d x ty e y tz, resourceOf v = some (d, x) → resourceOf w = some (e, y) → MapsTo d ty → MapsTo e tz →
      ∀ a, Reaches free d a → ¬ Reaches free e a
  | [], _, _, _, _ => .nil
  | v :: vs, s, s', hs, h => by
    obtain ⟨s1, e1, e2⟩ := Res.bind_ok h
    obtain ⟨r1, o1, _⟩ := addOne_ok hs hf e1
    refine .cons ?_ (resources_disjoint hf r1 e2)
    intro w hw d x ty e y tz hd he hm hm' a ha ha'
    obtain ⟨c, hc, hpl, -⟩ := ((o1 d x hd).2.1 ty hm).2.after a ha
    obtain ⟨-, h2, -⟩ := addAll_mapped hf r1 e2 w hw e y he
    obtain ⟨c', hc', ht⟩ := ((h2 tz hm').2 a ha').1
    rw [hc, Option.some.injEq] at hc'
    subst hc'
    exact mapsTo_exists hm (hpl.type.symm.trans ht)

/-! ### Together -/

theorem initLoop_congr {dbg : Bool} : ∀ {vs ws : List View}, vs.length = ws.length →
    (∀ i : Nat, vs[i]? = ws[i]? ∨ ∃ d e, vs[i]? = some (.resource2 d) ∧ ws[i]? = some (.resource2 e)) →
    ∀ s, initLoop dbg vs s = initLoop dbg ws s
  | [], [], _, _, _ => rfl
  | [], _ :: _, h, _, _ => by cases h
  | _ :: _, [], h, _, _ => by cases h
  | v :: vs, w :: ws, hl, h, s => by
    have ih := initLoop_congr (vs := vs) (ws := ws) (dbg := dbg) (by simpa using hl) (fun i => by simpa using h (i + 1))
    rcases h 0 with h0 | ⟨d, e, h1, h2⟩
    · simp only [List.getElem?_cons_zero, Option.some.injEq] at h0
      subst h0
      cases v <;> simp only [initLoop, ih]
    · simp only [List.getElem?_cons_zero, Option.some.injEq] at h1 h2
      subst h1 h2
      simp only [initLoop, ih]

/-- C52 (the whole): a HOB list with one handoff HOB and one CPU HOB lies in memory. `init_gcd` walks it, anything is then done
with the memory and I/O space, and the HOBs `discover_hobs` finds are handed to `add_hob_resource_descriptors_to_gcd`. Then
the memory and I/O space are what the HOBs of the list say. What is missing is said at `resources_mapped_partial`. -/
theorem startup_partial {dbg : Bool} {m : Mem} {a₀ : Nat} {xs : List Item} {e : Header} (hl : ListAt m a₀ xs e) (hn : 0 < nodeSize)
    {p : Handoff} {c : Cpu} (hp : handoffs (xs.map Item.seen) = [p]) (hc : cpus (xs.map Item.seen) = [c])
    {fuel steps : Nat} (hfuel : xs.length < fuel) {hs hs' : List Hob} {s0 s1 s2 : Machine}
    (hit : iterate dbg m fuel a₀ = .ok hs) (hi : initGcd dbg nodeSize (hs.map (view m)) = .ok s0)
    {ops : List Op} {iops : List IoOp} (ho : ∀ op ∈ ops, op.InRange) (hio : ∀ op ∈ iops, op.InRange)
    (h1 : s1 = ⟨s0.mem.run nodeSize ops, s0.io.run iops⟩)
    (hd : discover dbg m fuel a₀ [] = .ok hs') (h2 : addResources dbg steps nodeSize (hs'.map (view m)) s1 = .ok s2) :
    ∃ f, FreeMemory p f ∧ f.1 < f.2 ∧ f.2 ≤ 2 ^ (c.memorySpace.toNat % 64) ∧
      (∀ a, In f a → ∃ x, cellAt s0.mem.blocks a = some x ∧ x.type = .systemMemory) ∧
      (∀ a, ¬ In f a → cellAt s0.mem.blocks a = if a < 2 ^ (c.memorySpace.toNat % 64) then some emptyCell else none) ∧
      (∀ a, In f a → cellAt s2.mem.blocks a = cellAt s1.mem.blocks a) ∧
      (∀ x ∈ xs, ∀ d attrs ty, Describes x.seen d attrs → MapsTo d ty → ∀ a, Covers d a → ¬ In f a → ¬ StartsIn f d →
        ∃ x, cellAt s2.mem.blocks a = some x ∧ Placed d ty x ∧
          (x.attrs = attributesOf ty attrs ∨ (dbg = false ∧ attrs ≠ none ∧ x.attrs = 0x2000))) ∧
      (∀ x ∈ xs, ∀ d attrs ty, Describes x.seen d attrs → MapsToIo d ty → ∀ a, Covers d a →
        ∃ x, cellAt s2.io.map a = some x ∧ x.type = ty ∧ x.allocated = false) ∧
      (∀ a, (∀ x ∈ xs, ∀ d attrs ty, Describes x.seen d attrs → MapsTo d ty → ¬ Covers d a) →
        cellAt s2.mem.blocks a = cellAt s1.mem.blocks a) ∧
      (∀ a, (∀ x ∈ xs, ∀ d attrs ty, Describes x.seen d attrs → MapsToIo d ty → ¬ Covers d a) →
        cellAt s2.io.map a = cellAt s1.io.map a) := by
  -- what the two walks see
  obtain ⟨ys, hy, hlen, hv, hv2⟩ := iterate_spec hl dbg hfuel
  rw [hy, Res.ok.injEq] at hit
  subst hit
  have hcong : initLoop dbg (ys.map (view m)) {} = initLoop dbg (xs.map Item.seen) {} := by
    refine initLoop_congr (by simp [hlen]) (fun i => ?_) _
    rw [List.getElem?_map, List.getElem?_map]
    cases hx : xs[i]? with
    | none =>
      left
      rw [List.getElem?_eq_none_iff] at hx
      rw [List.getElem?_eq_none (by omega)]
      rfl
    | some x =>
      by_cases hr : ∃ d, x = .resource2 d
      · obtain ⟨d, rfl⟩ := hr
        obtain ⟨d', hd'⟩ := hv2 i d hx
        exact .inr ⟨d', d, hd', rfl⟩
      · exact .inl (by rw [hv i x hx (fun d hd => hr ⟨d, hd⟩)]; rfl)
  have hi' : initGcd dbg nodeSize (xs.map Item.seen) = .ok s0 := by
    unfold initGcd at hi ⊢
    rw [← hcong]; exact hi
  obtain ⟨f, fm, -, f1, f2, rd, cells, -⟩ := init_ok hn hp hc hi'
  obtain ⟨zs, hz, hzv, -⟩ := discover_spec hl dbg hfuel []
  rw [hz, Res.ok.injEq, List.nil_append] at hd
  subst hd
  rw [hzv] at h2
  have hpos : 0 < 4096 * nodeSize := by omega
  have hready : Ready nodeSize s1 := by
    subst h1
    refine ⟨reachable_run rd.mem ho, (partition_stays rd.mem rd.map ho).1, ?_⟩
    obtain ⟨bits, os, ho', e⟩ := rd.io
    refine ⟨bits, os ++ iops, ?_, ?_⟩
    · intro op h
      rcases List.mem_append.1 h with h | h
      · exact ho' op h
      · exact hio op h
    · simp only [Io.run, List.foldl_append] at e ⊢
      rw [e]
  have hle : f.1 ≤ f.2 := by omega
  have hmap := resources_mapped_partial hready hp fm hle h2
  obtain ⟨-, q1, -, q2, q3⟩ := resources_rest hready hp fm hle h2
  refine ⟨f, fm, by omega, f2, ?_, ?_, q1, ?_, ?_, ?_, ?_⟩
  · intro a ha
    rw [cells a]
    unfold In at ha
    split
    · exact ⟨_, rfl, rfl⟩
    · exact ⟨_, rfl, rfl⟩
  · intro a ha
    unfold In at ha
    rw [cells a, if_neg (by omega), if_neg ha]
  · intro x hx d attrs ty hde hm a b1 b2 b3
    exact ((((hmap _ (List.mem_map_of_mem hx) d attrs hde).2.1 ty hm).2) a b1 b2 b3).2
  · intro x hx d attrs ty hde hm a b1
    exact ((hmap _ (List.mem_map_of_mem hx) d attrs hde).2.2 ty hm a b1).2
  · intro a ha
    refine q2 a fun v hv d attrs ty hde hm => ?_
    obtain ⟨x, hx, rfl⟩ := List.mem_map.1 hv
    exact ha x hx d attrs ty hde hm
  · intro a ha
    refine q3 a fun v hv d attrs ty hde hm => ?_
    obtain ⟨x, hx, rfl⟩ := List.mem_map.1 hv
    exact ha x hx d attrs ty hde hm

end Verif.Resources
