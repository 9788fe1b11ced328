import Verif.Resources.Startup
/-!
C52: which HOB lists `add_hob_resource_descriptors_to_gcd` accepts, and what release builds do with them.
-/
namespace Verif.Resources
open Verif.Gcd Verif.Hob

variable {nodeSize base len : Nat} {g g' : Gcd}

/-! ### A release build does what a debug build does when that does not panic -/

theorem Res.bind_mono {α β : Type} {x y : Res α} {f h : α → Res β} (hx : ∀ a, x = .ok a → y = .ok a)
    (hf : ∀ a b, f a = .ok b → h a = .ok b) {b : β} (e : x.bind f = .ok b) : y.bind h = .ok b := by
  obtain ⟨a, e1, e2⟩ := Res.bind_ok e
  rw [hx a e1]
  exact hf a b e2

theorem setEarlyLoop_release {attrs stop : Nat} : ∀ {steps cur : Nat} {res : Outcome EfiError Unit} {g : Gcd}
    {r : Outcome EfiError Unit × Gcd}, setEarlyLoop true attrs stop steps cur res g = .ok r →
    setEarlyLoop false attrs stop steps cur res g = .ok r
  | 0, _, _, _, _, h => by cases h
  | steps + 1, cur, res, g, r, h => by
    unfold setEarlyLoop at h ⊢
    split
    · rename_i hc
      rw [if_pos hc] at h
      exact h
    · rename_i hc
      rw [if_neg hc] at h
      split
      · rename_i e he
        simp only [he] at h
        exact h
      · rename_i he
        simp only [he] at h
        cases h
      · rename_i b he
        simp only [he] at h
        revert h
        dsimp only
        generalize g.setAttributes cur _ attrs = y
        obtain ⟨o, g1⟩ := y
        intro h
        cases o with
        | ok u => exact setEarlyLoop_release h
        | err e => cases h
        | panic => cases h

theorem setWanted_release {steps : Nat} {r : Nat × Nat} {attrs : Option Nat} {g g' : Gcd}
    (h : setWanted true steps r attrs g = .ok g') : setWanted false steps r attrs g = .ok g' := by
  cases attrs with
  | none => exact h
  | some x => exact Res.bind_mono (fun a ha => setEarlyLoop_release ha) (fun _ _ h => h) h

theorem addPiece_release {steps : Nat} {ty : MemType} {caps : Nat} {attrs : Option Nat} {r : Nat × Nat} {g g' : Gcd}
    (h : addPiece true steps nodeSize ty caps attrs r g = .ok g') : addPiece false steps nodeSize ty caps attrs r g = .ok g' := by
  unfold addPiece at h ⊢
  revert h
  generalize g.add nodeSize ty r.1 (r.2 - r.1) caps = y
  obtain ⟨o, g1⟩ := y
  intro h
  cases o with
  | ok u => exact setWanted_release h
  | err e => cases h
  | panic => cases h

theorem addPieces_release {steps : Nat} {ty : MemType} {caps : Nat} {attrs : Option Nat} : ∀ {l : List (Nat × Nat)} {g g' : Gcd},
    addPieces true steps nodeSize ty caps attrs l g = .ok g' → addPieces false steps nodeSize ty caps attrs l g = .ok g'
  | [], _, _, h => h
  | _ :: _, _, _, h => Res.bind_mono (fun _ ha => addPiece_release ha) (fun _ _ h => addPieces_release h) h

theorem addIo_release {d : ResourceDescriptor} {io io' : Io} (h : addIo true d io = .ok io') : addIo false d io = .ok io' := by
  unfold addIo at h ⊢
  grind

theorem addMem_release {steps : Nat} {free : Nat × Nat} {d : ResourceDescriptor} {attrs : Option Nat} {g g' : Gcd}
    (h : addMem true steps nodeSize free d attrs g = .ok g') : addMem false steps nodeSize free d attrs g = .ok g' := by
  unfold addMem at h ⊢
  split
  · rename_i hk; rw [if_pos hk] at h; exact h
  · rename_i hk
    rw [if_neg hk] at h
    split
    · rename_i hv; rw [if_pos hv] at h; exact h
    · rename_i hv
      rw [if_neg hv] at h
      exact addPieces_release h

theorem addOne_release {steps : Nat} {free : Nat × Nat} {v : View} {s s' : Machine}
    (h : addOne true steps nodeSize free v s = .ok s') : addOne false steps nodeSize free v s = .ok s' := by
  unfold addOne at h ⊢
  split
  · rename_i hv; simp only [hv] at h; exact h
  · rename_i d attrs hv
    simp only [hv] at h
    split
    · rename_i hw; rw [if_pos hw] at h; exact h
    · rename_i hw
      rw [if_neg hw] at h
      refine Res.bind_mono (fun _ ha => addIo_release ha) (fun io b hb => ?_) h
      exact Res.bind_mono (fun _ ha => addMem_release ha) (fun _ _ h => h) hb

theorem addAll_release {steps : Nat} {free : Nat × Nat} : ∀ {vs : List View} {s s' : Machine},
    addAll true steps nodeSize free vs s = .ok s' → addAll false steps nodeSize free vs s = .ok s'
  | [], _, _, h => h
  | _ :: _, _, _, h => Res.bind_mono (fun _ ha => addOne_release ha) (fun _ _ h => addAll_release h) h

/-- C52: where a build with debug assertions succeeds, a release build does exactly the same. -/
theorem resources_release {steps : Nat} {vs : List View} {s s' : Machine} (h : addResources true steps nodeSize vs s = .ok s') :
    addResources false steps nodeSize vs s = .ok s' := by
  unfold addResources at h ⊢
  split
  · rename_i hp; simp only [hp] at h; cases h
  · rename_i p hp
    simp only [hp] at h
    refine Res.bind_mono (fun f hf => ?_) (fun _ _ h => addAll_release h) h
    unfold freeRange at hf ⊢
    grind

/-! ### Room in the tables -/

theorem change_growth {tr : Cell → Option Cell} {onErr : Cell → BlockErr → EfiError} (hi : Inv g) (hl : len < W) :
    (g.change base len tr onErr).2.blocks.length ≤ g.blocks.length + 2 := by
  rcases change_cases (g := g) (base := base) (tr := tr) (onErr := onErr) hi hl with ⟨_, _, g', he, _, _, _, _, _, _, h⟩ | ⟨er, he, _⟩
  · rw [he]; exact h
  · rw [he]; simp

theorem add_growth (hr : Reachable nodeSize g) (hne : g.blocks ≠ []) (hl : len < W) (ty : MemType) (caps : Nat) :
    (g.add nodeSize ty base len caps).2.blocks.length ≤ g.blocks.length + 2 := by
  rw [add_eq (cap_of_ne hr hne)]
  unfold Gcd.addSpace
  repeat' split
  all_goals first
    | exact change_growth (reachable_inv hr).inv hl
    | simp

theorem set_growth (hr : Reachable nodeSize g) (hl : len < W) (attrs : Nat) :
    (g.setAttributes base len attrs).2.blocks.length ≤ g.blocks.length + 2 := by
  unfold Gcd.setAttributes
  repeat' split
  all_goals first
    | exact change_growth (reachable_inv hr).inv hl
    | simp

theorem io_add_growth {i : Io} (hr : IoReachable i) (hl : len < W) (ty : IoType) :
    (i.add ty base len).2.map.length ≤ i.map.length + 2 := by
  have hi := ioReachable_inv hr
  obtain ⟨hi', hc, hg⟩ := ready_inv hi
  have hrr : i.ready.map = i.map := by unfold Io.map; rw [ready_ready hc]
  have key : ∀ {tr : IoCell → Option IoCell} {onErr : IoCell → BlockErr → EfiError},
      (i.ready.change base len tr onErr).2.map.length ≤ i.map.length + 2 := by
    intro tr onErr
    have h := changeAt_spec (cap := i.ready.cap) (base := base) (len := len) (tr := tr) (onErr := onErr) hl hi.ltW hi.pos hg
    have hb : i.ready.blocks.length = i.map.length := rfl
    unfold Io.change
    revert h
    generalize changeAt i.ready.cap i.ready.blocks base len tr onErr = r
    intro h
    have hm : ∀ l, ({ i.ready with blocks := l } : Io).map = l := fun l => by unfold Io.map; rw [ready_ready (by exact hc)]
    cases h <;> simp only [hm] <;> omega
  unfold Io.add
  repeat' split
  all_goals first
    | exact key
    | (simp only [hrr]; omega)
    | simp

/-! ### Acceptance -/

/-- What start-up requires of one descriptor, in the memory and I/O space it finds. -/
structure Acceptable (dbg : Bool) (f : Nat × Nat) (s : Machine) (d : ResourceDescriptor) (attrs : Option Nat) : Prop where
  length : 0 < d.length.toNat
  fits : d.start.toNat + d.length.toNat < 2 ^ 64
  known : dbg = true → d.resourceType.toNat ≤ 6
  consistent : ∀ ty, MapsTo d ty → Consistent d
  free : ∀ ty, MapsTo d ty → ∀ a, Covers d a → ¬ In f a → cellAt s.mem.blocks a = some emptyCell
  freeIo : ∀ ty, MapsToIo d ty → ∀ a, Covers d a → cellAt s.io.map a = some emptyIoCell
  /-- a descriptor of version 2 gives some attribute -/
  attributes : ∀ ty x, MapsTo d ty → attrs = some x → attributesOf ty attrs ≠ 0
  /-- with debug assertions, of whole pages and among the capabilities -/
  supported : dbg = true → ∀ ty x, MapsTo d ty → attrs = some x →
    4096 ∣ d.start.toNat ∧ 4096 ∣ d.length.toNat ∧ ∀ j, (attributesOf ty attrs).testBit j = true → Capable d ty j ∨ j = 13

theorem pagingResult_wanted {ty : MemType} {x : Nat} (h : attributesOf ty (some x) ≠ 0) (r : Outcome EfiError Unit) :
    pagingResult (wanted ty x) r = .err .notReady := by
  unfold pagingResult
  rw [if_pos]
  rw [wanted_eq]
  intro h0
  apply h
  have key : ∀ y : Nat, y &&& (0x101F ||| 0x2000) = y → y &&& (CACHE_ATTRIBUTE_MASK ||| MEMORY_ACCESS_MASK) = 0 → y = 0 := by
    intro y h1 h2
    have e : (0x101F ||| 0x2000 : Nat) &&& (CACHE_ATTRIBUTE_MASK ||| MEMORY_ACCESS_MASK) = 0x101F ||| 0x2000 := by decide
    rw [← h1, Nat.and_assoc, e] at h2
    rw [← h1]; exact h2
  refine key _ ?_ h0
  unfold attributesOf
  dsimp only
  apply Nat.eq_of_testBit_eq
  intro j
  split <;> simp only [Nat.testBit_and, Nat.testBit_or, Nat.zero_testBit] <;> grind

theorem uniform_of {r : Nat × Nat} {c : Cell} (hlt : r.1 < r.2) (h : ∀ a, In r a → cellAt g.blocks a = some c) :
    Uniform g.blocks r.1 (r.2 - r.1) c :=
  ⟨by omega, fun a h1 h2 => h a ⟨h1, by omega⟩⟩

theorem addPiece_succeeds (hr : Reachable nodeSize g) {dbg : Bool} {steps : Nat} {ty : MemType} {d : ResourceDescriptor}
    {attrs : Option Nat} {r : Nat × Nat} (hty : ty ≠ .nonExistent) (hlt : r.1 < r.2) (h2 : r.2 < W) (hst : 2 ≤ steps)
    (hroom : g.blocks.length + 4 ≤ 4096) (hfree : ∀ a, In r a → cellAt g.blocks a = some emptyCell)
    (hsome : ∀ x, attrs = some x → attributesOf ty attrs ≠ 0)
    (hsup : dbg = true → ∀ x, attrs = some x → 4096 ∣ r.1 ∧ 4096 ∣ r.2 ∧
      ∀ j, (attributesOf ty attrs).testBit j = true → Capable d ty j ∨ j = 13) :
    ∃ g', addPiece dbg steps nodeSize ty (getCapabilities ty d.attr.toNat) (attrs.map (wanted ty)) r g = .ok g' ∧
      g'.blocks.length ≤ g.blocks.length + 4 := by
  have hl : r.2 - r.1 < W := by omega
  have hu := uniform_of hlt hfree
  have hne : g.blocks ≠ [] := fun h => absurd (h ▸ hu) uniform_nil
  obtain ⟨g1, e1⟩ := add_succeeds hr hl (ty := ty) (caps := getCapabilities ty d.attr.toNat) (by unfold Room; omega) hu rfl hty
  have hg1 := add_growth hr hne hl ty (getCapabilities ty d.attr.toNat) (base := r.1)
  have hr1 := reachable_add (base := r.1) hr (ty := ty) (by omega) hl (getCapabilities_lt (ty := ty) (d := d))
  obtain ⟨c, hu', ha, ht, _, hup, _⟩ := add_ok hr hne hl e1
  rw [e1] at hg1 hr1
  dsimp only at hg1 hr1
  unfold addPiece
  rw [e1]
  dsimp only
  cases attrs with
  | none => exact ⟨g1, rfl, by omega⟩
  | some x =>
    simp only [Option.map_some, setWanted]
    have hu1 : Uniform g1.blocks r.1 (r.2 - r.1) { c with
        type := ty, attrs := 0x2000,
        caps := getCapabilities ty d.attr.toNat ||| 0x8000000000026000 |||
          (if ty = .memoryMappedIo then 0x4000000000000000 else 0) } :=
      ⟨hu.1, fun a b1 b2 => by rw [hup a, if_pos ⟨b1, b2⟩]⟩
    obtain ⟨k, rfl⟩ : ∃ k, steps = k + 2 := ⟨steps - 2, by omega⟩
    rw [(setEarly_uniform hr1 hu1 dbg (wanted ty x)).1 k]
    have hg2 := set_growth hr1 hl (wanted ty x) (base := r.1)
    have hnr := pagingResult_wanted (hsome x rfl) (.ok ())
    have hnp : ∀ g3, g1.setAttributes r.1 (r.2 - r.1) (wanted ty x) ≠ (.panic, g3) := by
      intro g3 h
      have he := setAttributes_effect (base := r.1) (attrs := wanted ty x) (reachable_inv hr1).inv hl
      rw [h] at he
      exact he.noPanic
    have hok : dbg = true → ∃ g2, g1.setAttributes r.1 (r.2 - r.1) (wanted ty x) = (.ok (), g2) := by
      intro hd
      obtain ⟨d1, d2, hb⟩ := hsup hd x rfl
      refine set_attributes_succeeds hr1 hl (by unfold Room; omega) (by omega) (by omega) hu1 hty ?_
      apply Nat.eq_of_testBit_eq
      intro j
      rw [Nat.testBit_or]
      cases hj : (wanted ty x).testBit j with
      | false => simp
      | true =>
        rw [wanted_eq] at hj
        rw [Bool.or_true, eq_comm]
        refine (placed_caps j).2 ?_
        rcases hb j hj with h | h
        · exact .inl h
        · subst h; exact .inr (.inl (by simp))
    revert hg2 hok hnp
    generalize g1.setAttributes r.1 (r.2 - r.1) (wanted ty x) = y
    obtain ⟨o, g2⟩ := y
    intro hg2 hnp hok
    dsimp only at hg2
    cases o with
    | ok u => exact ⟨g2, by simp [Res.bind, expectNotReady, hnr], by omega⟩
    | err e =>
      cases dbg with
      | true => obtain ⟨g3, h3⟩ := hok rfl; cases h3
      | false => exact ⟨g2, by simp [Res.bind, expectNotReady, hnr], by omega⟩
    | panic => exact absurd rfl (hnp g2)

theorem addPieces_succeeds {dbg : Bool} {steps : Nat} {ty : MemType} {d : ResourceDescriptor}
    {attrs : Option Nat} (hty : ty ≠ .nonExistent) (hst : 2 ≤ steps)
    (hsome : ∀ x, attrs = some x → attributesOf ty attrs ≠ 0) : ∀ {l : List (Nat × Nat)} {g : Gcd}, Reachable nodeSize g →
    g.blocks ≠ [] → g.blocks.length + 4 * l.length ≤ 4096 → l.Pairwise (fun r q => ∀ a, In r a → ¬ In q a) →
    (∀ r ∈ l, r.1 < r.2 ∧ r.2 < W ∧ (∀ a, In r a → cellAt g.blocks a = some emptyCell) ∧
      (dbg = true → ∀ x, attrs = some x → 4096 ∣ r.1 ∧ 4096 ∣ r.2 ∧
        ∀ j, (attributesOf ty attrs).testBit j = true → Capable d ty j ∨ j = 13)) →
    ∃ g', addPieces dbg steps nodeSize ty (getCapabilities ty d.attr.toNat) (attrs.map (wanted ty)) l g = .ok g' ∧
      g'.blocks.length ≤ g.blocks.length + 4 * l.length
  | [], g, _, _, _, _, _ => ⟨g, rfl, by simp⟩
  | r :: l, g, hr, hne, hroom, hpw, h => by
    obtain ⟨p1, p2, p3, p4⟩ := h r List.mem_cons_self
    rw [List.length_cons] at hroom
    obtain ⟨g1, e1, l1⟩ := addPiece_succeeds hr hty p1 p2 hst (by omega) p3 hsome p4
    obtain ⟨a1, r1, n1⟩ := addPiece_ok hr hne (by omega) p2 e1
    obtain ⟨q1, q2⟩ := List.pairwise_cons.1 hpw
    obtain ⟨g2, e2, l2⟩ := addPieces_succeeds hty hst hsome (l := l) (g := g1) r1 n1 (by omega) q2 (fun q hq => by
      obtain ⟨b1, b2, b3, b4⟩ := h q (List.mem_cons_of_mem _ hq)
      refine ⟨b1, b2, fun a ha => ?_, b4⟩
      rw [a1.rest a (fun hin => q1 q hq a hin ha)]
      exact b3 a ha)
    refine ⟨g2, ?_, by rw [List.length_cons]; omega⟩
    unfold addPieces
    rw [e1]
    exact e2

theorem pieces_shape {a f : Nat × Nat} (ha : a.1 < a.2) (hf : f.1 ≤ f.2) :
    (pieces a f).length ≤ 2 ∧ (pieces a f).Pairwise (fun r q => ∀ a, In r a → ¬ In q a) ∧
    ∀ r ∈ pieces a f, r.1 < r.2 ∧ (r.1 = a.1 ∨ r.1 = f.2) ∧ (r.2 = a.2 ∨ r.2 = f.1) := by
  unfold pieces removeOverlap In
  split
  · rename_i h
    by_cases h1 : a.1 < f.1 <;> by_cases h2 : f.2 < a.2 <;> simp [h1, h2, List.takeWhile] <;> omega
  · simp [List.takeWhile, ha]

theorem addMem_succeeds (hr : Reachable nodeSize g) (hne : g.blocks ≠ []) {dbg : Bool} {steps : Nat} (hst : 2 ≤ steps) {s : Machine}
    {d : ResourceDescriptor} {attrs : Option Nat} {p : Handoff} {f : Nat × Nat} (hf : FreeMemory p f) (hle : f.1 ≤ f.2)
    (hroom : g.blocks.length + 8 ≤ 4096) (h : Acceptable dbg f s d attrs) (hs : s.mem = g) :
    ∃ g', addMem dbg steps nodeSize f d attrs g = .ok g' ∧ g'.blocks.length ≤ g.blocks.length + 8 := by
  subst hs
  unfold addMem
  split
  · exact ⟨_, rfl, by omega⟩
  · rename_i hk
    have hm : MapsTo d (memKind d) := mapsTo_iff.2 ⟨rfl, hk⟩
    rw [if_neg (by rw [consistent_iff.1 (h.consistent _ hm)]; simp)]
    have hfits := h.fits
    have hlen := h.length
    obtain ⟨s1, s2, s3⟩ := pieces_shape (a := (d.start.toNat, d.start.toNat + d.length.toNat)) (f := f) (by dsimp only; omega) hle
    obtain ⟨g', e, l⟩ := addPieces_succeeds (nodeSize := nodeSize) (d := d) (dbg := dbg) hk hst (fun x hx => h.attributes _ x hm hx)
      (l := pieces (d.start.toNat, d.start.toNat + d.length.toNat) f) hr hne (by omega) s2 (fun r hq => by
        obtain ⟨b1, b2, b3⟩ := s3 r hq
        have hb := pieces_bounds (m := W) (a := (d.start.toNat, d.start.toNat + d.length.toNat)) (by dsimp only; omega)
          (by unfold W; exact hfits) hle r hq
        refine ⟨b1, hb.2, fun a ha => ?_, fun hd x hx => ?_⟩
        · obtain ⟨i1, i2, -⟩ := (pieces_spec (a := (d.start.toNat, d.start.toNat + d.length.toNat)) hle a).1 ⟨r, hq, ha⟩
          exact h.free _ hm a i1 i2
        · obtain ⟨t1, t2, t3⟩ := h.supported hd _ x hm hx
          have := hf.start.1
          have := hf.stop.1
          exact ⟨by omega, by omega, t3⟩)
    exact ⟨g', e, by omega⟩

theorem addIo_succeeds {s : Machine} (hr : IoReachable s.io) {dbg : Bool} {d : ResourceDescriptor} {attrs : Option Nat} {f : Nat × Nat}
    (hroom : s.io.map.length + 2 ≤ 4096) (h : Acceptable dbg f s d attrs) :
    ∃ i', addIo dbg d s.io = .ok i' ∧ i'.map.length ≤ s.io.map.length + 2 := by
  have hl : d.length.toNat < W := by have := h.fits; unfold W; omega
  have key : ∀ ty, MapsToIo d ty → ty ≠ .nonExistent → ∃ i', expectIo (s.io.add ty d.start.toNat d.length.toNat) = .ok i' ∧
      i'.map.length ≤ s.io.map.length + 2 := by
    intro ty hm hty
    have hu : Uniform s.io.map d.start.toNat d.length.toNat emptyIoCell := ⟨h.length, fun a h1 h2 => h.freeIo ty hm a ⟨h1, h2⟩⟩
    obtain ⟨i', e⟩ := (io_range_succeeds hr hl hroom hu).1 ty rfl rfl hty
    have hg := io_add_growth hr hl ty (base := d.start.toNat)
    rw [e] at hg ⊢
    exact ⟨i', rfl, hg⟩
  unfold addIo
  split
  · rename_i ht; exact key _ (.io ht) (by simp)
  · split
    · rename_i ht; exact key _ (.reserved ht) (by simp)
    · rename_i ht6
      split
      · exact ⟨_, rfl, by omega⟩
      · rename_i h5
        cases dbg with
        | false => exact ⟨_, rfl, by omega⟩
        | true =>
          exfalso
          have := h.known rfl
          exact ht6 (UInt32.toNat_inj.1 (by show _ = 6; omega))

theorem addAll_succeeds {dbg : Bool} {steps : Nat} (hst : 2 ≤ steps) {p : Handoff} {f : Nat × Nat} (hf : FreeMemory p f)
    (hle : f.1 ≤ f.2) : ∀ {vs : List View} {s : Machine}, Ready nodeSize s →
    s.mem.blocks.length + 8 * vs.length ≤ 4096 → s.io.map.length + 2 * vs.length ≤ 4096 →
    (∀ v ∈ vs, ∀ d attrs, resourceOf v = some (d, attrs) → Acceptable dbg f s d attrs) →
    vs.Pairwise (fun v w => ∀ d x e y, resourceOf v = some (d, x) → resourceOf w = some (e, y) →
      (∀ t t', MapsTo d t → MapsTo e t' → ∀ a, Covers d a → Covers e a → In f a) ∧
      (∀ t t', MapsToIo d t → MapsToIo e t' → ∀ a, Covers d a → ¬ Covers e a)) →
    ∃ s', addAll dbg steps nodeSize f vs s = .ok s'
  | [], s, _, _, _, _, _ => ⟨s, rfl⟩
  | v :: vs, s, hs, hm, hio, hacc, hpw => by
    rw [List.length_cons] at hm hio
    obtain ⟨pw1, pw2⟩ := List.pairwise_cons.1 hpw
    have one : ∃ s1, addOne dbg steps nodeSize f v s = .ok s1 ∧ s1.mem.blocks.length ≤ s.mem.blocks.length + 8 ∧
        s1.io.map.length ≤ s.io.map.length + 2 := by
      unfold addOne
      cases hv : resourceOf v with
      | none => exact ⟨s, rfl, by omega, by omega⟩
      | some q =>
        obtain ⟨d, attrs⟩ := q
        have ha := hacc v List.mem_cons_self d attrs hv
        obtain ⟨io', e1, l1⟩ := addIo_succeeds hs.io (by omega) ha
        obtain ⟨g', e2, l2⟩ := addMem_succeeds hs.mem hs.map hst hf hle (by omega) ha rfl
        dsimp only
        rw [if_neg (by have := ha.fits; unfold W; omega), e1]
        simp only [Res.bind, e2]
        exact ⟨_, rfl, l2, l1⟩
    obtain ⟨s1, e1, l1, l2⟩ := one
    obtain ⟨r1, o1, o2⟩ := addOne_ok hs hle e1
    obtain ⟨s2, e2⟩ := addAll_succeeds hst hf hle (vs := vs) (s := s1) r1 (by omega) (by omega) (fun w hw e y he => by
      have ha := hacc w (List.mem_cons_of_mem _ hw) e y he
      refine ⟨ha.length, ha.fits, ha.known, ha.consistent, ?_, ?_, ha.attributes, ha.supported⟩
      · intro t ht a hca hin
        rw [← ha.free t ht a hca hin]
        cases hv : resourceOf v with
        | none => rw [o2 hv]
        | some q =>
          obtain ⟨-, m1, -, m0, -⟩ := o1 q.1 q.2 hv
          by_cases hk : ∃ t', MapsTo q.1 t'
          · obtain ⟨t', hk⟩ := hk
            refine (m1 t' hk).2.rest a fun hreach => ?_
            exact hin ((pw1 w hw q.1 q.2 e y hv he).1 t' t hk ht a hreach.1 hca)
          · rw [m0 fun t' h => hk ⟨t', h⟩]
      · intro t ht a hca
        rw [← ha.freeIo t ht a hca]
        cases hv : resourceOf v with
        | none => rw [o2 hv]
        | some q =>
          obtain ⟨-, -, i1, -, i0⟩ := o1 q.1 q.2 hv
          by_cases hk : ∃ t', MapsToIo q.1 t'
          · obtain ⟨t', hk⟩ := hk
            exact (i1 t' hk).rest a fun hcv => (pw1 w hw q.1 q.2 e y hv he).2 t' t hk ht a hcv hca
          · rw [i0 fun t' h => hk ⟨t', h⟩]) pw2
    refine ⟨s2, ?_⟩
    unfold addAll
    rw [e1]
    exact e2

/-- C52: resource descriptors that are each acceptable and do not overlap are all taken up: start-up does not panic, as long as
the tables have room (every descriptor can split two blocks twice). -/
theorem resources_accepted {dbg : Bool} {steps : Nat} {vs : List View} {s : Machine} {p : Handoff} {f : Nat × Nat}
    (hst : 2 ≤ steps) (hs : Ready nodeSize s) (hp : handoffs vs = [p]) (hf : FreeMemory p f) (hle : f.1 ≤ f.2)
    (hm : s.mem.blocks.length + 8 * vs.length ≤ 4096) (hio : s.io.map.length + 2 * vs.length ≤ 4096)
    (hacc : ∀ v ∈ vs, ∀ d attrs, Describes v d attrs → Acceptable dbg f s d attrs)
    (hpw : vs.Pairwise (fun v w => ∀ d x e y, Describes v d x → Describes w e y →
      (∀ t t', MapsTo d t → MapsTo e t' → ∀ a, Covers d a → Covers e a → In f a) ∧
      (∀ t t', MapsToIo d t → MapsToIo e t' → ∀ a, Covers d a → ¬ Covers e a))) :
    ∃ s', addResources dbg steps nodeSize vs s = .ok s' := by
  obtain ⟨s', h⟩ := addAll_succeeds hst hf hle hs hm hio (fun v hv d attrs hd => hacc v hv d attrs (describes_iff.2 hd))
    (hpw.imp fun h d x e y hd he => h d x e y (describes_iff.2 hd) (describes_iff.2 he))
  refine ⟨s', ?_⟩
  unfold addResources
  rw [phit_eq hp]
  simp only [freeRange_succeeds hf hle, Res.bind]
  exact h

/-! ### Findings -/

/-- Memory behind the free memory is lost when its resource descriptor begins inside the free memory: the descriptor adds
nothing at all, whatever its length. -/
theorem tail_is_lost {dbg : Bool} {steps : Nat} {v : View} {s s' : Machine} {f : Nat × Nat} {d : ResourceDescriptor}
    {attrs : Option Nat} (hs : Ready nodeSize s) (hle : f.1 ≤ f.2) (hd : Describes v d attrs) (hin : StartsIn f d)
    (h : addOne dbg steps nodeSize f v s = .ok s') (a : Nat) : cellAt s'.mem.blocks a = cellAt s.mem.blocks a := by
  obtain ⟨-, o1, -⟩ := addOne_ok hs hle h
  obtain ⟨-, m1, -, m0, -⟩ := o1 d attrs (describes_iff.1 hd)
  by_cases hk : ∃ t, MapsTo d t
  · obtain ⟨t, hk⟩ := hk
    exact (m1 t hk).2.rest a fun hr => hr.2.2 hin
  · rw [m0 fun t h => hk ⟨t, h⟩]

end Verif.Resources
