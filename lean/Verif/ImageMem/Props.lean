import Verif.ImageMem.Steps
/-!
C64: the memory protections of images.
-/
namespace Verif.ImageMem
open Verif.Gcd Verif.Paging

variable {ns : Nat} {dbg : Bool} {f : Faults} {m m' : Mem} {base align lo hi k : Nat}

/-! ### Lists of sections -/

theorem protected_cons {s : Section} {l : List Section} {x n a old mid new : Nat} (hn : s.Spans align n) (hx : Access s x)
    (hmid : mid = if base + s.address ≤ a ∧ a < base + s.address + n then x ||| k else old) (h : Protected base align k l a mid new) :
    Protected base align k (s :: l) a old new := by
  have hi := has_iff (base := base) (a := a) hn
  refine ⟨fun hno => ?_, fun l1 s' l2 e hs' hl2 => ?_⟩
  · rw [h.1 fun y hy => hno y (List.mem_cons_of_mem _ hy), hmid, if_neg fun y => hno s List.mem_cons_self (hi.2 y)]
  · cases l1 with
    | nil =>
      injection e with e1 e2; subst e1; subst e2
      exact ⟨x, hx, by rw [h.1 hl2, hmid, if_pos (hi.1 hs')]⟩
    | cons y l1 =>
      injection e with e1 e2
      exact h.2 l1 s' l2 e2 hs' hl2

theorem unprotected_cons {s : Section} {l : List Section} {n a old mid new : Nat} (hn : s.Spans align n)
    (hmid : mid = if base + s.address ≤ a ∧ a < base + s.address + n then 0x4000 ||| k else old) (h : Unprotected base align k l a mid new) :
    Unprotected base align k (s :: l) a old new := by
  have hi := has_iff (base := base) (a := a) hn
  refine ⟨fun hno => ?_, ?_⟩
  · rw [h.1 fun y hy => hno y (List.mem_cons_of_mem _ hy), hmid, if_neg fun y => hno s List.mem_cons_self (hi.2 y)]
  · rintro ⟨s', hs', hh⟩
    by_cases hl : ∃ y ∈ l, y.Has base align a
    · exact h.2 hl
    · rw [h.1 fun y hy hyh => hl ⟨y, hy, hyh⟩]
      rcases List.mem_cons.1 hs' with e | e
      · subst e; rw [hmid, if_pos (hi.1 hh)]
      · exact absurd ⟨s', e, hh⟩ hl

theorem becomes_cons {m1 m2 : Mem} {s : Section} {n y : Nat} {R R' : Nat → Nat → Nat → Prop}
    (r1 : m1.refusals = m.refusals) (r4 : m1.gcd.max = m.gcd.max) (r5 : m1.gcd.locked = m.gcd.locked)
    (r8 : ∀ b, cellAt m1.gcd.blocks b =
        (cellAt m.gcd.blocks b).map fun c => if base + s.address ≤ b ∧ b < base + s.address + n then { c with attrs := y } else c)
    (h : Becomes ns m1 m2 R)
    (hR : ∀ a old new, R a (if base + s.address ≤ a ∧ a < base + s.address + n then y else old) new → R' a old new) : Becomes ns m m2 R' where
  ok := h.ok
  sync := h.sync
  size := h.size.trans r4
  locked := h.locked.trans r5
  refusals := h.refusals.trans r1
  gone := fun a ha => h.gone a (by rw [r8, ha]; rfl)
  cells := fun a c hc => by
    obtain ⟨x, hx1, hx2⟩ := h.cells a (if base + s.address ≤ a ∧ a < base + s.address + n then { c with attrs := y } else c) (by rw [r8, hc]; rfl)
    refine ⟨x, hR _ _ _ ?_, ?_⟩
    · by_cases hin : base + s.address ≤ a ∧ a < base + s.address + n
      · rw [if_pos hin] at hx1 ⊢; exact hx1
      · rw [if_neg hin] at hx1 ⊢; exact hx1
    · rw [hx2]
      by_cases hin : base + s.address ≤ a ∧ a < base + s.address + n
      · rw [if_pos hin]
      · rw [if_neg hin]

theorem becomes_refl {R : Nat → Nat → Nat → Prop} (hm : MemOk ns m) (hs : Sync m) (hR : ∀ a x, R a x x) : Becomes ns m m R :=
  ⟨hm, hs, rfl, rfl, rfl, fun _ h => h, fun a c h => ⟨c.attrs, hR _ _, h⟩⟩

/-- C64 (protect): for every list of sections that begin on pages and lie in the memory of the image, protecting the image
succeeds. Each address of a section gets the access of the (last) section that contains it: code is read-only, anything else
is not executable, and it is also read-only unless the section is writable. No other address changes, and nothing but the access
changes; the page table agrees. (`Holds`: the memory is there, in whole pages, and supports the protections; there is room for two
more descriptors per section; the page table does not fail.) -/
theorem protect_image {l : List (Section × Faults)} (al : ∃ j, align = 2 ^ j ∧ 12 ≤ j) (hb : base % 4096 = 0) (hm : MemOk ns m) (hs : Sync m)
    (hh : Holds m lo hi k) (hroom : m.gcd.blocks.length + 2 * l.length + 8 ≤ 4096)
    (hl : ∀ p ∈ l, p.1.Within base align lo hi ∧ Calm p.2) :
    ∃ m', protect dbg ns base align l m = some (.ok (), m') ∧ Holds m' lo hi k ∧ m'.gcd.blocks.length ≤ m.gcd.blocks.length + 2 * l.length ∧
      Becomes ns m m' (Protected base align k (l.map Prod.fst)) := by
  unfold protect
  induction l generalizing m with
  | nil => exact ⟨m, rfl, hh, Nat.le_refl _, becomes_refl hm hs fun a x => ⟨fun _ => rfl, fun l1 s l2 e => by cases l1 <;> cases e⟩⟩
  | cons p l ih =>
    obtain ⟨s, f⟩ := p
    obtain ⟨hw, hf⟩ := hl _ List.mem_cons_self
    have hroom' : m.gcd.blocks.length + 2 * (l.length + 1) + 8 ≤ 4096 := hroom
    obtain ⟨m1, x, e, r1, r2, r3, r4, r5, r6, r7, hx, n, hn, r8⟩ := protectSection_ok (al := al) (dbg := dbg) hb hm hs hh (by omega) hf hw
    obtain ⟨m2, e2, h2, hlen, hbec⟩ := ih r2 r3 r6 (by omega) (fun p hp => hl p (List.mem_cons_of_mem _ hp))
    refine ⟨m2, ?_, h2, by show _ ≤ _ + 2 * (l.length + 1); omega, becomes_cons r1 r4 r5 r8 hbec fun a old new hR => protected_cons hn hx rfl hR⟩
    unfold eachSection
    dsimp only at e
    rw [e]
    exact e2

/-- C64 (remove): for every list of sections that begin on pages and lie in the memory of the image, removing the protections
succeeds; every address of a section is data again, readable, writable and not executable, and nothing else changes. (0xC0000: memory
marked as special purpose or encrypted loses these marks.) -/
theorem unprotect_image {l : List (Section × Faults)} (al : ∃ j, align = 2 ^ j ∧ 12 ≤ j) (hb : base % 4096 = 0) (hm : MemOk ns m) (hs : Sync m)
    (hh : Holds m lo hi k) (hk : k &&& 0xC0000 = 0) (hroom : m.gcd.blocks.length + 2 * l.length + 8 ≤ 4096)
    (hl : ∀ p ∈ l, p.1.Within base align lo hi ∧ Calm p.2) :
    ∃ m', unprotect dbg ns base align l m = some (.ok (), m') ∧ Holds m' lo hi k ∧ m'.gcd.blocks.length ≤ m.gcd.blocks.length + 2 * l.length ∧
      Becomes ns m m' (Unprotected base align k (l.map Prod.fst)) := by
  unfold unprotect
  induction l generalizing m with
  | nil => exact ⟨m, rfl, hh, Nat.le_refl _, becomes_refl hm hs fun a x => ⟨fun _ => rfl, fun ⟨s, h, _⟩ => by cases h⟩⟩
  | cons p l ih =>
    obtain ⟨s, f⟩ := p
    obtain ⟨hw, hf⟩ := hl _ List.mem_cons_self
    have hroom' : m.gcd.blocks.length + 2 * (l.length + 1) + 8 ≤ 4096 := hroom
    obtain ⟨m1, e, r1, r2, r3, r4, r5, r6, r7, n, hn, r8⟩ := unprotectSection_ok (al := al) (dbg := dbg) hb hm hs hh hk (by omega) hf hw
    obtain ⟨m2, e2, h2, hlen, hbec⟩ := ih r2 r3 r6 (by omega) (fun p hp => hl p (List.mem_cons_of_mem _ hp))
    refine ⟨m2, ?_, h2, by show _ ≤ _ + 2 * (l.length + 1); omega, becomes_cons r1 r4 r5 r8 hbec fun a old new hR => unprotected_cons hn rfl hR⟩
    unfold eachSection
    dsimp only at e
    rw [e]
    exact e2

/-- C64 (write xor execute): after that, every page of a section is mapped, and none of them is both writable and executable; it is
executable only if the section that decides about it holds code. -/
theorem protected_pages {l : List (Section × Faults)} (al : ∃ j, align = 2 ^ j ∧ 12 ≤ j) (hb : base % 4096 = 0) (hm : MemOk ns m) (hs : Sync m)
    (hh : Holds m lo hi k) (hroom : m.gcd.blocks.length + 2 * l.length + 8 ≤ 4096)
    (hl : ∀ p ∈ l, p.1.Within base align lo hi ∧ Calm p.2) {t : Table} (h : protect dbg ns base align l m = some (.ok (), m'))
    (ht : m'.table = some t) {a : Nat} {s : Section} {l1 l2 : List Section} (hsec : l.map Prod.fst = l1 ++ s :: l2) (ha : s.Has base align a)
    (hlast : ∀ s' ∈ l2, ¬ s'.Has base align a) :
    ∃ x, t (a / 4096) = some x ∧ (x.testBit 14 = false ↔ s.IsCode) ∧ (x.testBit 17 = true ↔ s.IsCode ∨ s.IsConstant) := by
  obtain ⟨m2, e, h2, _, hbec⟩ := protect_image (dbg := dbg) al hb hm hs hh hroom hl
  rw [h] at e; injection e with e; injection e with _ e; subst e
  obtain ⟨p, hp, hps⟩ : ∃ p ∈ l, p.1 = s := by
    have : s ∈ l.map Prod.fst := by rw [hsec]; simp
    exact List.mem_map.1 this
  have hw := (hl p hp).1
  rw [hps] at hw
  obtain ⟨n, hn, _, _, hle⟩ := within_range al hw
  have hin := (has_iff hn).1 ha
  obtain ⟨c, hc, hty, hcaps, hk⟩ := hh.cells a (by have := hw.2.1; omega) (by omega)
  obtain ⟨y, hR, hc'⟩ := hbec.cells a c hc
  obtain ⟨x, hx, e⟩ := hR.2 l1 s l2 hsec ha hlast
  have hmap := hbec.sync t ht a _ hc'
  obtain ⟨_, n2, _, _⟩ := andNot_new hk (reachable_wide hm.reach _ _ hc) hx.value
  refine ⟨(x ||| k) &&& 0x2701F, ?_, ?_⟩
  · rw [hmap, e]
    unfold mappingOf mappingFor
    rw [if_neg hty, if_neg (by simp [n2])]
  · have kbit : ∀ i, Nat.testBit 0x26000 i = true → k.testBit i = false := fun i hi => by
      rw [← hk, andNot_bits (reachable_wide hm.reach _ _ hc) (by decide), hi]; simp
    rw [Nat.testBit_and, Nat.testBit_or, kbit 14 (by decide), Nat.testBit_and, Nat.testBit_or, kbit 17 (by decide)]
    have e1 : Nat.testBit 0x2701F 14 = true := by decide
    have e2 : Nat.testBit 0x2701F 17 = true := by decide
    rw [e1, e2]
    simp only [Bool.or_false, Bool.and_true]
    by_cases q1 : s.IsCode
    · rw [hx.code q1]
      exact ⟨⟨fun _ => q1, fun _ => by decide⟩, ⟨fun _ => Or.inl q1, fun _ => by decide⟩⟩
    · by_cases q2 : s.IsConstant
      · rw [hx.constant q1 q2]
        exact ⟨⟨fun h => absurd h (by decide), fun h => absurd h q1⟩, ⟨fun _ => Or.inr q2, fun _ => by decide⟩⟩
      · rw [hx.data q1 q2]
        exact ⟨⟨fun h => absurd h (by decide), fun h => absurd h q1⟩, ⟨fun h => absurd h (by decide), fun h => (h.elim q1 q2).elim⟩⟩

/-! ### Unloading -/

/-- C64 (unload): an image that was loaded into memory in one state (allocated, data), with protections on any of its sections by
now, can be freed once they are removed: the memory is then in that one state again. -/
theorem unload_uniform {l : List (Section × Faults)} (al : ∃ j, align = 2 ^ j ∧ 12 ≤ j) (hb : base % 4096 = 0) (hm : MemOk ns m) (hs : Sync m)
    (hh : Holds m lo hi k) (hk : k &&& 0xC0000 = 0) (hroom : m.gcd.blocks.length + 2 * l.length + 8 ≤ 4096)
    (hl : ∀ p ∈ l, p.1.Within base align lo hi ∧ Calm p.2) {c : Cell} (hlo : lo < hi)
    (hc : ∀ a, lo ≤ a → a < hi → ∃ x, cellAt m.gcd.blocks a = some { c with attrs := x } ∧
      ((∀ p ∈ l, ¬ p.1.Has base align a) → x = 0x4000 ||| k)) :
    ∃ m', unprotect dbg ns base align l m = some (.ok (), m') ∧ MemOk ns m' ∧ Sync m' ∧ m'.gcd.locked = m.gcd.locked ∧
      Uniform m'.gcd.blocks lo (hi - lo) { c with attrs := 0x4000 ||| k } ∧
      (∀ a, ¬ (lo ≤ a ∧ a < hi) → cellAt m'.gcd.blocks a = cellAt m.gcd.blocks a) ∧
      m'.gcd.blocks.length ≤ m.gcd.blocks.length + 2 * l.length := by
  obtain ⟨m2, e, h2, hlen, hbec⟩ := unprotect_image (dbg := dbg) al hb hm hs hh hk hroom hl
  refine ⟨m2, e, hbec.ok, hbec.sync, hbec.locked, ⟨by omega, fun a h1 h2 => ?_⟩, fun a ha => ?_, hlen⟩
  · obtain ⟨x, hx, hno⟩ := hc a h1 (by omega)
    obtain ⟨y, hR, hy⟩ := hbec.cells a _ hx
    rw [hy]
    by_cases hin : ∃ p ∈ l, p.1.Has base align a
    · obtain ⟨p, hp, hpa⟩ := hin
      rw [hR.2 ⟨p.1, List.mem_map.2 ⟨p, hp, rfl⟩, hpa⟩]
    · rw [hR.1 fun s hs' hsa => by
        obtain ⟨p, hp, rfl⟩ := List.mem_map.1 hs'
        exact hin ⟨p, hp, hsa⟩]
      rw [hno fun p hp hpa => hin ⟨p, hp, hpa⟩]
  · cases hca : cellAt m.gcd.blocks a with
    | none => exact hbec.gone a hca
    | some c =>
      obtain ⟨y, hR, hy⟩ := hbec.cells a _ hca
      rw [hy, hR.1 fun s hs' hsa => by
        obtain ⟨p, hp, rfl⟩ := List.mem_map.1 hs'
        have hw := (hl p hp).1
        obtain ⟨n, hn, _, _, hle⟩ := within_range al hw
        have := (has_iff hn).1 hsa
        have := hw.2.1
        exact ha (by omega)]

/-- Freeing a range of allocated pages in one state. -/
theorem free_pages {len : Nat} {c : Cell} (hm : MemOk ns m) (hroom : m.gcd.blocks.length + 4 ≤ 4096) (hul : m.gcd.locked = false) (h1 : base % 4096 = 0)
    (h2 : len % 4096 = 0) (hu : Uniform m.gcd.blocks base len c) (hal : c.allocated = true) (hrp : c.caps.testBit 13 = true) (hf : Calm f) :
    ∃ m', m.step dbg ns f (.free base len) = some (.ok (), m') ∧
      ∀ a, base ≤ a → a < base + len → (∃ d, cellAt m'.gcd.blocks a = some d ∧ d.allocated = false) ∧ ¬ Mapped m' (a / 4096) := by
  have hlt := uniform_ltW hm.reach hu
  have hpos := hu.1
  obtain ⟨g, hg, hfree⟩ := free_succeeds hm.reach hul hlt.2 hroom false h1 h2 hu hal
  have hg : m.gcd.freeSpace base len false = (.ok (), g) := by
    rcases hg with hg | ⟨hb, _⟩
    · exact hg
    · rw [hrp] at hb; cases hb
  simp only [Mem.step, Mem.free, hg]
  cases ht : m.table with
  | none => exact ⟨_, rfl, fun a k1 k2 => ⟨hfree a k1 k2, fun ⟨t, x, e, _⟩ => by cases e⟩⟩
  | some t =>
    have hre : ∀ m : Mem, m.refill f base = some m := fun m => by unfold Mem.refill; rw [if_neg (by rw [(hf base).2]; simp)]
    have : Mem.unmap f { m with gcd := g, table := some t } t base len = (.ok (), { m with gcd := g, table := some (t.set base len none) }) := by
      unfold Mem.unmap
      rw [hre]
      dsimp only
      rw [if_neg (by rw [rangeOk_iff.2 ⟨h1, h2, by omega⟩]; simp), (hf base).1]
    dsimp only
    rw [this]
    refine ⟨_, rfl, fun a k1 k2 => ⟨hfree a k1 k2, fun ⟨t', x, e, hx⟩ => ?_⟩⟩
    injection e with e; subst e
    rw [set_apply h1 h2, if_pos ((inPages_iff h1 h2).2 (by omega))] at hx
    cases hx

/-- C64 (unload): its memory is then freed completely. (The hypothesis `hc` is met after `protect` by memory that was allocated as one
range, `loaded_then_unloaded`.) -/
theorem unload_frees {l : List (Section × Faults)} (al : ∃ j, align = 2 ^ j ∧ 12 ≤ j) (hb : base % 4096 = 0) (hm : MemOk ns m) (hs : Sync m)
    (hh : Holds m lo hi k) (hk : k &&& 0xC0000 = 0) (hroom : m.gcd.blocks.length + 2 * l.length + 8 ≤ 4096) (hul : m.gcd.locked = false)
    (hl : ∀ p ∈ l, p.1.Within base align lo hi ∧ Calm p.2) {c : Cell} (hlo : lo < hi) (hal : c.allocated = true) (hf : Calm f)
    (hc : ∀ a, lo ≤ a → a < hi → ∃ x, cellAt m.gcd.blocks a = some { c with attrs := x } ∧
      ((∀ p ∈ l, ¬ p.1.Has base align a) → x = 0x4000 ||| k)) :
    ∃ m1 m2, unprotect dbg ns base align l m = some (.ok (), m1) ∧ m1.step dbg ns f (.free lo (hi - lo)) = some (.ok (), m2) ∧
      ∀ a, lo ≤ a → a < hi → (∃ d, cellAt m2.gcd.blocks a = some d ∧ d.allocated = false) ∧ ¬ Mapped m2 (a / 4096) := by
  obtain ⟨m1, e, k1, k2, k3, k4, k5, k6⟩ := unload_uniform (dbg := dbg) al hb hm hs hh hk hroom hl hlo hc
  have hrp : c.caps.testBit 13 = true := by
    obtain ⟨x, hx, _⟩ := hc lo (Nat.le_refl _) hlo
    obtain ⟨c', hc', _, hcaps, _⟩ := hh.cells lo (Nat.le_refl _) hlo
    rw [hx] at hc'; injection hc' with hc'; subst hc'
    have := congrArg (fun n => n.testBit 13) hcaps
    simp only [Nat.testBit_or] at this
    rw [show Nat.testBit 0x26000 13 = true by decide, Bool.true_or, Bool.or_true] at this
    exact this.symm
  obtain ⟨m2, e2, h2⟩ := free_pages (dbg := dbg) (f := f) (c := { c with attrs := 0x4000 ||| k }) k1 (by omega) (k3.trans hul) hh.pages.1 hh.pages.2.1 k4 hal hrp hf
  exact ⟨m1, m2, e, e2, fun a a1 a2 => h2 a a1 (by omega)⟩

/-- C64 (load, then unload): the pages allocated for an image, as one range of data, are all free again after its protections were
set, removed and its memory freed. -/
theorem loaded_then_unloaded {l l' : List (Section × Faults)} (al : ∃ j, align = 2 ^ j ∧ 12 ≤ j) (hb : base % 4096 = 0) (hm : MemOk ns m) (hs : Sync m)
    (hroom : m.gcd.blocks.length + 4 * l.length + 8 ≤ 4096) (hul : m.gcd.locked = false)
    (hl : ∀ p ∈ l, p.1.Within base align lo hi ∧ Calm p.2) (hl' : ∀ p ∈ l', p.1.Within base align lo hi ∧ Calm p.2)
    (hsame : l'.map Prod.fst = l.map Prod.fst) (hf : Calm f)
    {c : Cell} (hu : Uniform m.gcd.blocks lo (hi - lo) c) (hlo : lo % 4096 = 0) (hhi : hi % 4096 = 0) (hal : c.allocated = true)
    (hcaps : c.caps ||| (0x26000 ||| k) = c.caps) (hattrs : c.attrs = 0x4000 ||| k) (hk : k &&& 0xE6000 = 0) :
    ∃ m1 m2 m3, protect dbg ns base align l m = some (.ok (), m1) ∧ unprotect dbg ns base align l' m1 = some (.ok (), m2) ∧
      (∀ a, cellAt m2.gcd.blocks a = cellAt m.gcd.blocks a) ∧
      m2.step dbg ns f (.free lo (hi - lo)) = some (.ok (), m3) ∧
      ∀ a, lo ≤ a → a < hi → (∃ d, cellAt m3.gcd.blocks a = some d ∧ d.allocated = false) ∧ ¬ Mapped m3 (a / 4096) := by
  have hpos := hu.1
  have hcell := hu.2 lo (Nat.le_refl _) (by omega)
  have hWc := reachable_wide hm.reach _ _ hcell
  have hkW : k < W := Nat.lt_of_le_of_lt Nat.right_le_or (by rw [← hattrs]; exact hWc)
  have hbits : ∀ i, Nat.testBit 0xE6000 i = true → k.testBit i = false := fun i hi => bit_of_and_zero hk hi
  have hk1 : andNot c.attrs 0x26000 = k := by
    rw [hattrs]
    apply Nat.eq_of_testBit_eq
    intro i
    rw [andNot_bits (by rw [← hattrs]; exact hWc) (by decide), Nat.testBit_or]
    have h1 := hbits i
    have h2 : (0x26000 ||| 0xE6000 : Nat).testBit i = Nat.testBit 0xE6000 i := by rw [show 0x26000 ||| 0xE6000 = 0xE6000 by decide]
    have h3 : (0x4000 ||| 0x26000 : Nat).testBit i = Nat.testBit 0x26000 i := by rw [show 0x4000 ||| 0x26000 = 0x26000 by decide]
    rw [Nat.testBit_or] at h2 h3
    revert h1 h2 h3
    cases Nat.testBit 0x4000 i <;> cases Nat.testBit 0x26000 i <;> cases Nat.testBit 0xE6000 i <;> cases k.testBit i <;> simp
  have hk2 : k &&& 0xC0000 = 0 := by
    apply Nat.eq_of_testBit_eq
    intro i
    rw [Nat.testBit_and, Nat.zero_testBit]
    have h1 := hbits i
    have h2 : (0xC0000 ||| 0xE6000 : Nat).testBit i = Nat.testBit 0xE6000 i := by rw [show 0xC0000 ||| 0xE6000 = 0xE6000 by decide]
    rw [Nat.testBit_or] at h2
    revert h1 h2
    cases Nat.testBit 0xC0000 i <;> cases Nat.testBit 0xE6000 i <;> cases k.testBit i <;> simp
  have hbnd := uniform_bounds (good_of hm.reach hm.some).tiles hu
  have hty := (((reachable_inv hm.reach).cells lo c hcell).alloc hal).1
  have hh : Holds m lo hi k :=
    ⟨by omega, by omega, ⟨hlo, by omega, fun a k1 k2 => by rw [hu.2 a k1 k2, hu.2 _ (by omega) (by omega)]⟩,
     fun a k1 k2 => ⟨c, hu.2 a k1 (by omega), hty, hcaps, hk1⟩⟩
  obtain ⟨m1, e1, h1, hlen1, hbec⟩ := protect_image (dbg := dbg) al hb hm hs hh (by omega) hl
  have hll : l'.length = l.length := by have := congrArg List.length hsame; simpa using this
  have hno : ∀ a, (∀ p ∈ l', ¬ p.1.Has base align a) → ∀ s ∈ l.map Prod.fst, ¬ s.Has base align a := fun a h s hs' => by
    rw [← hsame] at hs'
    obtain ⟨p, hp, rfl⟩ := List.mem_map.1 hs'
    exact h p hp
  have hc1 : ∀ a, lo ≤ a → a < hi → ∃ x, cellAt m1.gcd.blocks a = some { c with attrs := x } ∧
      ((∀ p ∈ l', ¬ p.1.Has base align a) → x = 0x4000 ||| k) := fun a a1 a2 => by
    obtain ⟨x, hR, hx⟩ := hbec.cells a c (hu.2 a a1 (by omega))
    exact ⟨x, hx, fun h => by rw [hR.1 (hno a h), hattrs]⟩
  obtain ⟨m2, e2, k1, k2, k3, k4, k5, k6⟩ := unload_uniform (dbg := dbg) al hb hbec.ok hbec.sync h1 hk2 (by omega) hl' (by omega) hc1
  obtain ⟨m2', m3, e2', e3, h3⟩ := unload_frees (dbg := dbg) (f := f) al hb hbec.ok hbec.sync h1 hk2 (by omega) (hbec.locked.trans hul) hl' (by omega) hal hf hc1
  rw [e2] at e2'; injection e2' with e2'; injection e2' with _ e2'; subst e2'
  refine ⟨m1, m2, m3, e1, e2, fun a => ?_, e3, h3⟩
  by_cases hin : lo ≤ a ∧ a < hi
  · rw [k4.2 a hin.1 (by omega), hu.2 a hin.1 (by omega), ← hattrs]
  · rw [k5 a hin]
    cases hca : cellAt m.gcd.blocks a with
    | none => exact hbec.gone a hca
    | some d =>
      obtain ⟨y, hR, hy⟩ := hbec.cells a _ hca
      rw [hy, hR.1 fun s hs' hsa => by
        obtain ⟨p, hp, rfl⟩ := List.mem_map.1 hs'
        have hw := (hl p hp).1
        obtain ⟨n, hn, _, _, hle⟩ := within_range al hw
        have := (has_iff hn).1 hsa
        have := hw.2.1
        exact hin (by omega)]

end Verif.ImageMem
