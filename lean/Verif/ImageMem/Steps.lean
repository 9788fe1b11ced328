import Verif.ImageMem.Lemmas
namespace Verif.ImageMem
open Verif.Gcd Verif.Paging

variable {ns : Nat} {dbg : Bool} {f : Faults} {m m' : Mem} {base align lo hi k : Nat} {s : Section}

/-- The range of a section in the model. -/
theorem within_range (hk : ∃ j, align = 2 ^ j ∧ 12 ≤ j) (hw : s.Within base align lo hi) :
    ∃ n, s.Spans align n ∧ Base.alignUp 32 s.size align = .ok n ∧ n % 4096 = 0 ∧ base + s.address + n ≤ hi := by
  obtain ⟨j, hj, hj2⟩ := hk
  obtain ⟨_, _, _, hsz, n, hn, hn32, hle⟩ := hw
  obtain ⟨r, hr, he⟩ := (Base.alignUp_spec 32 s.size align hsz).1 ⟨j, hj⟩
  have : r = n := spans_unique (s := s) hr hn
  subst this
  refine ⟨r, hr, by rw [he, if_pos hn32], ?_, hle⟩
  obtain ⟨q, hq⟩ := hr.1
  rw [hq, hj, show j = 12 + (j - 12) by omega, Nat.pow_add, Nat.mul_assoc]
  exact Nat.mul_mod_right _ _

theorem Holds.cell_at (hm : MemOk ns m) (h : Holds m lo hi k) {a : Nat} (h1 : lo ≤ a) (h2 : a < hi) :
    ∃ d, m.gcd.descriptorFor a = .ok d ∧ cellAt m.gcd.blocks a = some d.st ∧ d.st.type ≠ .nonExistent ∧
      d.st.caps ||| (0x26000 ||| k) = d.st.caps ∧ andNot d.st.attrs 0x26000 = k ∧ d.st.attrs < W ∧ d.st.caps < W := by
  have := h.inside
  obtain ⟨d, e, _, _, _, hc⟩ := descriptor_contains hm.reach hm.some (a := a) (by omega)
  obtain ⟨c, hc', x1, x2, x3⟩ := h.cells a h1 h2
  rw [hc] at hc'; injection hc' with hc'; subst hc'
  exact ⟨d, e, hc, x1, x2, x3, reachable_wide hm.reach _ _ hc, Caps.reachable_wide hm.reach _ _ hc⟩

theorem Holds.pageWise (h : Holds m lo hi k) {a n : Nat} (h1 : lo ≤ a) (h2 : a + n ≤ hi) (h3 : a % 4096 = 0) (h4 : n % 4096 = 0) :
    PageWise m.gcd a n := by
  have := h.order
  exact ⟨h3, h4, fun b k1 k2 => h.pages.2.2 b (by omega) (by omega)⟩

/-- The memory of the image with another range of attributes. -/
theorem Holds.step (h : Holds m lo hi k) {a n x : Nat} (hsz : m'.gcd.max = m.gcd.max) (ha : a % 4096 = 0) (hn : n % 4096 = 0)
    (hx : andNot x 0x26000 = k)
    (hc : ∀ b, cellAt m'.gcd.blocks b = (cellAt m.gcd.blocks b).map fun c => if a ≤ b ∧ b < a + n then { c with attrs := x } else c) :
    Holds m' lo hi k where
  inside := by rw [hsz]; exact h.inside
  order := h.order
  pages := ⟨h.pages.1, h.pages.2.1, fun b k1 k2 => by
    rw [hc, hc, h.pages.2.2 b k1 k2]
    have : (a ≤ b ∧ b < a + n) ↔ (a ≤ b / 4096 * 4096 ∧ b / 4096 * 4096 < a + n) := by omega
    by_cases hin : a ≤ b ∧ b < a + n
    · simp only [if_pos hin, if_pos (this.1 hin)]
    · simp only [if_neg hin, if_neg (fun y => hin (this.2 y))]⟩
  cells := fun b k1 k2 => by
    obtain ⟨c, e, x1, x2, x3⟩ := h.cells b k1 k2
    rw [hc, e]
    by_cases hin : a ≤ b ∧ b < a + n
    · exact ⟨{ c with attrs := x }, by simp [hin], x1, x2, hx⟩
    · exact ⟨c, by simp [hin], x1, x2, x3⟩

theorem step_ok {a n x : Nat} (hm : MemOk ns m) (hs : Sync m) (hh : Holds m lo hi k) (hroom : m.gcd.blocks.length + 8 ≤ 4096) (hf : Calm f)
    (h1 : lo ≤ a) (h2 : a + n ≤ hi) (h3 : a % 4096 = 0) (h4 : n % 4096 = 0) (hlt : a < hi) (hx : x = 0x20000 ∨ x = 0x24000 ∨ x = 0x4000) :
    ∃ m', m.step dbg ns f (.setAttributes a n (x ||| k)) = some (.ok (), m') ∧ m'.refusals = m.refusals ∧ MemOk ns m' ∧ Sync m' ∧
      m'.gcd.max = m.gcd.max ∧ m'.gcd.locked = m.gcd.locked ∧ Holds m' lo hi k ∧ m'.gcd.blocks.length ≤ m.gcd.blocks.length + 2 ∧
      ∀ b, cellAt m'.gcd.blocks b = (cellAt m.gcd.blocks b).map fun c => if a ≤ b ∧ b < a + n then { c with attrs := x ||| k } else c := by
  obtain ⟨d, _, _, _, _, k3, kW, _⟩ := hh.cell_at hm h1 hlt
  obtain ⟨y1, y2, y3, y4⟩ := andNot_new k3 kW hx
  have hin := hh.inside
  obtain ⟨m', e, r1, r2, r3, r4, r5, r6⟩ := Paging.set_attributes_succeeds (dbg := dbg) (f := f) (base := a) (len := n) hm hs (by omega) y4 y3
    (fun b b1 b2 => by
      obtain ⟨c, e, x1, x2, x3⟩ := hh.cells b (by omega) (by omega)
      exact ⟨c, e, x1, (or_supported x2 hx).1⟩)
    (hh.pageWise h1 h2 h3 h4) hroom (fun b => (hf b).2) (fun b => (hf b).1) (Or.inr (Or.inl y2))
  refine ⟨m', e, r1, r2, r3, r4, r5, hh.step r4 h3 h4 y1 r6, ?_, r6⟩
  have hg := good_of r2.reach r2.some
  rw [r4] at hg
  exact exact_length (good_of hm.reach hm.some) hg r6

theorem mask_eq : MEMORY_ACCESS_MASK = 0x26000 := by decide

theorem protectSection_ok {al : ∃ j, align = 2 ^ j ∧ 12 ≤ j} (hb : base % 4096 = 0) (hm : MemOk ns m) (hs : Sync m) (hh : Holds m lo hi k)
    (hroom : m.gcd.blocks.length + 8 ≤ 4096) (hf : Calm f) (hw : s.Within base align lo hi) :
    ∃ m' x, protectSection dbg ns base align m s f = some (.ok (), m') ∧ m'.refusals = m.refusals ∧ MemOk ns m' ∧ Sync m' ∧
      m'.gcd.max = m.gcd.max ∧ m'.gcd.locked = m.gcd.locked ∧ Holds m' lo hi k ∧ m'.gcd.blocks.length ≤ m.gcd.blocks.length + 2 ∧ Access s x ∧
      ∃ n, s.Spans align n ∧
      ∀ b, cellAt m'.gcd.blocks b =
        (cellAt m.gcd.blocks b).map fun c => if base + s.address ≤ b ∧ b < base + s.address + n then { c with attrs := x ||| k } else c := by
  obtain ⟨n, hn, he, hn4, hle⟩ := within_range al hw
  have hin := hh.inside
  have hW := (reachable_inv hm.reach).inv.ltW
  have hadd : addw base s.address = base + s.address := by
    unfold addw; exact Nat.mod_eq_of_lt (by have := hw.2.2.1; omega)
  obtain ⟨d, hd, hdc, hd1, hd2, hd3, hd4, hd5⟩ := hh.cell_at hm hw.2.1 hw.2.2.1
  have hacc := access_of s
  have hx := hacc.value
  have hcaps : sectionAccess s.flags ||| d.st.caps = d.st.caps := (or_supported hd2 hx).2
  obtain ⟨g, eg, g1, g2, g3, g4, g5, g6⟩ := setCapabilities_same (len := n) hm (by omega) (by have := hw.2.2.1; omega) hd5 hdc
  have hmg : MemOk ns { m with gcd := g } := ⟨g1, g2, hm.table, hm.dflt⟩
  have hsg : Sync { m with gcd := g } := fun t ht a c hc => hs t ht a c (by rw [← g6]; exact hc)
  have hhg : Holds { m with gcd := g } lo hi k :=
    ⟨by show hi ≤ g.max; rw [g3]; exact hin, hh.order,
     ⟨hh.pages.1, hh.pages.2.1, fun a k1 k2 => by show cellAt g.blocks _ = cellAt g.blocks _; rw [g6, g6]; exact hh.pages.2.2 a k1 k2⟩,
     fun a k1 k2 => by obtain ⟨c, e, x⟩ := hh.cells a k1 k2; exact ⟨c, by show cellAt g.blocks _ = _; rw [g6]; exact e, x⟩⟩
  obtain ⟨m', e, r1, r2, r3, r4, r5, r6, r7, r8⟩ := step_ok (dbg := dbg) (f := f) hmg hsg hhg (by show g.blocks.length + 8 ≤ 4096; omega) hf hw.2.1
    hle (by have := hw.1; omega) hn4 hw.2.2.1 hx
  refine ⟨m', sectionAccess s.flags, ?_, r1, r2, r3, r4.trans g3, r5.trans g4, r6, Nat.le_trans r7 (Nat.add_le_add_right g5 2), hacc, n, hn, ?_⟩
  · unfold protectSection
    rw [if_neg (by have := hw.2.2.1; omega), hadd, hd]
    dsimp only
    rw [he]
    dsimp only
    rw [hcaps, eg, mask_eq, hd3, e]
    rfl
  · intro b
    rw [r8 b]
    show (cellAt g.blocks b).map _ = _
    rw [g6 b]

/-- Taking back the protections takes the attributes `MEMORY_SP` and `MEMORY_CPU_CRYPTO` away as well; memory without them (0xC0000) is
left with `k`. -/
theorem andNot_all {a k : Nat} (ha : a < W) (h1 : andNot a 0x26000 = k) (h2 : k &&& 0xC0000 = 0) : andNot a MEMORY_ATTRIBUTE_MASK ||| MEMORY_XP = 0x4000 ||| k := by
  have e1 : MEMORY_ATTRIBUTE_MASK = 0xE6000 := by decide
  have e2 : MEMORY_XP = 0x4000 := by decide
  rw [e1, e2, Nat.or_comm]
  congr 1
  apply Nat.eq_of_testBit_eq
  intro i
  rw [andNot_bits ha (by decide), ← h1, andNot_bits ha (by decide)]
  have h3 := congrArg (fun n => n.testBit i) h2
  simp only [Nat.testBit_and, Nat.zero_testBit] at h3
  rw [← h1, andNot_bits ha (by decide)] at h3
  have e3 : (0xE6000 : Nat) = 0x26000 ||| 0xC0000 := by decide
  rw [e3, Nat.testBit_or]
  revert h3
  cases a.testBit i <;> cases Nat.testBit 0x26000 i <;> cases Nat.testBit 0xC0000 i <;> simp

theorem unprotectSection_ok {al : ∃ j, align = 2 ^ j ∧ 12 ≤ j} (hb : base % 4096 = 0) (hm : MemOk ns m) (hs : Sync m) (hh : Holds m lo hi k)
    (hk : k &&& 0xC0000 = 0) (hroom : m.gcd.blocks.length + 8 ≤ 4096) (hf : Calm f) (hw : s.Within base align lo hi) :
    ∃ m', unprotectSection dbg ns base align m s f = some (.ok (), m') ∧ m'.refusals = m.refusals ∧ MemOk ns m' ∧ Sync m' ∧
      m'.gcd.max = m.gcd.max ∧ m'.gcd.locked = m.gcd.locked ∧ Holds m' lo hi k ∧ m'.gcd.blocks.length ≤ m.gcd.blocks.length + 2 ∧
      ∃ n, s.Spans align n ∧
      ∀ b, cellAt m'.gcd.blocks b =
        (cellAt m.gcd.blocks b).map fun c => if base + s.address ≤ b ∧ b < base + s.address + n then { c with attrs := 0x4000 ||| k } else c := by
  obtain ⟨n, hn, he, hn4, hle⟩ := within_range al hw
  have hin := hh.inside
  have hW := (reachable_inv hm.reach).inv.ltW
  have hadd : addw base s.address = base + s.address := by
    unfold addw; exact Nat.mod_eq_of_lt (by have := hw.2.2.1; omega)
  obtain ⟨d, hd, hdc, hd1, hd2, hd3, hd4, hd5⟩ := hh.cell_at hm hw.2.1 hw.2.2.1
  obtain ⟨m', e, r1, r2, r3, r4, r5, r6, r7, r8⟩ := step_ok (dbg := dbg) (f := f) (x := 0x4000) hm hs hh hroom hf hw.2.1
    hle (by have := hw.1; omega) hn4 hw.2.2.1 (Or.inr (Or.inr rfl))
  refine ⟨m', ?_, r1, r2, r3, r4, r5, r6, r7, n, hn, r8⟩
  unfold unprotectSection
  rw [if_neg (by have := hw.2.2.1; omega), hadd, hd]
  dsimp only
  rw [he]
  dsimp only
  rw [andNot_all hd4 hd3 hk, e]
  rfl

end Verif.ImageMem
