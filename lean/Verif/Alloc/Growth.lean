import Verif.Alloc.Calls
/-!
C27: allocating succeeds as long as the GCD has memory to grow the heap with.
-/
namespace Verif.Alloc
open Verif.Gcd
open Verif.Hob (Mem)

variable {E : Env} {w w' : World E.H} {h h' : History}

/-- What the heap keeps of a request for `size` bytes: a multiple of 8, at least 16. -/
def held (size : Nat) : Nat := (max size 16 + 7) / 8 * 8

/-- The layouts for which growing the heap once is enough: those of the block sizes; those with alignment up to 8; and others
with alignment up to the granularity, unless rounding the size up to the alignment adds 8 bytes to what the heap keeps (then
the hole left at the end would be too small, see `unlucky_size_fails`). -/
def Roomy (gran : Nat) (l : Layout) : Prop :=
  max l.size l.align ≤ 4096 ∨ l.align ≤ 8 ∨ (0 < l.size ∧ l.align ≤ gran ∧ l.padded ≠ held l.size + 8)

theorem pow2_le8 {k : Nat} (h : 2 ^ k ≤ 8) : 2 ^ k ∣ 8 := by
  have : k ≤ 3 := (Nat.pow_le_pow_iff_right (by omega : 1 < 2)).1 (show 2 ^ k ≤ 2 ^ 3 from h)
  exact Nat.pow_dvd_pow 2 this

theorem listIndex_none {l : Layout} (h : listIndex l = none) : 4096 < max l.size l.align := by
  unfold listIndex at h
  rw [List.findIdx?_eq_none_iff] at h
  have := h 4096 (by simp [BLOCK_SIZES])
  simp only [decide_eq_false_iff_not] at this
  omega

theorem fits_aligned {base node len s8 A P : Nat} (hA : 16 ≤ A) (hb : A ∣ base) (hl : A ∣ len) (hP : A ∣ P) (hs : s8 % 8 = 0) (hs2 : s8 ≤ P)
    (hne : P ≠ s8 + 8) (h16 : A % 8 = 0) (hr : P + node + 24 ≤ len) :
    (base + node + 16 + A - 1) / A * A + s8 = base + len ∨ (base + node + 16 + A - 1) / A * A + s8 + 16 ≤ base + len := by
  obtain ⟨B, rfl⟩ := hb
  obtain ⟨L, rfl⟩ := hl
  obtain ⟨Q, rfl⟩ := hP
  have hdiv : (A * B + node + 16 + A - 1) / A = B + (node + 16 + A - 1) / A := by
    rw [show A * B + node + 16 + A - 1 = node + 16 + A - 1 + A * B by omega, Nat.add_mul_div_left _ _ (by omega), Nat.add_comm]
  rw [hdiv]
  have hq : (node + 16 + A - 1) / A ≤ L - Q := by
    rw [Nat.div_le_iff_le_mul_add_pred (by omega)]
    rw [Nat.mul_sub]; omega
  have hQL : Q ≤ L := Nat.le_of_mul_le_mul_left (by omega : A * Q ≤ A * L) (by omega)
  generalize (node + 16 + A - 1) / A = q at *
  obtain ⟨d, hd⟩ : ∃ d, L = Q + q + d := ⟨L - Q - q, by omega⟩
  subst hd
  have hPm : A * Q % 8 = 0 := Nat.mod_eq_zero_of_dvd (Nat.dvd_trans (Nat.dvd_of_mod_eq_zero h16) (Nat.dvd_mul_right _ _))
  rw [Nat.add_mul, Nat.mul_add, Nat.mul_add, Nat.mul_comm B A, Nat.mul_comm q A]
  cases d with
  | zero =>
    rw [Nat.mul_zero]
    omega
  | succ d =>
    have : A * (d + 1) = A * d + A := Nat.mul_succ _ _
    omega

/-- A region big enough, as `growth` makes it, serves the request. -/
theorem fresh_ok (hE : EnvOk E) {lay : Layout} (hv : lay.Valid) {gran base len : Nat} (hg : GranOk gran) (hr : Roomy gran lay) (hb : gran ∣ base) (hl : gran ∣ len)
    (h1 : required E (heapLayout lay) ≤ len) (h2 : MIN_EXPANSION ≤ len) (m : Mem) :
    (E.H.alloc (E.H.init (base + E.node) (len - E.node) m).1 (E.H.init (base + E.node) (len - E.node) m).2 (heapLayout lay)).isSome := by
  obtain ⟨k, k1, k2, rfl⟩ := hg
  have hn := hE.nodeSmall
  have hn8 := hE.node8
  have h8 : 8 ∣ 2 ^ k := Nat.pow_dvd_pow 2 (by omega : 3 ≤ k)
  have hb8 : base % 8 = 0 := Nat.mod_eq_zero_of_dvd (Nat.dvd_trans h8 hb)
  have hl8 : len % 8 = 0 := Nat.mod_eq_zero_of_dvd (Nat.dvd_trans h8 hl)
  have hv' := heapLayout_valid hv
  have hp' := padded_le hv'
  unfold MIN_EXPANSION at h2
  unfold required at h1
  -- the two ways to place the block
  have go : ∀ l : Layout, l = heapLayout lay →
      (l.align ∣ base + E.node → base + E.node + held l.size + 16 ≤ base + len) →
      (¬ l.align ∣ base + E.node →
        (base + E.node + 16 + l.align - 1) / l.align * l.align + held l.size = base + len ∨
        (base + E.node + 16 + l.align - 1) / l.align * l.align + held l.size + 16 ≤ base + len) →
      (E.H.alloc (E.H.init (base + E.node) (len - E.node) m).1 (E.H.init (base + E.node) (len - E.node) m).2 l).isSome := by
    intro l hl' g1 g2
    unfold held at g1 g2
    by_cases hd : l.align ∣ base + E.node
    · have := g1 hd
      exact hE.heap.fresh (p := base + E.node) (by omega) (by omega) (hl' ▸ hv') (.inl ⟨rfl, Nat.mod_eq_zero_of_dvd hd⟩) (by omega)
    · have := g2 hd
      exact hE.heap.fresh (by omega) (by omega) (hl' ▸ hv') (.inr ⟨fun hz => hd (Nat.dvd_of_mod_eq_zero hz), rfl⟩) (by omega)
  refine go _ rfl ?_ ?_
  · intro hd
    unfold held
    cases hi : listIndex lay with
    | some j =>
      have hj := blockSize_bounds (listIndex_lt hi).1
      have e : heapLayout lay = ⟨blockSize j, blockSize j⟩ := by unfold heapLayout; rw [hi]
      rw [e]
      simp only
      omega
    | none => omega
  · intro hd
    have hdl := Nat.div_mul_le_self (base + E.node + 16 + (heapLayout lay).align - 1) (heapLayout lay).align
    cases hi : listIndex lay with
    | some j =>
      have hj := blockSize_bounds (listIndex_lt hi).1
      have e : heapLayout lay = ⟨blockSize j, blockSize j⟩ := by unfold heapLayout; rw [hi]
      rw [e] at hdl ⊢
      simp only at hdl ⊢
      unfold held
      omega
    | none =>
      have hbig := listIndex_none hi
      have e : heapLayout lay = lay := by unfold heapLayout; rw [hi]
      rw [e] at hd h1 hp' hdl ⊢
      obtain ⟨⟨j, hj⟩, hv2⟩ := hv
      have hsmall : ¬ lay.align ≤ 8 := by
        intro hle
        rw [hj] at hle
        refine hd (hj ▸ Nat.dvd_trans (pow2_le8 hle) (Nat.dvd_of_mod_eq_zero (by omega)))
      rcases hr with hr | hr | ⟨r1, r2, r3⟩
      · omega
      · exact absurd hr hsmall
      have hj4 : 4 ≤ j := by
        rcases Nat.lt_or_ge j 4 with hlt | hge
        · exact absurd (hj ▸ (Nat.pow_le_pow_right (by omega) (by omega : j ≤ 3) : 2 ^ j ≤ 2 ^ 3)) hsmall
        · exact hge
      have hA16 : 2 ^ 4 ∣ lay.align := hj ▸ Nat.pow_dvd_pow 2 hj4
      have hApos : 0 < lay.align := by rw [hj]; exact Nat.two_pow_pos j
      have hAge : 16 ≤ lay.align := Nat.le_of_dvd hApos hA16
      have hAg : lay.align ∣ 2 ^ k := hj ▸ pow_dvd_of_le (hj ▸ r2)
      have hPd : lay.align ∣ lay.padded := Nat.dvd_mul_left _ _
      have hP16 : 16 ∣ lay.padded := Nat.dvd_trans hA16 hPd
      have hPpos : 16 ≤ lay.padded := Nat.le_of_dvd (by omega) hP16
      refine fits_aligned hAge (Nat.dvd_trans hAg hb) (Nat.dvd_trans hAg hl) hPd ?_ ?_ r3 ?_ ?_
      · unfold held; omega
      · unfold held; omega
      · omega
      · omega

theorem grow_succeeds (hE : EnvOk E) {s : Machine E.H} {lay : Layout} (hv : lay.Valid) {base len : Nat} (hg : GranOk s.fsb.gran) (hr : Roomy s.fsb.gran lay)
    (hb : s.fsb.gran ∣ base) (h0 : base ≠ 0) (hl : s.fsb.gran ∣ len) (h1 : required E (heapLayout lay) ≤ len) (h2 : MIN_EXPANSION ≤ len) :
    ∃ p s', Machine.grow E false s lay base len = (.ok p, s') := by
  have hfr := fresh_ok hE hv hg hr hb hl h1 h2 s.mem
  obtain ⟨k, k1, k2, hk⟩ := hg
  have hn := hE.nodeSmall
  have hb8 : base % 8 = 0 := Nat.mod_eq_zero_of_dvd (Nat.dvd_trans (hk ▸ Nat.pow_dvd_pow 2 (by omega : 3 ≤ k)) hb)
  unfold MIN_EXPANSION at h2
  unfold Machine.grow
  rw [if_neg h0]
  unfold Fsb.expand
  rw [if_neg (by omega)]
  simp only
  generalize hq : E.H.init (base + E.node) (len - E.node) s.mem = q at hfr
  obtain ⟨q1, q2⟩ := q
  have hu : ∀ f : Fsb E.H, ∃ f', f.updateInfo false = .ok f' ∧ f'.regions = f.regions := by
    intro f
    unfold Fsb.updateInfo
    simp only [Bool.false_and, Bool.false_eq_true, if_false]
    exact ⟨_, rfl, rfl⟩
  obtain ⟨f1, hf1, hf2⟩ := hu (({ s.fsb with regions := ⟨base, len, q1⟩ :: s.fsb.regions } : Fsb E.H).count base len)
  have hf3 : f1.regions = ⟨base, len, q1⟩ :: s.fsb.regions := by
    rw [hf2, count_alike]
  simp only [hf1]
  unfold Machine.retry
  simp only
  have ht : ∃ x, tryRegions q2 (heapLayout lay) f1.regions = some x := by
    rw [hf3]
    obtain ⟨x, hx⟩ := Option.isSome_iff_exists.1 hfr
    obtain ⟨p, st, m'⟩ := x
    unfold tryRegions
    simp only at hx
    simp only [hx]
    exact ⟨_, rfl⟩
  obtain ⟨⟨p, rs, m'⟩, ht⟩ := ht
  have ha : ∃ p f' m', f1.alloc E q2 lay = (.ok p, f', m') := by
    rcases hx : f1.alloc E q2 lay with ⟨r, f', m'⟩
    cases r with
    | ok p => exact ⟨p, f', m', rfl⟩
    | outOfMemory n =>
      obtain ⟨_, _, _, h4⟩ := alloc_none hx
      rw [ht] at h4; cases h4
  obtain ⟨p, f', m', ha⟩ := ha
  rw [ha]
  exact ⟨_, _, rfl⟩

/-- C27: an allocation succeeds whenever the memory map has a free range to grow the heap with, if growing is needed at all:
aligned to the granularity, of the size required for the block and at least 1 MiB, rounded up to the granularity. -/
theorem allocate_succeeds (hE : EnvOk E) (hp : Possible E (w, h)) {i : Nat} {f : Fsb E.H} (hf : w.fsbs[i]? = some f) {lay : Layout} (hv : lay.Valid)
    {k : Nat} (hg : f.gran = 2 ^ k) (hk : 12 ≤ k ∧ k ≤ 32) (hr : Roomy f.gran lay) (hlk : w.gcd.locked = false) (hroom : Room w.gcd) (hh : f.handle ≠ 0)
    {len a : Nat} (hlen : Base.IsRoundUp (max (required E (heapLayout lay)) 0x100000) f.gran len)
    (hc : Candidate w.gcd .systemMemory k len f.handle a) (ha : a + len ≤ W) :
    ∃ p s', Machine.allocate E false (w.machine f) lay = (.ok p, s') := by
  obtain ⟨F, (ok : WorldOk hE w h F)⟩ := possible_world (hE := hE) hp
  have hgo : GranOk f.gran := ⟨k, hk.1, hk.2, hg⟩
  unfold Machine.allocate
  simp only [World.machine]
  rcases hx : f.alloc E w.mem lay with ⟨r, f', m'⟩
  cases r with
  | ok p => exact ⟨_, _, rfl⟩
  | outOfMemory n =>
    simp only
    obtain ⟨e1, e2, e3, _⟩ := alloc_none hx
    have hgr : f'.gran = f.gran := by rw [e1]
    have hha : f'.handle = f.handle := by rw [e1]
    obtain ⟨len', g0, g1, g2, g3, g4, g5, g6⟩ := growth_ok (E := E) (req := n) hgo (by rw [e3]; exact required_le hE hv)
    have hll : len' = len := by
      rw [e3] at g6
      exact Nat.le_antisymm (g6.2.2 len hlen.1 hlen.2.1) (hlen.2.2 len' g6.1 g6.2.1)
    subst hll
    have hps : pageShift f.gran = .ok k := by
      obtain ⟨k', h1, _, _, h4⟩ := pageShift_ok hgo
      rw [hg] at h4
      have : k' = k := (Nat.pow_right_inj (by omega : 1 < 2)).1 h4.symm
      rw [h1, this]
    unfold Machine.needMore
    simp only [hgr, hha, g0, hps]
    obtain ⟨addr, g', hal⟩ := top_down_succeeds (device := none) ok.reach hlk (by omega : k < 64) g4 hh hroom none hc (by
      show a + len' - 1 ≤ W - 1
      omega)
    have hga : gcdAllocate E w.gcd (.topDown none) k len' f.handle = (.ok addr, E.protect g' addr len') := by
      unfold gcdAllocate; rw [hal]
    rw [hga]
    simp only
    have hq : ReqOk (.topDown none) k len' := ⟨g4, by omega, trivial⟩
    obtain ⟨p1, _, p3⟩ := gcdAllocate_facts ok.reach hq hga
    exact grow_succeeds hE (s := ⟨E.protect g' addr len', m', f'⟩) hv (by rw [hgr]; exact hgo) (by rw [hgr]; exact hr)
      (by rw [hgr, hg]; exact Nat.dvd_of_mod_eq_zero p1) (p3 rfl) (by rw [hgr]; exact g3) (by rw [← e3]; exact g1) g2

end Verif.Alloc
