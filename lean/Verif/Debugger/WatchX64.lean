import Verif.Debugger.WatchSpec
/-!
What is watched on x64.
-/
namespace Verif.Debugger
open XDebug

theorem three_bits (j : Nat) : (3#64).getLsbD j = decide (j < 2) := by
  by_cases h : j < 2
  · have : j = 0 ∨ j = 1 := by omega
    rcases this with rfl | rfl <;> rfl
  · simp only [h, decide_false]
    by_cases h64 : j < 64
    · have : ∀ j : Fin 64, 2 ≤ j.val → (3#64).getLsbD j.val = false := by decide
      exact this ⟨j, h64⟩ (by simpa using h)
    · exact BitVec.getLsbD_of_ge _ _ (by omega)

theorem put_bit (d v : BitVec 64) (off k : Nat) (hv : ∀ j, 2 ≤ j → v.getLsbD j = false) (ho : off + 2 ≤ 64) :
    ((d &&& ~~~(3#64 <<< off)) ||| (v <<< off)).getLsbD k = if off ≤ k ∧ k < off + 2 then v.getLsbD (k - off) else d.getLsbD k := by
  by_cases hk : k < 64
  · simp only [BitVec.getLsbD_or, BitVec.getLsbD_and, BitVec.getLsbD_not, BitVec.getLsbD_shiftLeft, hk, decide_true, Bool.true_and, three_bits]
    by_cases h1 : k < off
    · simp [h1, show ¬(off ≤ k ∧ k < off + 2) by omega]
    · by_cases h2 : k < off + 2
      · simp [h1, show off ≤ k ∧ k < off + 2 by omega, show k - off < 2 by omega]
      · simp [h1, show ¬(off ≤ k ∧ k < off + 2) by omega, show ¬(k - off < 2) by omega, hv (k - off) (by omega)]
  · rw [BitVec.getLsbD_of_ge _ _ (by omega), if_neg (by omega), BitVec.getLsbD_of_ge _ _ (by omega)]

theorem getEnabled_iff (d : BitVec 64) (i : Nat) : getEnabled d i = d.getLsbD (2 * i) := by
  unfold getEnabled
  cases h : d.getLsbD (2 * i) with
  | true =>
    have : ((d >>> (i * 2)) &&& 1#64).getLsbD 0 = true := by
      simp [Nat.mul_comm i 2, h]
    simp only [bne_iff_ne, ne_eq]
    intro hc
    rw [hc] at this
    simp at this
  | false =>
    have : (d >>> (i * 2)) &&& 1#64 = 0#64 := by
      apply BitVec.eq_of_getLsbD_eq
      intro j hj
      simp only [BitVec.getLsbD_and, BitVec.getLsbD_ushiftRight, BitVec.getLsbD_one, BitVec.getLsbD_zero]
      by_cases h0 : j = 0
      · subst h0; simp [Nat.mul_comm i 2, h]
      · simp [h0]
    simp [this]

theorem setEnabled_bit (d : BitVec 64) (i k : Nat) (e : Bool) (hi : i < 4) : (setEnabled d i e).getLsbD k = if k = 2 * i then e else d.getLsbD k := by
  unfold setEnabled
  by_cases hk : k < 64
  · cases e <;> simp only [Bool.false_eq_true, if_false, if_true, BitVec.getLsbD_or, BitVec.getLsbD_and, BitVec.getLsbD_not, BitVec.getLsbD_shiftLeft, hk, decide_true, Bool.true_and, BitVec.getLsbD_one]
    · by_cases h : k = 2 * i
      · simp [h, show i * 2 = 2 * i by omega]
      · by_cases h1 : k < i * 2
        · simp [h, h1]
        · simp [h, h1, show ¬ (k - i * 2 = 0) by omega]
    · by_cases h : k = 2 * i
      · simp [h, show i * 2 = 2 * i by omega]
      · by_cases h1 : k < i * 2
        · simp [h, h1]
        · simp [h, h1, show ¬ (k - i * 2 = 0) by omega]
  · rw [BitVec.getLsbD_of_ge _ _ (by omega), if_neg (by omega), BitVec.getLsbD_of_ge _ _ (by omega)]


/-! ### One watchpoint -/

/-- The value `set_rw` stores. -/
def rwCode : WatchKind → BitVec 64
  | .write => 1#64
  | _ => 3#64

theorem setRw_eq (d : BitVec 64) (i : Nat) (k : WatchKind) : setRw d i k = (d &&& ~~~(3#64 <<< (i * 4 + 16))) ||| (rwCode k <<< (i * 4 + 16)) := by cases k <;> rfl

theorem rwCode_high (k : WatchKind) (j : Nat) (hj : 2 ≤ j) : (rwCode k).getLsbD j = false := by
  cases k
  · show (1#64).getLsbD j = false
    rw [BitVec.getLsbD_one]
    simp
    omega
  all_goals
    show (3#64).getLsbD j = false
    rw [three_bits]
    simp
    omega

theorem lenCode_high (len j : Nat) (hj : 2 ≤ j) : (lenCode len).getLsbD j = false := by
  have h : ∀ v : BitVec 64, v.toNat < 4 → v.getLsbD j = false := by
    intro v hv
    rw [BitVec.getLsbD]
    exact Nat.testBit_lt_two_pow (Nat.lt_of_lt_of_le hv (show 2 ^ 2 ≤ 2 ^ j from Nat.pow_le_pow_right (by decide) hj))
  unfold lenCode
  split
  · exact h _ (by decide)
  · split
    · exact h _ (by decide)
    · split <;> exact h _ (by decide)

/-- The bits of `dr7` after a watchpoint was put in place `i`. -/
theorem placed_bit (d : BitVec 64) (i len k : Nat) (w : WatchKind) (hi : i < 4) :
    (setEnabled (setRw (setLen d i len) i w) i true).getLsbD k =
      if k = 2 * i then true else if 16 + 4 * i ≤ k ∧ k < 18 + 4 * i then (rwCode w).getLsbD (k - (16 + 4 * i)) else
      if 18 + 4 * i ≤ k ∧ k < 20 + 4 * i then (lenCode len).getLsbD (k - (18 + 4 * i)) else d.getLsbD k := by
  rw [setEnabled_bit _ _ _ _ hi, setRw_eq, put_bit _ _ _ _ (rwCode_high w) (by omega)]
  unfold setLen
  rw [put_bit _ _ _ _ (lenCode_high len) (by omega)]
  rw [show i * 4 + 16 = 16 + 4 * i by omega, show i * 4 + 18 = 18 + 4 * i by omega, show 16 + 4 * i + 2 = 18 + 4 * i by omega, show 18 + 4 * i + 2 = 20 + 4 * i by omega]

/-- The place `j` holds it. -/
structure XHas (s : XDebug) (j : Nat) (r : Req) : Prop where
  on : s.dr7.getLsbD (2 * j) = true
  at' : s.dr j = r.a
  rw : bits2 s.dr7 (16 + 4 * j) = match r.k with | .write => 1 | _ => 3
  len : bits2 s.dr7 (18 + 4 * j) = if r.len = 1 then 0 else if r.len = 2 then 1 else if r.len = 4 then 2 else 3

/-- The number of bytes that are watched. -/
def realLen (len : Nat) : Nat := if len = 1 then 1 else if len = 2 then 2 else if len = 4 then 8 else 4

theorem stops_iff {s : XDebug} {j : Nat} {r : Req} (h : XHas s j r) (x : Access) (b : Nat) :
    XStops s j x b ↔ askedX r.k x = true ∧ b / realLen r.len = r.a / realLen r.len := by
  unfold XStops
  rw [h.rw, h.len, h.at']
  have h1 : intelRw (match r.k with | .write => 1 | _ => 3) x = askedX r.k x := by cases r.k <;> cases x <;> rfl
  have h2 : intelLen (if r.len = 1 then 0 else if r.len = 2 then 1 else if r.len = 4 then 2 else 3) = realLen r.len := by
    unfold realLen
    by_cases e1 : r.len = 1
    · simp [e1, intelLen]
    · by_cases e2 : r.len = 2
      · simp [e2, intelLen]
      · by_cases e4 : r.len = 4
        · simp [e4, intelLen]
        · simp [e1, e2, e4, intelLen]
  rw [h1, h2]
  simp [h.on]

/-- The global enable bits are clear, as `initialize` leaves them. -/
def NoGlobal (s : XDebug) : Prop := ∀ j, j < 4 → s.dr7.getLsbD (2 * j + 1) = false

theorem off_stops {s : XDebug} {j : Nat} (hj : j < 4) (hg : NoGlobal s) (h : s.dr7.getLsbD (2 * j) = false) (x : Access) (b : Nat) : ¬XStops s j x b := by
  intro hs
  rcases hs.1 with h1 | h1
  · rw [h] at h1; exact absurd h1 (by simp)
  · rw [hg j hj] at h1; exact absurd h1 (by simp)

theorem placed_here {s : XDebug} {i : Nat} (hi : i < 4) (r : Req) :
    XHas { dr := fun j => if j = i then r.a else s.dr j, dr7 := setEnabled (setRw (setLen s.dr7 i r.len) i r.k) i true } i r := by
  constructor
  · show (setEnabled _ _ _).getLsbD _ = _
    rw [placed_bit _ _ _ _ _ hi, if_pos rfl]
  · simp
  · unfold bits2
    simp only
    have hb : ∀ n, n < 2 → (setEnabled (setRw (setLen s.dr7 i r.len) i r.k) i true).getLsbD (16 + 4 * i + n) = (rwCode r.k).getLsbD n := by
      intro n hn
      rw [placed_bit _ _ _ _ _ hi, if_neg (by omega), if_pos (by omega), show 16 + 4 * i + n - (16 + 4 * i) = n by omega]
    have h0 := hb 0 (by omega)
    rw [Nat.add_zero] at h0
    rw [h0, hb 1 (by omega)]
    cases r.k <;> rfl
  · unfold bits2
    simp only
    have hb : ∀ n, n < 2 → (setEnabled (setRw (setLen s.dr7 i r.len) i r.k) i true).getLsbD (18 + 4 * i + n) = (lenCode r.len).getLsbD n := by
      intro n hn
      rw [placed_bit _ _ _ _ _ hi, if_neg (by omega), if_neg (by omega), if_pos (by omega), show 18 + 4 * i + n - (18 + 4 * i) = n by omega]
    have h0 := hb 0 (by omega)
    rw [Nat.add_zero] at h0
    rw [h0, hb 1 (by omega)]
    unfold lenCode
    by_cases e1 : r.len = 1
    · simp [e1]
    · by_cases e2 : r.len = 2
      · simp [e2]
      · by_cases e4 : r.len = 4
        · simp only [e4]
          rfl
        · simp only [e1, e2, e4, if_false]
          rfl

theorem placed_other {s : XDebug} {i j : Nat} (hi : i < 4) (hj : j < 4) (hij : j ≠ i) (r r' : Req)
    (h : XHas s j r') : XHas { dr := fun j => if j = i then r.a else s.dr j, dr7 := setEnabled (setRw (setLen s.dr7 i r.len) i r.k) i true } j r' := by
  have hb : ∀ b, b ≠ 2 * i → ¬(16 + 4 * i ≤ b ∧ b < 20 + 4 * i) → (setEnabled (setRw (setLen s.dr7 i r.len) i r.k) i true).getLsbD b = s.dr7.getLsbD b := by
    intro b h1 h2
    rw [placed_bit _ _ _ _ _ hi, if_neg h1, if_neg (by omega), if_neg (by omega)]
  constructor
  · show (setEnabled _ _ _).getLsbD _ = _
    rw [hb _ (by omega) (by omega)]
    exact h.on
  · show (if j = i then _ else _) = _
    rw [if_neg hij]
    exact h.at'
  · unfold bits2
    simp only
    rw [hb _ (by omega) (by omega), hb _ (by omega) (by omega)]
    exact h.rw
  · unfold bits2
    simp only
    rw [hb _ (by omega) (by omega), hb _ (by omega) (by omega)]
    exact h.len

/-! ### Histories -/

/-- The state and the watchpoints that are set: each is in a place, each place that is enabled holds one, and no two have the same address. -/
structure XSet (s : XDebug) (l : List Req) : Prop where
  quiet : NoGlobal s
  there : ∀ r ∈ l, ∃ j, j < 4 ∧ XHas s j r
  back : ∀ j, j < 4 → s.dr7.getLsbD (2 * j) = true → ∃ r ∈ l, XHas s j r
  apart : ∀ i j, i < 4 → j < 4 → s.dr7.getLsbD (2 * i) = true → s.dr7.getLsbD (2 * j) = true → s.dr i = s.dr j → i = j

theorem watches_iff {s : XDebug} {l : List Req} (h : XSet s l) (x : Access) (b : Nat) :
    XWatches s x b ↔ ∃ r ∈ l, askedX r.k x = true ∧ b / realLen r.len = r.a / realLen r.len := by
  constructor
  · rintro ⟨j, hj, hs⟩
    cases hon : s.dr7.getLsbD (2 * j) with
    | false => exact absurd hs (off_stops hj h.quiet hon x b)
    | true =>
      obtain ⟨r, hr, hh⟩ := h.back j hj hon
      exact ⟨r, hr, (stops_iff hh x b).1 hs⟩
  · rintro ⟨r, hr, ha⟩
    obtain ⟨j, hj, hh⟩ := h.there r hr
    exact ⟨j, hj, (stops_iff hh x b).2 ha⟩

theorem placed_quiet {s : XDebug} {i : Nat} (hi : i < 4) (r : Req) (hq : NoGlobal s) :
    NoGlobal { dr := fun j => if j = i then r.a else s.dr j, dr7 := setEnabled (setRw (setLen s.dr7 i r.len) i r.k) i true } := by
  intro j hj
  show (setEnabled _ _ _).getLsbD _ = _
  rw [placed_bit _ _ _ _ _ hi, if_neg (by omega), if_neg (by omega), if_neg (by omega)]
  exact hq j hj

theorem placed_on {s : XDebug} {i j : Nat} (hi : i < 4) (hj : j < 4) (hij : j ≠ i) (len : Nat) (k : WatchKind) :
    (setEnabled (setRw (setLen s.dr7 i len) i k) i true).getLsbD (2 * j) = s.dr7.getLsbD (2 * j) := by
  rw [placed_bit _ _ _ _ _ hi, if_neg (by omega), if_neg (by omega), if_neg (by omega)]

/-- A watchpoint is added. -/
theorem add_set {s s' : XDebug} {l : List Req} {r : Req} (h : XSet s l) (hfree : ∀ q ∈ l, q.a ≠ r.a) (ha : s.add r.a r.len r.k = (true, s')) : XSet s' (r :: l) := by
  unfold XDebug.add at ha
  rw [if_neg] at ha
  · cases hf : (List.range 4).find? fun i => !getEnabled s.dr7 i with
    | none => rw [hf] at ha; simp at ha
    | some i =>
      rw [hf] at ha
      have hi : i < 4 := List.mem_range.1 (List.mem_of_find?_eq_some hf)
      have hoff : s.dr7.getLsbD (2 * i) = false := by
        have := List.find?_some hf
        rw [getEnabled_iff] at this
        simpa using this
      simp only [Prod.mk.injEq, true_and] at ha
      subst ha
      constructor
      · exact placed_quiet hi r h.quiet
      · intro q hq
        rcases List.mem_cons.1 hq with rfl | hq
        · exact ⟨i, hi, placed_here hi q⟩
        · obtain ⟨j, hj, hh⟩ := h.there q hq
          refine ⟨j, hj, placed_other hi hj ?_ r q hh⟩
          rintro rfl
          rw [hh.on] at hoff
          exact absurd hoff (by simp)
      · intro j hj hon
        by_cases hji : j = i
        · subst hji
          exact ⟨r, List.mem_cons_self .., placed_here hi r⟩
        · have hon' : s.dr7.getLsbD (2 * j) = true := (placed_on hi hj hji _ _).symm.trans hon
          obtain ⟨q, hq, hh⟩ := h.back j hj hon'
          exact ⟨q, List.mem_cons_of_mem _ hq, placed_other hi hj hji r q hh⟩
      · have key : ∀ j, j < 4 → j ≠ i → s.dr7.getLsbD (2 * j) = true → s.dr j ≠ r.a := by
          intro j hj _ hon
          obtain ⟨q, hq, hh⟩ := h.back j hj hon
          rw [hh.at']
          exact hfree q hq
        intro p q hp hq h1 h2 he
        simp only at h1 h2 he
        by_cases hpi : p = i
        · by_cases hqi : q = i
          · rw [hpi, hqi]
          · rw [if_pos hpi, if_neg hqi] at he
            rw [placed_on hi hq hqi] at h2
            exact absurd he.symm (key q hq hqi h2)
        · rw [placed_on hi hp hpi] at h1
          by_cases hqi : q = i
          · rw [if_neg hpi, if_pos hqi] at he
            exact absurd he (key p hp hpi h1)
          · rw [if_neg hpi, if_neg hqi] at he
            rw [placed_on hi hq hqi] at h2
            exact h.apart p q hp hq h1 h2 he
  · simp only [List.any_eq_true, List.mem_range, Bool.and_eq_true, beq_iff_eq]
    rintro ⟨j, hj, hon, hd⟩
    rw [getEnabled_iff] at hon
    obtain ⟨q, hq, hh⟩ := h.back j hj hon
    exact hfree q hq (hh.at'.symm.trans hd)

theorem disabled_other {s : XDebug} {i j : Nat} (hi : i < 4) (hj : j < 4) (hij : j ≠ i) (r : Req) (h : XHas s j r) : XHas { s with dr7 := setEnabled s.dr7 i false } j r := by
  constructor
  · show (setEnabled _ _ _).getLsbD _ = _
    rw [setEnabled_bit _ _ _ _ hi, if_neg (by omega)]
    exact h.on
  · exact h.at'
  · unfold bits2
    simp only
    rw [setEnabled_bit _ _ _ _ hi, setEnabled_bit _ _ _ _ hi, if_neg (by omega), if_neg (by omega)]
    exact h.rw
  · unfold bits2
    simp only
    rw [setEnabled_bit _ _ _ _ hi, setEnabled_bit _ _ _ _ hi, if_neg (by omega), if_neg (by omega)]
    exact h.len

/-- A watchpoint is removed, or there is none at the address. -/
theorem remove_set {s s' : XDebug} {l : List Req} {a : Nat} {v : Bool} (h : XSet s l) (ha : s.remove a = (v, s')) :
    XSet s' (l.filter fun q => q.a ≠ a) ∧ (v = true ↔ ∃ q ∈ l, q.a = a) := by
  unfold XDebug.remove at ha
  cases hf : (List.range 4).find? fun i => getEnabled s.dr7 i && s.dr i == a with
  | none =>
    rw [hf] at ha
    cases ha
    have hno : ∀ q ∈ l, q.a ≠ a := by
      intro q hq he
      obtain ⟨j, hj, hh⟩ := h.there q hq
      have := List.find?_eq_none.1 hf j (List.mem_range.2 hj)
      rw [getEnabled_iff, hh.on, hh.at', he] at this
      simp at this
    have : (l.filter fun q => q.a ≠ a) = l := List.filter_eq_self.2 fun q hq => by simpa using hno q hq
    rw [this]
    refine ⟨h, by simp, ?_⟩
    rintro ⟨q, hq, he⟩
    exact absurd he (hno q hq)
  | some i =>
    rw [hf] at ha
    cases ha
    have hi : i < 4 := List.mem_range.1 (List.mem_of_find?_eq_some hf)
    have hp := List.find?_some hf
    simp only [Bool.and_eq_true, beq_iff_eq] at hp
    rw [getEnabled_iff] at hp
    refine ⟨⟨?_, ?_, ?_, ?_⟩, fun _ => ?_, fun _ => rfl⟩
    · intro j hj
      show (setEnabled _ _ _).getLsbD _ = _
      rw [setEnabled_bit _ _ _ _ hi, if_neg (by omega)]
      exact h.quiet j hj
    · intro q hq
      obtain ⟨hq, hne⟩ := List.mem_filter.1 hq
      obtain ⟨j, hj, hh⟩ := h.there q hq
      refine ⟨j, hj, disabled_other hi hj ?_ q hh⟩
      rintro rfl
      rw [hh.at'] at hp
      simp at hne
      exact hne hp.2
    · intro j hj hon
      have hon' : (setEnabled s.dr7 i false).getLsbD (2 * j) = true := hon
      rw [setEnabled_bit _ _ _ _ hi] at hon'
      by_cases hji : 2 * j = 2 * i
      · rw [if_pos hji] at hon'
        exact absurd hon' (by simp)
      · rw [if_neg hji] at hon'
        obtain ⟨q, hq, hh⟩ := h.back j hj hon'
        refine ⟨q, List.mem_filter.2 ⟨hq, ?_⟩, disabled_other hi hj (by omega) q hh⟩
        simp only [ne_eq, decide_not, Bool.not_eq_true', decide_eq_false_iff_not]
        intro he
        have := h.apart j i hj hi hon' hp.1 (by rw [hh.at', he, hp.2])
        omega
    · intro p q hp' hq h1 h2 he
      have h1' : (setEnabled s.dr7 i false).getLsbD (2 * p) = true := h1
      have h2' : (setEnabled s.dr7 i false).getLsbD (2 * q) = true := h2
      rw [setEnabled_bit _ _ _ _ hi] at h1' h2'
      split at h1'
      · exact absurd h1' (by simp)
      · split at h2'
        · exact absurd h2' (by simp)
        · exact h.apart p q hp' hq h1' h2' he
    · obtain ⟨q, hq, hh⟩ := h.back i hi hp.1
      exact ⟨q, hq, by rw [← hh.at', hp.2]⟩

/-- What has been set and not been removed, after the debug registers were cleared. Watchpoints are set where none is. -/
inductive XWatchHistory : XDebug → List Req → Prop where
  | start (s : XDebug) : XWatchHistory s.clear []
  | add {s s' l} (r : Req) (h : XWatchHistory s l) (hfree : ∀ q ∈ l, q.a ≠ r.a) (ha : s.add r.a r.len r.k = (true, s')) : XWatchHistory s' (r :: l)
  | full {s s' l} (r : Req) (h : XWatchHistory s l) (ha : s.add r.a r.len r.k = (false, s')) : XWatchHistory s' l
  | remove {s s' l v} (a : Nat) (h : XWatchHistory s l) (ha : s.remove a = (v, s')) : XWatchHistory s' (l.filter fun q => q.a ≠ a)

theorem clear_low (d : BitVec 64) (k : Nat) (hk : k < 8) : (d &&& ~~~(0xFF#64)).getLsbD k = false := by
  have : ∀ k : Fin 8, (0xFF#64).getLsbD k.val = true := by decide
  simp only [BitVec.getLsbD_and, BitVec.getLsbD_not, this ⟨k, hk⟩]
  simp

theorem start_set (s : XDebug) : XSet s.clear [] := by
  have hz : ∀ k, k < 8 → s.clear.dr7.getLsbD k = false := fun k hk => clear_low s.dr7 k hk
  constructor
  · intro j hj
    exact hz _ (by omega)
  · intro r hr
    simp at hr
  · intro j hj hon
    rw [hz _ (by omega)] at hon
    exact absurd hon (by simp)
  · intro i j hi hj h1
    rw [hz _ (by omega)] at h1
    exact absurd h1 (by simp)

theorem add_full {s s' : XDebug} {a len : Nat} {k : WatchKind} (ha : s.add a len k = (false, s')) : s' = s ∧ ∀ j, j < 4 → s.dr7.getLsbD (2 * j) = true := by
  unfold XDebug.add at ha
  split at ha
  · simp at ha
  · split at ha
    · simp at ha
    · rename_i hf
      cases ha
      refine ⟨rfl, fun j hj => ?_⟩
      have := List.find?_eq_none.1 hf j (List.mem_range.2 hj)
      rw [getEnabled_iff] at this
      simpa using this

theorem history_set {s : XDebug} {l : List Req} (h : XWatchHistory s l) : XSet s l := by
  induction h with
  | start s => exact start_set s
  | add r _ hfree ha ih => exact add_set ih hfree ha
  | full r _ ha ih => rw [(add_full ha).1]; exact ih
  | remove a _ ha ih => exact (remove_set ih ha).1

/-- C99: on x64, after any history in which each watchpoint has one or two aligned bytes, exactly the bytes of the watchpoints that are set are watched, for the accesses
they are for (loads are watched with stores). (Other lengths: see `x64_four_watches_eight` and `x64_eight_watches_four`.) -/
theorem x64_watched_partial {s : XDebug} {l : List Req} (h : XWatchHistory s l) (hl : ∀ r ∈ l, r.len = 1 ∨ (r.len = 2 ∧ r.a % 2 = 0)) (x : Access) (b : Nat) :
    XWatches s x b ↔ ∃ r ∈ l, askedX r.k x = true ∧ r.a ≤ b ∧ b < r.a + r.len := by
  rw [watches_iff (history_set h)]
  have key : ∀ r ∈ l, (b / realLen r.len = r.a / realLen r.len ↔ r.a ≤ b ∧ b < r.a + r.len) := by
    intro r hr
    rcases hl r hr with e | ⟨e, ha⟩
    · rw [e]
      simp only [realLen, if_true, Nat.div_one]
      omega
    · rw [e]
      simp only [realLen, if_true, show ¬(2 = 1) by omega, if_false]
      omega
  constructor
  · rintro ⟨r, hr, h1, h2⟩
    exact ⟨r, hr, h1, (key r hr).1 h2⟩
  · rintro ⟨r, hr, h1, h2⟩
    exact ⟨r, hr, h1, (key r hr).2 h2⟩

/-- C99: a watchpoint is refused only when four are set, and nothing changes then; removing one tells whether there was one. -/
theorem x64_results {s : XDebug} {l : List Req} (h : XWatchHistory s l) :
    (∀ (r : Req) s', s.add r.a r.len r.k = (false, s') → s' = s ∧ ∀ j, j < 4 → ∃ q ∈ l, XHas s j q) ∧
    (∀ a v s', s.remove a = (v, s') → (v = true ↔ ∃ q ∈ l, q.a = a)) := by
  have hh := history_set h
  refine ⟨fun r s' ha => ?_, fun a v s' ha => (remove_set hh ha).2⟩
  obtain ⟨e, hf⟩ := add_full ha
  exact ⟨e, fun j hj => hh.back j hj (hf j hj)⟩

/-- The code does not meet the full property: a watchpoint of four bytes watches eight. -/
theorem x64_four_watches_eight {s s' : XDebug} {l : List Req} {r : Req} (h : XWatchHistory s l) (hfree : ∀ q ∈ l, q.a ≠ r.a) (hr : r.len = 4) (ha8 : r.a % 8 = 0)
    (ha : s.add r.a r.len r.k = (true, s')) {b : Nat} (h1 : r.a + 4 ≤ b) (h2 : b < r.a + 8) : XWatches s' .store b := by
  rw [watches_iff (history_set (.add r h hfree ha))]
  refine ⟨r, List.mem_cons_self .., by cases r.k <;> rfl, ?_⟩
  rw [hr]
  show b / 8 = r.a / 8
  omega

/-- The code does not meet the full property: a watchpoint of eight bytes watches four; stores to the others go unseen. -/
theorem x64_eight_watches_four {s : XDebug} {s' : XDebug} {r : Req} (hr : r.len = 8) (ha8 : r.a % 8 = 0) (ha : s.clear.add r.a r.len r.k = (true, s'))
    {b : Nat} (h1 : r.a + 4 ≤ b) (h2 : b < r.a + 8) (x : Access) : ¬XWatches s' x b := by
  rw [watches_iff (history_set (.add r (.start s) (by simp) ha))]
  rintro ⟨q, hq, _, he⟩
  simp only [List.mem_cons, List.not_mem_nil, or_false] at hq
  subst hq
  rw [hr] at he
  have he' : b / 4 = q.a / 4 := he
  omega

/-- The code does not meet the full property: a second watchpoint at the address of another, of another kind or length, is reported as set and is not. -/
theorem x64_second_lost {s : XDebug} {j a : Nat} (hj : j < 4) (hon : s.dr7.getLsbD (2 * j) = true) (hd : s.dr j = a) (len : Nat) (k : WatchKind) :
    s.add a len k = (true, s) := by
  unfold XDebug.add
  rw [if_pos]
  simp only [List.any_eq_true, List.mem_range, Bool.and_eq_true, beq_iff_eq]
  exact ⟨j, hj, by rw [getEnabled_iff]; exact hon, hd⟩

/-! ### Examples -/

def freshX64 : XDebug := ⟨fun _ => 0, 0x400#64⟩

/-- A history with one watchpoint. -/
example : XWatchHistory (freshX64.clear.add 100 1 .write).2 [⟨100, 1, .write⟩] := .add ⟨100, 1, .write⟩ (.start freshX64) (by simp) rfl

example : XWatches (freshX64.clear.add 100 1 .write).2 .store 100 ∧ ¬XWatches (freshX64.clear.add 100 1 .write).2 .load 100 ∧
    ¬XWatches (freshX64.clear.add 100 1 .write).2 .store 101 := by
  have h : XWatchHistory (freshX64.clear.add 100 1 .write).2 [⟨100, 1, .write⟩] := .add ⟨100, 1, .write⟩ (.start freshX64) (by simp) rfl
  refine ⟨(x64_watched_partial h (by simp) _ _).2 ⟨_, List.mem_cons_self .., rfl, by decide, by decide⟩, fun hw => ?_, fun hw => ?_⟩
  · obtain ⟨r, hr, ha, _⟩ := (x64_watched_partial h (by simp) _ _).1 hw
    simp only [List.mem_cons, List.not_mem_nil, or_false] at hr
    subst hr
    exact absurd ha (by decide)
  · obtain ⟨r, hr, _, _, hb⟩ := (x64_watched_partial h (by simp) _ _).1 hw
    simp only [List.mem_cons, List.not_mem_nil, or_false] at hr
    subst hr
    exact absurd hb (by decide)

/-- Stores to the upper half of eight bytes that are watched go unseen. -/
example : ¬XWatches (freshX64.clear.add 64 8 .write).2 .store 70 :=
  x64_eight_watches_four (r := ⟨64, 8, .write⟩) (s := freshX64) rfl (by decide) rfl (by decide) (by decide) _

/-- A watchpoint for loads at the address of one for stores is lost. -/
example : (freshX64.clear.add 100 1 .write).2.add 100 1 .read = (true, (freshX64.clear.add 100 1 .write).2) :=
  x64_second_lost (j := 0) (by decide) (by decide) rfl _ _

end Verif.Debugger
