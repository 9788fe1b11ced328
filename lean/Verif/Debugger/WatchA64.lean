import Verif.Debugger.WatchSpec
/-!
What is watched on AArch64.
-/
namespace Verif.Debugger
open ADebug

theorem bas_bit (len n : Nat) : (calculateBas len).testBit n = decide (n < len ∧ n < 8) := by
  have h8 : min 8 len < 9 := by omega
  by_cases hn : n < 8
  · have key : ∀ m : Fin 9, ∀ n : Fin 8, ((0xFF >>> (8 - m.val)) % 256).testBit n.val = decide (n.val < m.val) := by decide
    have := key ⟨min 8 len, h8⟩ ⟨n, hn⟩
    unfold calculateBas
    rw [this]
    simp only [hn, and_true]
    congr 1
    simp only [eq_iff_iff]
    omega
  · have : calculateBas len < 2 ^ 8 := Nat.mod_lt _ (by decide)
    rw [Nat.testBit_lt_two_pow (Nat.lt_of_lt_of_le this (Nat.pow_le_pow_right (by decide) (by omega)))]
    simp [hn]

theorem bas_inj {l m : Nat} (hl : l ≤ 8) (hm : m ≤ 8) (h : calculateBas l = calculateBas m) : l = m := by
  have key : ∀ l m : Fin 9, calculateBas l.val = calculateBas m.val → l = m := by decide
  have := key ⟨l, by omega⟩ ⟨m, by omega⟩ h
  simpa using this

theorem lsc_inj {k m : WatchKind} (h : calculateLsc k = calculateLsc m) : k = m := by
  cases k <;> cases m <;> first | rfl | exact absurd h (by decide)

/-- A range the hardware can watch: up to eight bytes from a multiple of eight, or up to four from a multiple of four. -/
def Watchable (r : Req) : Prop := (r.a % 8 = 0 ∧ r.len ≤ 8) ∨ (r.a % 4 = 0 ∧ r.len ≤ 4)

/-- The place `j` holds it. -/
structure AHas (s : ADebug) (j : Nat) (r : Req) : Prop where
  on : (s.wcr j).enable = true
  at' : s.wvr j = r.a
  bas : (s.wcr j).bas = calculateBas r.len
  lsc : (s.wcr j).lsc = calculateLsc r.k

theorem isAt_iff {s : ADebug} {j : Nat} {r : Req} : isAt s r.a r.len r.k j = true ↔ AHas s j r := by
  unfold isAt
  simp only [Bool.and_eq_true, beq_iff_eq]
  exact ⟨fun h => ⟨h.1.1.1, h.2, h.1.1.2, h.1.2⟩, fun h => ⟨⟨⟨h.on, h.bas⟩, h.lsc⟩, h.at'⟩⟩

theorem has_inj {s : ADebug} {j : Nat} {r q : Req} (hr : Watchable r) (hq : Watchable q) (h1 : AHas s j r) (h2 : AHas s j q) : r = q := by
  obtain ⟨a, len, k⟩ := r
  obtain ⟨a', len', k'⟩ := q
  have ha : a = a' := h1.at'.symm.trans h2.at'
  have hl : len = len' := by
    refine bas_inj ?_ ?_ (h1.bas.symm.trans h2.bas)
    · unfold Watchable at hr; simp only at hr; omega
    · unfold Watchable at hq; simp only at hq; omega
  have hk : k = k' := lsc_inj (h1.lsc.symm.trans h2.lsc)
  rw [ha, hl, hk]

theorem astops_iff {s : ADebug} {j : Nat} {r : Req} (hw : Watchable r) (h : AHas s j r) (x : Access) (b : Nat) :
    AStops s j x b ↔ asked r.k x = true ∧ r.a ≤ b ∧ b < r.a + r.len := by
  unfold AStops
  rw [h.at', h.bas, h.lsc, bas_bit]
  have h1 : armLsc (calculateLsc r.k) x = asked r.k x := by cases r.k <;> cases x <;> rfl
  rw [h1]
  simp only [h.on, true_and, decide_eq_true_eq]
  unfold Watchable at hw
  constructor
  · rintro ⟨ha, h2, h3, h4⟩
    exact ⟨ha, h2, by omega⟩
  · rintro ⟨ha, h2, h3⟩
    refine ⟨ha, h2, ?_, by omega, by omega⟩
    split <;> omega

/-- The state and the watchpoints that are set. -/
structure ASet (s : ADebug) (l : List Req) : Prop where
  good : ∀ r ∈ l, Watchable r
  there : ∀ r ∈ l, ∃ j, j < 4 ∧ AHas s j r
  back : ∀ j, j < 4 → (s.wcr j).enable = true → ∃ r ∈ l, AHas s j r
  apart : ∀ i j r, i < 4 → j < 4 → AHas s i r → AHas s j r → i = j

theorem aligned_wvr {r : Req} (h : Watchable r) : r.a / 4 * 4 = r.a := by
  unfold Watchable at h
  omega

theorem a_add_set {s s' : ADebug} {l : List Req} {r : Req} (h : ASet s l) (hw : Watchable r) (ha : s.add r.a r.len r.k = (true, s')) : ASet s' (r :: l) := by
  unfold ADebug.add at ha
  by_cases hd : (List.range 4).any (isAt s r.a r.len r.k) = true
  · rw [if_pos hd] at ha
    cases ha
    simp only [List.any_eq_true, List.mem_range] at hd
    obtain ⟨j, hj, hat⟩ := hd
    have hh := isAt_iff.1 hat
    constructor
    · intro q hq
      rcases List.mem_cons.1 hq with rfl | hq
      · exact hw
      · exact h.good q hq
    · intro q hq
      rcases List.mem_cons.1 hq with rfl | hq
      · exact ⟨j, hj, hh⟩
      · exact h.there q hq
    · intro i hi hon
      obtain ⟨q, hq, hqh⟩ := h.back i hi hon
      exact ⟨q, List.mem_cons_of_mem _ hq, hqh⟩
    · exact h.apart
  · rw [if_neg hd] at ha
    have hnone : ∀ j, j < 4 → ¬AHas s j r := by
      intro j hj hh
      refine hd ?_
      simp only [List.any_eq_true, List.mem_range]
      exact ⟨j, hj, isAt_iff.2 hh⟩
    cases hf : (List.range 4).find? fun i => !(s.wcr i).enable with
    | none => rw [hf] at ha; simp at ha
    | some i =>
      rw [hf] at ha
      have hi : i < 4 := List.mem_range.1 (List.mem_of_find?_eq_some hf)
      have hoff : (s.wcr i).enable = false := by
        have := List.find?_some hf
        simpa using this
      simp only [Prod.mk.injEq, true_and] at ha
      subst ha
      have hself : AHas (writeWcr (writeWvr s i r.a) i { Wcr.zero with enable := true, bas := calculateBas r.len, lsc := calculateLsc r.k, hmc := true, ssc := 1, pac := 3 }) i r := by
        constructor <;> simp [writeWcr, writeWvr, aligned_wvr hw]
      have hother : ∀ j q, j ≠ i → (AHas (writeWcr (writeWvr s i r.a) i { Wcr.zero with enable := true, bas := calculateBas r.len, lsc := calculateLsc r.k, hmc := true, ssc := 1, pac := 3 }) j q
          ↔ AHas s j q) := by
        intro j q hji
        constructor
        · intro hh
          have := hh.on; have := hh.at'; have := hh.bas; have := hh.lsc
          constructor <;> simp_all [writeWcr, writeWvr]
        · intro hh
          constructor <;> simp [writeWcr, writeWvr, hji, hh.on, hh.at', hh.bas, hh.lsc]
      constructor
      · intro q hq
        rcases List.mem_cons.1 hq with rfl | hq
        · exact hw
        · exact h.good q hq
      · intro q hq
        rcases List.mem_cons.1 hq with rfl | hq
        · exact ⟨i, hi, hself⟩
        · obtain ⟨j, hj, hh⟩ := h.there q hq
          refine ⟨j, hj, (hother j q ?_).2 hh⟩
          rintro rfl
          rw [hh.on] at hoff
          exact absurd hoff (by simp)
      · intro j hj hon
        by_cases hji : j = i
        · subst hji
          exact ⟨r, List.mem_cons_self .., hself⟩
        · have hon' : (s.wcr j).enable = true := by simpa [writeWcr, writeWvr, hji] using hon
          obtain ⟨q, hq, hh⟩ := h.back j hj hon'
          exact ⟨q, List.mem_cons_of_mem _ hq, (hother j q hji).2 hh⟩
      · have hfield : ∀ q, AHas (writeWcr (writeWvr s i r.a) i { Wcr.zero with enable := true, bas := calculateBas r.len, lsc := calculateLsc r.k, hmc := true, ssc := 1, pac := 3 }) i q →
            ∀ j, j < 4 → ¬AHas s j q := by
          intro q hq j hj hh
          refine hnone j hj ⟨hh.on, ?_, ?_, ?_⟩
          · rw [hh.at', ← hq.at', hself.at']
          · rw [hh.bas, ← hq.bas, hself.bas]
          · rw [hh.lsc, ← hq.lsc, hself.lsc]
        intro p q t hp hq h1 h2
        by_cases hpi : p = i
        · by_cases hqi : q = i
          · rw [hpi, hqi]
          · rw [hpi] at h1
            exact absurd ((hother q t hqi).1 h2) (hfield t h1 q hq)
        · by_cases hqi : q = i
          · rw [hqi] at h2
            exact absurd ((hother p t hpi).1 h1) (hfield t h2 p hp)
          · exact h.apart p q t hp hq ((hother p t hpi).1 h1) ((hother q t hqi).1 h2)

theorem a_add_full {s s' : ADebug} {a len : Nat} {k : WatchKind} (ha : s.add a len k = (false, s')) : s' = s ∧ ∀ j, j < 4 → (s.wcr j).enable = true := by
  unfold ADebug.add at ha
  split at ha
  · simp at ha
  · split at ha
    · simp at ha
    · rename_i hf
      cases ha
      refine ⟨rfl, fun j hj => ?_⟩
      have := List.find?_eq_none.1 hf j (List.mem_range.2 hj)
      simpa using this

theorem a_remove_set {s s' : ADebug} {l : List Req} {r : Req} {v : Bool} (h : ASet s l) (hw : Watchable r) (ha : s.remove r.a r.len r.k = (v, s')) :
    ASet s' (l.filter fun q => q ≠ r) ∧ (v = true ↔ r ∈ l) := by
  unfold ADebug.remove at ha
  cases hf : (List.range 4).find? (isAt s r.a r.len r.k) with
  | none =>
    rw [hf] at ha
    cases ha
    have hno : r ∉ l := by
      intro hr
      obtain ⟨j, hj, hh⟩ := h.there r hr
      exact List.find?_eq_none.1 hf j (List.mem_range.2 hj) (isAt_iff.2 hh)
    have : (l.filter fun q => q ≠ r) = l := List.filter_eq_self.2 fun q hq => by
      simp only [ne_eq, decide_not, Bool.not_eq_true', decide_eq_false_iff_not]
      rintro rfl
      exact hno hq
    rw [this]
    exact ⟨h, by simp, fun hr => absurd hr hno⟩
  | some i =>
    rw [hf] at ha
    cases ha
    have hi : i < 4 := List.mem_range.1 (List.mem_of_find?_eq_some hf)
    have hh : AHas s i r := isAt_iff.1 (List.find?_some hf)
    have hother : ∀ j q, j ≠ i → (AHas (writeWcr s i Wcr.zero) j q ↔ AHas s j q) := by
      intro j q hji
      constructor
      · intro hh
        have := hh.on; have := hh.at'; have := hh.bas; have := hh.lsc
        constructor <;> simp_all [writeWcr]
      · intro hh
        constructor <;> simp [writeWcr, hji, hh.on, hh.at', hh.bas, hh.lsc]
    have hself : ∀ q, ¬AHas (writeWcr s i Wcr.zero) i q := by
      intro q hq
      have := hq.on
      simp [writeWcr, Wcr.zero] at this
    refine ⟨⟨?_, ?_, ?_, ?_⟩, fun _ => ?_, fun _ => rfl⟩
    · intro q hq
      exact h.good q (List.mem_filter.1 hq).1
    · intro q hq
      obtain ⟨hq, hne⟩ := List.mem_filter.1 hq
      obtain ⟨j, hj, hqh⟩ := h.there q hq
      refine ⟨j, hj, (hother j q ?_).2 hqh⟩
      rintro rfl
      simp at hne
      exact hne (has_inj (h.good q hq) hw hqh hh)
    · intro j hj hon
      by_cases hji : j = i
      · subst hji
        simp [writeWcr, Wcr.zero] at hon
      · have hon' : (s.wcr j).enable = true := by simpa [writeWcr, hji] using hon
        obtain ⟨q, hq, hqh⟩ := h.back j hj hon'
        refine ⟨q, List.mem_filter.2 ⟨hq, ?_⟩, (hother j q hji).2 hqh⟩
        simp only [ne_eq, decide_not, Bool.not_eq_true', decide_eq_false_iff_not]
        rintro rfl
        exact hji (h.apart j i q hj hi hqh hh)
    · intro p q t hp hq h1 h2
      by_cases hpi : p = i
      · rw [hpi] at h1; exact absurd h1 (hself t)
      · by_cases hqi : q = i
        · rw [hqi] at h2; exact absurd h2 (hself t)
        · exact h.apart p q t hp hq ((hother p t hpi).1 h1) ((hother q t hqi).1 h2)
    · obtain ⟨q, hq, hqh⟩ := h.back i hi hh.on
      rw [has_inj hw (h.good q hq) hh hqh]
      exact hq

/-- What has been set and not been removed, after `initialize`. -/
inductive AWatchHistory : ADebug → List Req → Prop where
  | start (s : ADebug) : AWatchHistory s.clear []
  | add {s s' l} (r : Req) (h : AWatchHistory s l) (hw : Watchable r) (ha : s.add r.a r.len r.k = (true, s')) : AWatchHistory s' (r :: l)
  | full {s s' l} (r : Req) (h : AWatchHistory s l) (ha : s.add r.a r.len r.k = (false, s')) : AWatchHistory s' l
  | remove {s s' l v} (r : Req) (h : AWatchHistory s l) (hw : Watchable r) (ha : s.remove r.a r.len r.k = (v, s')) : AWatchHistory s' (l.filter fun q => q ≠ r)

theorem a_start_set (s : ADebug) : ASet s.clear [] := by
  have hz : ∀ j, j < 4 → (s.clear.wcr j).enable = false := by
    intro j hj
    show (if j < 4 then Wcr.zero else _).enable = false
    rw [if_pos hj]
    rfl
  constructor
  · intro r hr; simp at hr
  · intro r hr; simp at hr
  · intro j hj hon
    rw [hz j hj] at hon
    exact absurd hon (by simp)
  · intro i j r hi hj h1
    have := h1.on
    rw [hz i hi] at this
    exact absurd this (by simp)

theorem a_history_set {s : ADebug} {l : List Req} (h : AWatchHistory s l) : ASet s l := by
  induction h with
  | start s => exact a_start_set s
  | add r _ hw ha ih => exact a_add_set ih hw ha
  | full r _ ha ih => rw [(a_add_full ha).1]; exact ih
  | remove r _ hw ha ih => exact (a_remove_set ih hw ha).1

/-- C99: on AArch64, after any history of watchpoints the hardware can watch, exactly their bytes are watched, for exactly the accesses they are for. (Other
addresses: see `a64_unaligned_misplaced` and `a64_eight_at_four`.) -/
theorem a64_watched_partial {s : ADebug} {l : List Req} (h : AWatchHistory s l) (x : Access) (b : Nat) :
    AWatches s x b ↔ ∃ r ∈ l, asked r.k x = true ∧ r.a ≤ b ∧ b < r.a + r.len := by
  have hh := a_history_set h
  constructor
  · rintro ⟨j, hj, hs⟩
    obtain ⟨r, hr, hr'⟩ := hh.back j hj hs.1
    exact ⟨r, hr, (astops_iff (hh.good r hr) hr' x b).1 hs⟩
  · rintro ⟨r, hr, ha⟩
    obtain ⟨j, hj, hr'⟩ := hh.there r hr
    exact ⟨j, hj, (astops_iff (hh.good r hr) hr' x b).2 ha⟩

/-- C99: a watchpoint is refused only when four others are set, and nothing changes then; removing one tells whether it was set. -/
theorem a64_results {s : ADebug} {l : List Req} (h : AWatchHistory s l) :
    (∀ (r : Req) s', s.add r.a r.len r.k = (false, s') → s' = s ∧ ∀ j, j < 4 → ∃ q ∈ l, AHas s j q) ∧
    (∀ (r : Req) v s', Watchable r → s.remove r.a r.len r.k = (v, s') → (v = true ↔ r ∈ l)) := by
  have hh := a_history_set h
  refine ⟨fun r s' ha => ?_, fun r v s' hw ha => (a_remove_set hh hw ha).2⟩
  obtain ⟨e, hf⟩ := a_add_full ha
  exact ⟨e, fun j hj => hh.back j hj (hf j hj)⟩

/-- The code does not meet the full property: a watchpoint at an address that is no multiple of four watches bytes before it instead of its last ones, and
cannot be removed. -/
theorem a64_unaligned_misplaced {s : ADebug} {a len : Nat} {k : WatchKind} (ha : a % 4 ≠ 0) (hl : 0 < len) (hl' : a % 4 + len ≤ 4) :
    ∃ s', s.clear.add a len k = (true, s') ∧ (∀ b, AWatches s' .store b → b < a - a % 4 + len) ∧ ¬AWatches s' .store (a + len - 1) ∧
      s'.remove a len k = (false, s') := by
  have hz : ∀ j, j < 4 → (s.clear.wcr j).enable = false := by
    intro j hj
    show (if j < 4 then Wcr.zero else _).enable = false
    rw [if_pos hj]
    rfl
  have hadd : s.clear.add a len k = (true, writeWcr (writeWvr s.clear 0 a) 0 { Wcr.zero with enable := true, bas := calculateBas len, lsc := calculateLsc k, hmc := true, ssc := 1, pac := 3 }) := by
    unfold ADebug.add
    rw [if_neg]
    · simp [List.range_succ, hz]
    · simp only [List.any_eq_true, List.mem_range]
      rintro ⟨j, hj, hat⟩
      simp [isAt, hz j hj] at hat
  refine ⟨_, hadd, ?_, ?_, ?_⟩
  · rintro b ⟨j, hj, hon, _, h1, h2, h3⟩
    by_cases hj0 : j = 0
    · subst hj0
      simp only [writeWcr, writeWvr, if_true] at h1 h2 h3
      rw [bas_bit] at h3
      simp only [decide_eq_true_eq] at h3
      omega
    · simp [writeWcr, writeWvr, hj0, hz j hj] at hon
  · rintro ⟨j, hj, hon, _, h1, h2, h3⟩
    by_cases hj0 : j = 0
    · subst hj0
      simp only [writeWcr, writeWvr, if_true] at h1 h2 h3
      rw [bas_bit] at h3
      simp only [decide_eq_true_eq] at h3
      omega
    · simp [writeWcr, writeWvr, hj0, hz j hj] at hon
  · unfold ADebug.remove
    rw [List.find?_eq_none.2]
    intro j hj hat
    have hj := List.mem_range.1 hj
    by_cases hj0 : j = 0
    · subst hj0
      simp [isAt, writeWcr, writeWvr] at hat
      omega
    · simp [isAt, writeWcr, writeWvr, hj0, hz j hj] at hat

/-- The code does not meet the full property: of eight bytes from an odd multiple of four, the last four are not watched. -/
theorem a64_eight_at_four {s : ADebug} {a : Nat} {k : WatchKind} (ha : a % 8 = 4) :
    ∃ s', s.clear.add a 8 k = (true, s') ∧ ∀ b x, a + 4 ≤ b → ¬AWatches s' x b := by
  have hz : ∀ j, j < 4 → (s.clear.wcr j).enable = false := by
    intro j hj
    show (if j < 4 then Wcr.zero else _).enable = false
    rw [if_pos hj]
    rfl
  have hadd : s.clear.add a 8 k = (true, writeWcr (writeWvr s.clear 0 a) 0 { Wcr.zero with enable := true, bas := calculateBas 8, lsc := calculateLsc k, hmc := true, ssc := 1, pac := 3 }) := by
    unfold ADebug.add
    rw [if_neg]
    · simp [List.range_succ, hz]
    · simp only [List.any_eq_true, List.mem_range]
      rintro ⟨j, hj, hat⟩
      simp [isAt, hz j hj] at hat
  refine ⟨_, hadd, ?_⟩
  rintro b x hb ⟨j, hj, hon, _, h1, h2, h3⟩
  by_cases hj0 : j = 0
  · subst hj0
    simp only [writeWcr, writeWvr, if_true] at h1 h2
    rw [if_pos (by omega)] at h2
    omega
  · simp [writeWcr, writeWvr, hj0, hz j hj] at hon

/-! ### Examples -/

def freshA64 : ADebug := ⟨fun _ => Wcr.zero, fun _ => 0⟩

/-- Two watchpoints are set and the first is removed. -/
example : ∃ s, AWatchHistory s [⟨256, 8, .read⟩] ∧ AWatches s .load 263 ∧ ¬AWatches s .store 263 ∧ ¬AWatches s .store 100 := by
  have h : AWatchHistory _ _ := .remove ⟨100, 4, .write⟩ (.add ⟨256, 8, .read⟩ (.add ⟨100, 4, .write⟩ (.start freshA64) (.inr (by decide)) rfl) (.inl (by decide)) rfl) (.inr (by decide)) rfl
  refine ⟨_, h, ?_, ?_, ?_⟩
  · exact (a64_watched_partial h _ _).2 ⟨_, List.mem_cons_self .., rfl, by decide, by decide⟩
  · intro hw
    obtain ⟨r, hr, ha, _⟩ := (a64_watched_partial h _ _).1 hw
    simp at hr
    rcases hr with ⟨rfl | rfl, hr⟩ <;> first | exact absurd ha (by decide) | exact absurd rfl hr
  · intro hw
    obtain ⟨r, hr, ha, hb, _⟩ := (a64_watched_partial h _ _).1 hw
    simp at hr
    rcases hr with ⟨rfl | rfl, hr⟩ <;> first | exact absurd hb (by decide) | exact absurd rfl hr

example : ∃ s', freshA64.clear.add 101 2 .write = (true, s') ∧ ¬AWatches s' .store 102 := by
  obtain ⟨s', h, _, h2, _⟩ := a64_unaligned_misplaced (s := freshA64) (a := 101) (len := 2) (k := .write) (by decide) (by decide) (by decide)
  exact ⟨s', h, h2⟩

end Verif.Debugger
