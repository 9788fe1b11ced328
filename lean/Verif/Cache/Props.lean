import Verif.Cache.Lemmas

/-!
# Properties of flushing the data cache (C109)

On aarch64 a flush reaches every line of the range but possibly the last, and exactly when it reaches the last is said
by `complete_iff`.  On x64 the whole cache is flushed.
-/

namespace Verif.Cache

theorem touched_iff {len start length : Nat} (hl : 2 ≤ len) (hpos : 0 < length) (l : Nat) :
    Touched len (len - 1) (start + length) (len * (start / len)) l ↔
      start / len ≤ l ∧ l ≤ start / len + reach len start length / (len - 1) * (len - 1) / len := by
  have hdm := Nat.div_add_mod start len
  have hD : start + length = len * (start / len) + reach len start length + 1 := by unfold reach; omega
  have hK := Nat.div_add_mod (reach len start length) (len - 1)
  have hKlt := Nat.mod_lt (reach len start length) (show 0 < len - 1 by omega)
  rw [Nat.mul_comm] at hK
  generalize reach len start length = D at *
  generalize hq : start / len = q at *
  have hdiv : ∀ x, (len * q + x) / len = q + x / len := fun x => by
    rw [Nat.mul_add_div (by omega)]
  unfold Touched
  rw [hD]
  have h0 : len * q / len = q := by have := hdiv 0; simpa using this
  rw [h0]
  constructor
  · rintro (rfl | ⟨j, hj, rfl⟩)
    · exact ⟨Nat.le_refl _, Nat.le_add_right _ _⟩
    · rw [hdiv]
      refine ⟨Nat.le_add_right _ _, ?_⟩
      have hjK : j ≤ D / (len - 1) := by
        rw [Nat.le_div_iff_mul_le (by omega)]; omega
      have h2 : j * (len - 1) ≤ D / (len - 1) * (len - 1) := Nat.mul_le_mul_right _ hjK
      have := Nat.div_le_div_right (c := len) h2
      omega
  · rintro ⟨h1, h2⟩
    right
    obtain ⟨i, rfl⟩ : ∃ i, l = q + i := ⟨l - q, by omega⟩
    have hi : i ≤ D / (len - 1) * (len - 1) / len := by omega
    rw [Nat.le_div_iff_mul_le (by omega)] at hi
    -- the first step that reaches the line
    have hc := Nat.div_add_mod (i * len + (len - 1) - 1) (len - 1)
    have hclt := Nat.mod_lt (i * len + (len - 1) - 1) (show 0 < len - 1 by omega)
    generalize hj : (i * len + (len - 1) - 1) / (len - 1) = j at *
    rw [Nat.mul_comm] at hc
    have hge : i * len ≤ j * (len - 1) := by omega
    have hlt : j * (len - 1) < i * len + (len - 1) := by omega
    have hjK : j ≤ D / (len - 1) := by
      apply Nat.le_of_not_lt
      intro hc'
      have : (D / (len - 1) + 1) * (len - 1) ≤ j * (len - 1) := Nat.mul_le_mul_right _ hc'
      rw [Nat.add_mul] at this
      omega
    have hle : j * (len - 1) ≤ D / (len - 1) * (len - 1) := Nat.mul_le_mul_right _ hjK
    refine ⟨j, by omega, ?_⟩
    rw [hdiv]
    congr 1
    apply Nat.div_eq_of_lt_le
    · exact hge
    · rw [Nat.succ_mul]; omega

theorem overlaps_iff {len start length : Nat} (hl : 2 ≤ len) (hpos : 0 < length) (l : Nat) :
    Overlaps len start length l ↔ start / len ≤ l ∧ l ≤ start / len + reach len start length / len := by
  have hdm := Nat.div_add_mod start len
  have hD : start + length = len * (start / len) + reach len start length + 1 := by unfold reach; omega
  have hr := Nat.mod_lt start (show 0 < len by omega)
  have hlast : (start + length - 1) / len = start / len + reach len start length / len := by
    rw [show start + length - 1 = len * (start / len) + reach len start length by omega, Nat.mul_add_div (by omega)]
  constructor
  · rintro ⟨a, h1, h2, rfl⟩
    refine ⟨Nat.div_le_div_right h1, ?_⟩
    rw [← hlast]
    exact Nat.div_le_div_right (by omega)
  · rintro ⟨h1, h2⟩
    rw [← hlast, Nat.le_div_iff_mul_le (by omega)] at h2
    rcases Nat.lt_or_ge start (l * len) with h3 | h3
    · exact ⟨l * len, by omega, by omega, Nat.mul_div_cancel _ (by omega)⟩
    · refine ⟨start, Nat.le_refl _, by omega, ?_⟩
      refine Nat.le_antisymm h1 ?_
      rwa [Nat.le_div_iff_mul_le (by omega)]

/-- Whether the loop comes to the line of the last byte. -/
theorem last_touched_iff {len : Nat} (hl : 2 ≤ len) (D : Nat) :
    D / len ≤ D / (len - 1) * (len - 1) / len ↔ D % (len - 1) ≤ D % len := by
  have h1 := Nat.div_add_mod D len
  have h2 := Nat.div_add_mod D (len - 1)
  rw [Nat.mul_comm] at h1 h2
  rw [Nat.le_div_iff_mul_le (by omega)]
  omega

/-- At most the last line is left out. -/
theorem others_touched {len : Nat} (hl : 2 ≤ len) (D : Nat) : D / len ≤ D / (len - 1) * (len - 1) / len + 1 := by
  have h2 := Nat.div_add_mod D (len - 1)
  have h3 := Nat.mod_lt D (show 0 < len - 1 by omega)
  rw [Nat.mul_comm] at h2
  have : D / len ≤ (D / (len - 1) * (len - 1) + len) / len := Nat.div_le_div_right (by omega)
  rwa [Nat.add_div_right _ (by omega)] at this

/-- What the flush does, as a statement about lines. -/
theorem flush_lines (dbg : Bool) (ctr start length : Nat) (t : Flush) (s : Sys) (hpos : 0 < length)
    (hb : start + length + lineLen ctr ≤ 2 ^ 64) :
    ∃ s', flushA64 dbg ctr start length t s = .done s' ∧
      Flushed t (lineLen ctr) (fun l => start / lineLen ctr ≤ l ∧ l ≤ start / lineLen ctr +
        reach (lineLen ctr) start length / (lineLen ctr - 1) * (lineLen ctr - 1) / lineLen ctr) s s' := by
  have h4 := lineLen_ge ctr
  unfold flushA64
  simp only []
  rw [if_neg (by omega), aligned_eq]
  have hle : lineLen ctr * (start / lineLen ctr) ≤ start := Nat.mul_div_le _ _
  obtain ⟨s', h, hf⟩ := loop_done dbg t (lineLen ctr) (lineLen ctr - 1) (start + length) (by omega) (by omega)
    (lineLen ctr * (start / lineLen ctr)) (.inl (by omega)) s
  exact ⟨s', h, hf.congr (touched_iff (by omega) hpos)⟩

/-- C109 (finding): a flush reaches all lines of its range exactly when the last byte is no nearer to the beginning of
its line than the last step of the loop is behind it.  The step is one byte shorter than a line. -/
theorem complete_iff (dbg : Bool) (ctr start length : Nat) (t : Flush) (s : Sys) (hpos : 0 < length)
    (hb : start + length + lineLen ctr ≤ 2 ^ 64) :
    ∃ s' T, flushA64 dbg ctr start length t s = .done s' ∧ Flushed t (lineLen ctr) T s s' ∧
      (∀ l, T l → Overlaps (lineLen ctr) start length l) ∧
      (∀ l, Overlaps (lineLen ctr) start length l → Overlaps (lineLen ctr) start length (l + 1) → T l) ∧
      ((∀ l, Overlaps (lineLen ctr) start length l → T l) ↔
        reach (lineLen ctr) start length % (lineLen ctr - 1) ≤ reach (lineLen ctr) start length % lineLen ctr) := by
  have h4 := lineLen_ge ctr
  obtain ⟨s', h, hf⟩ := flush_lines dbg ctr start length t s hpos hb
  refine ⟨s', _, h, hf, ?_, ?_, ?_⟩
  · rintro l ⟨h1, h2⟩
    rw [overlaps_iff (by omega) hpos]
    refine ⟨h1, ?_⟩
    have := Nat.div_le_div_right (c := lineLen ctr)
      (Nat.div_mul_le_self (reach (lineLen ctr) start length) (lineLen ctr - 1))
    omega
  · intro l h1 h2
    rw [overlaps_iff (by omega) hpos] at h1 h2
    have := others_touched (len := lineLen ctr) (by omega) (reach (lineLen ctr) start length)
    exact ⟨h1.1, by omega⟩
  · rw [← last_touched_iff (by omega)]
    constructor
    · intro hall
      have := (hall (start / lineLen ctr + reach (lineLen ctr) start length / lineLen ctr)
        ((overlaps_iff (by omega) hpos _).2 ⟨Nat.le_add_right _ _, Nat.le_refl _⟩)).2
      omega
    · intro hc l hl
      rw [overlaps_iff (by omega) hpos] at hl
      exact ⟨hl.1, by omega⟩

/-- The byte lies in a line the flush reaches: it is not in the last line of the range, or the last line is reached. -/
def Reached (len start length a : Nat) : Prop :=
  start ≤ a ∧ a < start + length ∧
    (Overlaps len start length (a / len + 1) ∨ reach len start length % (len - 1) ≤ reach len start length % len)

theorem reached_flushed {dbg : Bool} {ctr start length : Nat} {t : Flush} {s : Sys} {a : Nat} (hpos : 0 < length)
    (hb : start + length + lineLen ctr ≤ 2 ^ 64) (ha : Reached (lineLen ctr) start length a) :
    ∃ s', flushA64 dbg ctr start length t s = .done s' ∧
      s'.line (a / lineLen ctr) = t.after (s.line (a / lineLen ctr)) ∧ s'.copy = s.copy ∧
      s'.ram a = if t.writes (s.line (a / lineLen ctr)) then s.copy a else s.ram a := by
  obtain ⟨s', T, h, hf, -, h2, h3⟩ := complete_iff dbg ctr start length t s hpos hb
  have hT : T (a / lineLen ctr) := by
    rcases ha.2.2 with h | h
    · exact h2 _ ⟨a, ha.1, ha.2.1, rfl⟩ h
    · exact h3.2 h _ ⟨a, ha.1, ha.2.1, rfl⟩
  exact ⟨s', h, hf.line _ hT, hf.copy, hf.wrote a hT⟩

/-- C109 (partial): after a flush that writes back, a device sees in every byte reached what the processor saw in it
before, and the processor still sees it.  Missing: the bytes of the last line, when the loop stops before it. -/
theorem written_back_partial (dbg : Bool) (ctr start length : Nat) (t : Flush) (s : Sys) (a : Nat) (hpos : 0 < length)
    (hb : start + length + lineLen ctr ≤ 2 ^ 64) (ht : t ≠ .invalidate) (hc : s.Coherent (lineLen ctr))
    (ha : Reached (lineLen ctr) start length a) :
    ∃ s', flushA64 dbg ctr start length t s = .done s' ∧ s'.deviceSees a = s.cpuSees (lineLen ctr) a ∧
      s'.cpuSees (lineLen ctr) a = s.cpuSees (lineLen ctr) a := by
  obtain ⟨s', h, hl, hcp, hr⟩ := reached_flushed (dbg := dbg) (t := t) (s := s) hpos hb ha
  refine ⟨s', h, ?_, ?_⟩ <;> simp only [Sys.deviceSees, Sys.cpuSees, hr, hl, hcp] <;>
    cases hs : s.line (a / lineLen ctr) <;> cases t <;> simp [Flush.writes, Flush.after] at ht ⊢ <;>
    first
    | exact hc a hs
    | exact (hc a hs).symm
    | rfl

/-- C109 (partial): after a flush that invalidates, the processor sees in every byte reached what is in memory; when the
flush only invalidates, that is what was in memory before it, whatever the cache held. -/
theorem invalidated_partial (dbg : Bool) (ctr start length : Nat) (t : Flush) (s : Sys) (a : Nat) (hpos : 0 < length)
    (hb : start + length + lineLen ctr ≤ 2 ^ 64) (ht : t ≠ .writeBack) (ha : Reached (lineLen ctr) start length a) :
    ∃ s', flushA64 dbg ctr start length t s = .done s' ∧ s'.cpuSees (lineLen ctr) a = s'.deviceSees a ∧
      (t = .invalidate → s'.deviceSees a = s.deviceSees a) := by
  obtain ⟨s', h, hl, hcp, hr⟩ := reached_flushed (dbg := dbg) (t := t) (s := s) hpos hb ha
  refine ⟨s', h, ?_, ?_⟩
  · simp only [Sys.deviceSees, Sys.cpuSees, hl]
    cases t <;> simp [Flush.after] at ht ⊢
  · rintro rfl
    simp [Sys.deviceSees, hr, Flush.writes]

/-- C109: a flush leaves every line that shares no byte with the range as it was, in the cache and in memory. -/
theorem others_untouched (dbg : Bool) (ctr start length : Nat) (t : Flush) (s : Sys) (hpos : 0 < length)
    (hb : start + length + lineLen ctr ≤ 2 ^ 64) :
    ∃ s', flushA64 dbg ctr start length t s = .done s' ∧ s'.copy = s.copy ∧
      ∀ l, ¬ Overlaps (lineLen ctr) start length l → s'.line l = s.line l ∧
        ∀ a, a / lineLen ctr = l → s'.ram a = s.ram a := by
  obtain ⟨s', T, h, hf, h1, -, -⟩ := complete_iff dbg ctr start length t s hpos hb
  refine ⟨s', h, hf.copy, fun l hl => ⟨hf.keep l (fun c => hl (h1 l c)), ?_⟩⟩
  rintro a rfl
  exact hf.left a (fun c => hl (h1 _ c))

/-- C109: a range of whole lines is reached in full, so is a range within one line. -/
theorem whole_lines_reached (len start length a : Nat) (hl : 4 ≤ len) (ha : start ≤ a ∧ a < start + length)
    (h : (start % len = 0 ∧ length % len = 0) ∨ start % len + length ≤ len) : Reached len start length a := by
  refine ⟨ha.1, ha.2, .inr ?_⟩
  rcases h with ⟨h1, h2⟩ | h
  · obtain ⟨n, rfl⟩ := Nat.dvd_of_mod_eq_zero h2
    have hn : 0 < n := by
      rcases Nat.eq_zero_or_pos n with rfl | h
      · simp at ha; omega
      · exact h
    have hr : reach len start (len * n) = (n - 1) * len + (len - 1) := by
      unfold reach
      rw [h1]
      obtain ⟨m, rfl⟩ : ∃ m, n = m + 1 := ⟨n - 1, by omega⟩
      rw [Nat.mul_add, Nat.mul_comm len m]
      simp only [Nat.add_sub_cancel]
      omega
    have h3 : reach len start (len * n) % len = len - 1 := by
      rw [hr, Nat.mul_comm, Nat.mul_add_mod, Nat.mod_eq_of_lt (by omega)]
    rw [h3]
    exact Nat.le_of_lt (Nat.mod_lt _ (by omega))
  · have : reach len start length % len = reach len start length := by
      apply Nat.mod_eq_of_lt; unfold reach; omega
    rw [this]
    exact Nat.mod_le _ _

/-- C109 (finding): when the loop stops before the last line, nothing happens to that line: a device sees in its bytes
what was in memory, not what the processor wrote, and after an invalidation the processor still sees its old copy. -/
theorem last_line_missed (dbg : Bool) (ctr start length : Nat) (t : Flush) (s : Sys) (a : Nat) (hpos : 0 < length)
    (hb : start + length + lineLen ctr ≤ 2 ^ 64) (hl : a / lineLen ctr = (start + length - 1) / lineLen ctr)
    (hm : reach (lineLen ctr) start length % lineLen ctr < reach (lineLen ctr) start length % (lineLen ctr - 1)) :
    ∃ s', flushA64 dbg ctr start length t s = .done s' ∧ s'.deviceSees a = s.deviceSees a ∧
      s'.cpuSees (lineLen ctr) a = s.cpuSees (lineLen ctr) a := by
  have h4 := lineLen_ge ctr
  obtain ⟨s', h, hf⟩ := flush_lines dbg ctr start length t s hpos hb
  have hlast : (start + length - 1) / lineLen ctr =
      start / lineLen ctr + reach (lineLen ctr) start length / lineLen ctr := by
    have hdm := Nat.div_add_mod start (lineLen ctr)
    rw [show start + length - 1 = lineLen ctr * (start / lineLen ctr) + reach (lineLen ctr) start length by
      unfold reach; omega, Nat.mul_add_div (by omega)]
  have hno : ¬ (start / lineLen ctr ≤ a / lineLen ctr ∧ a / lineLen ctr ≤ start / lineLen ctr +
      reach (lineLen ctr) start length / (lineLen ctr - 1) * (lineLen ctr - 1) / lineLen ctr) := by
    have := last_touched_iff (len := lineLen ctr) (by omega) (reach (lineLen ctr) start length)
    omega
  refine ⟨s', h, hf.left a hno, ?_⟩
  simp only [Sys.cpuSees, hf.keep _ hno, hf.left a hno, hf.copy]

/-- C109 (finding): an empty range is not left alone, its line is flushed, and with an invalidation what the processor
wrote to that line is lost. -/
theorem empty_range_flushed (dbg : Bool) (ctr start : Nat) (t : Flush) (s : Sys)
    (hb : start + lineLen ctr ≤ 2 ^ 64) :
    ∃ s', flushA64 dbg ctr start 0 t s = .done s' ∧
      s'.line (start / lineLen ctr) = t.after (s.line (start / lineLen ctr)) := by
  have h4 := lineLen_ge ctr
  unfold flushA64
  simp only []
  rw [if_neg (by omega), aligned_eq]
  have hle : lineLen ctr * (start / lineLen ctr) ≤ start := Nat.mul_div_le _ _
  obtain ⟨s', h, hf⟩ := loop_done dbg t (lineLen ctr) (lineLen ctr - 1) (start + 0) (by omega) (by omega)
    (lineLen ctr * (start / lineLen ctr)) (.inr (by omega)) s
  refine ⟨s', h, hf.line _ (.inl ?_)⟩
  rw [Nat.mul_div_cancel_left _ (by omega)]

/-- C109 (finding): with a range that runs over the end of the address space a debug build panics, and a release build
reports success having flushed the first line only. -/
theorem overflow_flushes_one_line (ctr start length : Nat) (t : Flush) (s : Sys) (hlen : length < 2 ^ 64)
    (hs : start + lineLen ctr ≤ 2 ^ 64) (hb : 2 ^ 64 ≤ start + length) :
    flushA64 true ctr start length t s = .panics ∧
      flushA64 false ctr start length t s =
        .done (t.instruction (lineLen ctr) (lineLen ctr * (start / lineLen ctr)) s) := by
  have h4 := lineLen_ge ctr
  have hle : lineLen ctr * (start / lineLen ctr) ≤ start := Nat.mul_div_le _ _
  have hdm := Nat.div_add_mod start (lineLen ctr)
  have hr := Nat.mod_lt start (show 0 < lineLen ctr by omega)
  unfold flushA64
  simp only [aligned_eq]
  rw [if_pos hb, if_pos hb]
  refine ⟨rfl, ?_⟩
  rw [if_neg (by decide), loop]
  rw [if_neg (by omega), if_neg (by omega), if_pos]
  have : (start + length) % 2 ^ 64 = start + length - 2 ^ 64 := by
    rw [Nat.mod_eq_sub_mod hb, Nat.mod_eq_of_lt (by omega)]
  omega

/-- C109: on x64 a flush that writes back and invalidates makes the processor and devices agree everywhere, on what the
processor saw. -/
theorem x64_agrees (len start length a : Nat) (s : Sys) (hc : s.Coherent len) :
    ∃ s', flushX64 len start length .writeBackInvalidate s = some s' ∧ s'.deviceSees a = s.cpuSees len a ∧
      s'.cpuSees len a = s.cpuSees len a := by
  refine ⟨_, rfl, ?_, ?_⟩ <;> simp only [Sys.deviceSees, Sys.cpuSees] <;> cases h : s.line (a / len) <;> simp
  · exact (hc a h).symm
  · exact (hc a h).symm

/-- C109 (finding): on x64 an invalidation of any range, even an empty one, discards what the processor wrote anywhere,
and write back alone is not available. -/
theorem x64_invalidate_discards (len start length : Nat) (s : Sys) :
    (∃ s', flushX64 len start length .invalidate s = some s' ∧ ∀ a, s'.cpuSees len a = s.ram a) ∧
      flushX64 len start length .writeBack s = none :=
  ⟨⟨_, rfl, fun _ => rfl⟩, rfl⟩

/-- C109 (finding): the timer of the x64 processor stands still: its value and its period are always zero. -/
theorem x64_timer_stands_still (index : Nat) (v p : Nat) (h : timerX64 index = some (v, p)) :
    index = 0 ∧ v = 0 ∧ p = 0 := by
  unfold timerX64 at h
  split at h
  · cases h
  · injection h with h
    rw [Prod.mk.injEq] at h
    refine ⟨by omega, h.1.symm, ?_⟩
    rw [← h.2]
    simp

/-! ## Concrete cases -/

/-- Lines of 64 bytes: a cache type register of a common processor. -/
def ctr64 : Nat := 0x84448004

example : lineLen ctr64 = 64 := by decide

/-- A buffer of 100 bytes that the processor filled with 1, all of it in the cache. -/
def filled : Sys :=
  { ram := fun _ => 0, line := fun l => if l < 2 then .dirty else .absent, copy := fun a => if a < 100 then 1 else 0 }

example : filled.Coherent 64 := by
  intro a h
  simp only [filled] at h
  split at h <;> cases h

/-- C109 (finding), concretely: a buffer of 100 bytes at an aligned address is written back; a device sees the first 64
bytes of it and not the other 36. -/
theorem tail_not_written_back (dbg : Bool) :
    ∃ s', flushA64 dbg ctr64 0x0 100 .writeBack filled = .done s' ∧ s'.deviceSees 63 = 1 ∧
      ∀ a, 64 ≤ a → a < 100 → filled.cpuSees 64 a = 1 ∧ s'.deviceSees a = 0 := by
  have hlen : lineLen ctr64 = 64 := by decide
  obtain ⟨s', h, hf⟩ := flush_lines dbg ctr64 0 100 .writeBack filled (by decide) (by rw [hlen]; decide)
  rw [hlen] at hf
  refine ⟨s', h, ?_, ?_⟩
  · have := hf.wrote 63 (by decide)
    rw [Sys.deviceSees, this]; decide
  · intro a h1 h2
    have hd : a / 64 = 1 := by omega
    refine ⟨?_, ?_⟩
    · simp [Sys.cpuSees, filled, hd, h2]
    · have := hf.left a (by rw [hd]; decide)
      rw [Sys.deviceSees, this]; rfl

example : Reached 64 0x1000 0x200 0x11ff := whole_lines_reached 64 _ _ _ (by decide) (by decide) (by decide)
example : reach 64 0 100 % 64 < reach 64 0 100 % 63 := by decide
example : Reached 64 0 100 63 := ⟨by decide, by decide, .inl ⟨64, by decide, by decide, by decide⟩⟩
example : (2 : Nat) ^ 64 ≤ 0xffffffffffffff00 + 0x100 := by decide

end Verif.Cache
