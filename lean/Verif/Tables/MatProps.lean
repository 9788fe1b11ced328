import Verif.Tables.MatSpec
namespace Verif.Tables.Mat
open Verif.Gcd

/-! ### What a table says -/

theorem ro_xp_bits (i : Nat) : (MEMORY_RO ||| MEMORY_XP).testBit i = (decide (i = 14) || decide (i = 17)) := by
  have e : MEMORY_RO ||| MEMORY_XP = 2 ^ 14 ||| 2 ^ 17 := by decide
  rw [e, Nat.testBit_or, Nat.testBit_two_pow, Nat.testBit_two_pow]
  simp only [eq_comm]

theorem all_bits (i : Nat) : (MEMORY_RO ||| MEMORY_XP ||| MEMORY_RUNTIME).testBit i = (decide (i = 14) || decide (i = 17) || decide (i = 63)) := by
  rw [Nat.testBit_or, ro_xp_bits, MemMap.runtime_bits]

theorem data_bits (i : Nat) : (MEMORY_RUNTIME ||| MEMORY_XP).testBit i = (decide (i = 14) || decide (i = 63)) := by
  have e : MEMORY_RUNTIME ||| MEMORY_XP = 2 ^ 14 ||| 2 ^ 63 := by decide
  rw [e, Nat.testBit_or, Nat.testBit_two_pow, Nat.testBit_two_pow]
  simp only [eq_comm]

theorem unprotected_iff (w : Nat) : w &&& (MEMORY_RO ||| MEMORY_XP) = 0 ↔ w.testBit 14 = false ∧ w.testBit 17 = false := by
  constructor
  · intro h
    have h1 := congrArg (fun x => Nat.testBit x 14) h
    have h2 := congrArg (fun x => Nat.testBit x 17) h
    simp only [Nat.testBit_and, ro_xp_bits, Nat.zero_testBit] at h1 h2
    exact ⟨by simpa using h1, by simpa using h2⟩
  · rintro ⟨h1, h2⟩
    apply Nat.eq_of_testBit_eq
    intro i
    rw [Nat.testBit_and, ro_xp_bits, Nat.zero_testBit]
    by_cases h14 : i = 14
    · subst h14; simp [h1]
    · by_cases h17 : i = 17
      · subst h17; simp [h2]
      · simp [h14, h17]

/-- The attributes of an entry are those the memory should be listed with. -/
theorem entry_attr {e e' : MemMap.Entry} (h : entry e = some e') {c : Cell} (ha : MemMap.HasAttr true c e.type e.attr) :
    (e.type = 5 ∨ e.type = 6) ∧ e'.type = e.type ∧ e'.start = e.start ∧ e'.pages = e.pages ∧ ListedAs e.type c.attrs e'.attr := by
  unfold entry at h
  split at h
  · rename_i ht
    have ht : e.type = 5 ∨ e.type = 6 := ht
    injection h with h
    subst h
    refine ⟨ht, rfl, rfl, rfl, ?_⟩
    have h14 : e.attr.testBit 14 = c.attrs.testBit 14 := ha 14
    have h17 : e.attr.testBit 17 = c.attrs.testBit 17 := ha 17
    have h63 : e.attr.testBit 63 = true := by rw [ha 63]; simp [ht]
    intro i
    dsimp only
    by_cases hu : e.attr &&& (MEMORY_RO ||| MEMORY_XP) = 0
    · rw [if_pos hu]
      have hu := (unprotected_iff _).1 hu
      rw [h14, h17] at hu
      rw [hu.1, hu.2]
      by_cases hc : e.type = MemMap.RUNTIME_SERVICES_CODE
      · rw [if_pos hc, all_bits]
        have hc : e.type = 5 := hc
        rw [hc]
        by_cases h1 : i = 63
        · simp [h1]
        · by_cases h2 : i = 14
          · simp [h2]
          · by_cases h3 : i = 17
            · simp [h3]
            · simp [h1, h2, h3]
      · rw [if_neg hc, data_bits]
        have hc : ¬ e.type = 5 := hc
        by_cases h1 : i = 63
        · simp [h1]
        · by_cases h2 : i = 14
          · simp [h2]
          · by_cases h3 : i = 17
            · simp [h3, hc]
            · simp [h1, h2, h3]
    · rw [if_neg hu, Nat.testBit_and, all_bits]
      have hu : ¬ (c.attrs.testBit 14 = false ∧ c.attrs.testBit 17 = false) := by
        intro hh; rw [← h14, ← h17] at hh; exact hu ((unprotected_iff _).2 hh)
      by_cases h1 : i = 63
      · rw [h1, h63]; simp
      · by_cases h2 : i = 14
        · rw [h2, h14]; revert hu; cases c.attrs.testBit 14 <;> cases c.attrs.testBit 17 <;> simp
        · by_cases h3 : i = 17
          · rw [h3, h17]; revert hu; cases c.attrs.testBit 14 <;> cases c.attrs.testBit 17 <;> simp
          · simp [h1, h2, h3]
  · cases h

theorem listedAs_unique {t a w w' : Nat} (h : ListedAs t a w) (h' : ListedAs t a w') : w = w' :=
  Nat.eq_of_testBit_eq fun i => by rw [h i, h' i]

theorem entry_some {e : MemMap.Entry} (h : e.type = 5 ∨ e.type = 6) : ∃ e', entry e = some e' := by
  unfold entry
  rw [if_pos (show e.type = MemMap.RUNTIME_SERVICES_CODE ∨ e.type = MemMap.RUNTIME_SERVICES_DATA from h)]
  exact ⟨_, rfl⟩

theorem entry_keeps {e e' : MemMap.Entry} (h : entry e = some e') : e'.type = e.type ∧ e'.start = e.start ∧ e'.pages = e.pages := by
  unfold entry at h
  split at h
  · injection h with h; subst h; exact ⟨rfl, rfl, rfl⟩
  · cases h

/-- Every table the core builds lists exactly the runtime memory, as it should be listed. -/
theorem build_describes {m : MemMap.Mem} (hm : Kept m) : Describes (build m) m := by
  obtain ⟨n, hr, h0, hp, hd⟩ := hm
  have hw := MemMap.map_well_formed (owners := m.owners) hr true
  refine ⟨rfl, rfl, rfl, ?_, ?_, ?_⟩
  · intro e he
    obtain ⟨x, hx, hxe⟩ := List.mem_filterMap.1 he
    obtain ⟨_, h2, h3⟩ := entry_keeps hxe
    rw [h2, h3]; exact hw.whole x hx
  · show ((MemMap.memoryMap m.owners true m.gcd.blocks).filterMap entry).Pairwise _
    rw [List.pairwise_filterMap]
    refine hw.order.imp ?_
    intro x y hxy x' hx' y' hy'
    obtain ⟨_, h2, h3⟩ := entry_keeps hx'
    obtain ⟨_, h5, _⟩ := entry_keeps hy'
    unfold MemMap.Entry.stop at hxy ⊢
    rw [h2, h3, h5]; exact hxy
  · intro a t w
    constructor
    · rintro ⟨e', he', h1, h2, h3, h4⟩
      obtain ⟨e, he, hee⟩ := List.mem_filterMap.1 he'
      obtain ⟨k1, k2, k3⟩ := entry_keeps hee
      unfold MemMap.Entry.stop at h2
      have hrep : MemMap.Reports (MemMap.memoryMap m.owners true m.gcd.blocks) a e.type e.attr :=
        ⟨e, he, by omega, by unfold MemMap.Entry.stop; rw [← k2, ← k3]; exact h2, rfl, rfl⟩
      obtain ⟨c, hc, ht, ha⟩ := MemMap.map_sound hr hd true hrep
      obtain ⟨q1, _, _, _, q5⟩ := entry_attr hee ha
      rw [k1] at h3
      rw [← h3, ← h4]
      exact ⟨q1, c, hc, ht, q5⟩
    · rintro ⟨h5, c, hc, ht, hl⟩
      obtain ⟨e, he, h1, h2, h3, h4⟩ := MemMap.map_complete hr hd h0 hp true hc ht (MemMap.entryAttr_ok true t c)
      subst h3
      obtain ⟨e', hee⟩ := entry_some h5
      have ha : MemMap.HasAttr true c e.type e.attr := by rw [h4]; exact MemMap.entryAttr_ok _ _ _
      obtain ⟨_, q2, q3, q4, q5⟩ := entry_attr hee ha
      refine ⟨e', List.mem_filterMap.2 ⟨e, he, hee⟩, by omega, ?_, q2, listedAs_unique q5 hl⟩
      unfold MemMap.Entry.stop at h2 ⊢
      rw [q3, q4]; exact h2

/-- No memory is listed as both writable and executable. -/
theorem never_writable_and_executable {t : Table} {m : MemMap.Mem} (h : Describes t m) {a t' w : Nat} (hr : MemMap.Reports t.entries a t' w) :
    w.testBit 17 = true ∨ w.testBit 14 = true := by
  obtain ⟨_, c, _, _, hl⟩ := (h.exactly a t' w).1 hr
  have h1 := hl 14
  have h2 := hl 17
  simp only [show ¬ (14 : Nat) = 63 by decide, show ¬ (17 : Nat) = 63 by decide, show ¬ (17 : Nat) = 14 by decide, if_false, if_true] at h1 h2
  rw [h1, h2]
  cases c.attrs.testBit 14 <;> cases c.attrs.testBit 17 <;> simp

/-- Memory that is executable in fact is listed so, if it is write-protected; and what is write-protected or not executable in fact is listed as such. -/
theorem listed_protections {t : Table} {m : MemMap.Mem} (h : Describes t m) {a t' w : Nat} (hr : MemMap.Reports t.entries a t' w) :
    ∃ c, cellAt m.gcd.blocks a = some c ∧ (c.attrs.testBit 17 = true → w.testBit 17 = true ∧ w.testBit 14 = c.attrs.testBit 14)
      ∧ (c.attrs.testBit 14 = true → w.testBit 14 = true ∧ w.testBit 17 = c.attrs.testBit 17) := by
  obtain ⟨_, c, hc, _, hl⟩ := (h.exactly a t' w).1 hr
  have h1 := hl 14
  have h2 := hl 17
  simp only [show ¬ (14 : Nat) = 63 by decide, show ¬ (17 : Nat) = 63 by decide, show ¬ (17 : Nat) = 14 by decide, if_false, if_true] at h1 h2
  refine ⟨c, hc, ?_, ?_⟩ <;> intro hb <;> rw [h1, h2, hb] <;> simp

/-! ### Histories -/

/-- Between two calls: the table of the system table is the one the core remembers, and it is the only buffer in use. -/
structure Steady (s : Sys) : Prop where
  ordered : Ordered s.st
  size : s.st.sys.header.size = 120
  none : s.cached = 0 → lookup s.st.entries GUID = Option.none ∧ ∀ p, s.pool p = Option.none
  some : s.cached ≠ 0 → lookup s.st.entries GUID = Option.some s.cached ∧ (∃ t, s.pool s.cached = Option.some t) ∧ ∀ p, p ≠ s.cached → s.pool p = Option.none

theorem steady_published {s : Sys} (h : Steady s) : (s.published = none ↔ s.cached = 0) ∧ (s.cached ≠ 0 → s.published = s.pool s.cached) := by
  unfold Sys.published
  by_cases hc : s.cached = 0
  · rw [(h.none hc).1]; exact ⟨by simp [hc], fun hh => absurd hc hh⟩
  · obtain ⟨h1, ⟨t, h2⟩, h3⟩ := h.some hc
    rw [h1]; simp only [h2]
    exact ⟨by simp [hc], fun _ => trivial⟩

theorem put_same (f : Nat → Option Table) (a : Nat) (v : Option Table) : put f a v a = v := by unfold put; rw [if_pos rfl]
theorem put_other (f : Nat → Option Table) {a x : Nat} (v : Option Table) (h : x ≠ a) : put f a v x = f x := by unfold put; rw [if_neg h]

theorem first_steady {s : Sys} (h : Steady s) {e : Env} (he : e.Proper s) :
    (s.cached = 0 ∧ e.pool1 = none ∧ first s e.pool1 e.array1 = some (false, s)) ∨
    ∃ s', first s e.pool1 e.array1 = some (true, s') ∧ Steady s' ∧ s'.cached ≠ 0 ∧ s'.postRtb = s.postRtb
      ∧ s'.published = (if s.published = none then some placeholder else s.published)
      ∧ (∀ p, e.pool2 = some p → p ≠ 0 ∧ s'.pool p = none) ∧ (s.published = none → e.pool1 ≠ none) := by
  unfold first
  by_cases hc : s.cached = 0
  · have hp := (steady_published h).1.2 hc
    cases h1 : e.pool1 with
    | none => exact Or.inl ⟨hc, rfl, by rw [if_neg (fun hh => hh hc)]⟩
    | some p =>
      obtain ⟨p0, p1⟩ := he.pool1 p h1
      obtain ⟨a, ha, ha0⟩ := he.array1
      obtain ⟨st, e1, e2, _, e4, _, _, ⟨n, q, c, e7⟩, _, _⟩ := install_table h.ordered h.size ha0 GUID p0
      obtain ⟨hn1, hn2⟩ := h.none hc
      refine Or.inr ⟨{ s with st := st, cached := p, pool := put s.pool p (some placeholder) }, ?_, ⟨e2, ?_, ?_, ?_⟩, p0, rfl, ?_, ?_, fun _ => by simp⟩
      · rw [if_neg (fun hh => hh hc), ha]
        dsimp only
        rw [if_neg p0, e1]
      · show st.sys.header.size = 120
        rw [e7]; exact h.size
      · intro hh; exact absurd hh p0
      · intro _
        refine ⟨by rw [show lookup st.entries GUID = some p by rw [e4, if_pos rfl]], ⟨placeholder, put_same _ _ _⟩, ?_⟩
        intro x hx
        exact (put_other _ _ hx).trans (hn2 x)
      · rw [if_pos hp]
        unfold Sys.published
        simp only [e4, if_pos, put_same]
      · intro q hq
        obtain ⟨q0, q1, q2⟩ := he.pool2 q hq
        have : q ≠ p := fun hh => q2 (by rw [h1, hh])
        exact ⟨q0, (put_other _ _ this).trans q1⟩
  · refine Or.inr ⟨s, by rw [if_pos hc], h, hc, rfl, ?_, ?_, ?_⟩
    · rw [if_neg (fun hh => hc ((steady_published h).1.1 hh))]
    · intro p hp; exact ⟨(he.pool2 p hp).1, (he.pool2 p hp).2.1⟩
    · intro hh; exact absurd ((steady_published h).1.1 hh) hc

/-- One call: the table published is that for the memory it found, unless there was no memory for it. -/
theorem install_steady {s : Sys} (h : Steady s) {e : Env} (he : e.Proper s) :
    ∃ s', installTable s e = some s' ∧ Steady s' ∧ s'.postRtb = s.postRtb ∧ s'.published = current.expect e s.published := by
  unfold installTable current.expect
  rcases first_steady h he with ⟨hc, h1, h2⟩ | ⟨s1, h2, h3, h4, h5, h6, h7, h8⟩
  · have hp := (steady_published h).1.2 hc
    rw [h2]
    exact ⟨s, rfl, h, rfl, by rw [if_pos ⟨hp, h1⟩, hp]⟩
  · rw [h2]
    have hn : ¬ (s.published = none ∧ e.pool1 = none) := fun hh => h8 hh.1 hh.2
    rw [if_neg hn]
    dsimp only
    by_cases hm : MemMap.memoryMap e.mem.owners true e.mem.gcd.blocks = []
    · rw [if_pos hm, if_pos (Or.inl hm)]
      exact ⟨s1, rfl, h3, h5, h6⟩
    · rw [if_neg hm]
      cases hp : e.pool2 with
      | none => rw [if_pos (Or.inr rfl)]; exact ⟨s1, rfl, h3, h5, h6⟩
      | some p =>
        obtain ⟨p0, p1⟩ := h7 p hp
        have hno : ¬ (MemMap.memoryMap e.mem.owners true e.mem.gcd.blocks = [] ∨ some p = none) := by
          rintro (hh | hh)
          · exact hm hh
          · cases hh
        rw [if_neg hno]
        dsimp only
        rw [if_neg p0]
        obtain ⟨a, ha, ha0⟩ := he.array2
        obtain ⟨st, e1, e2, _, e4, _, _, ⟨n, q, c, e7⟩, _, _⟩ := install_table h3.ordered h3.size ha0 GUID p0
        obtain ⟨k1, ⟨t, k2⟩, k3⟩ := h3.some h4
        have hne : p ≠ s1.cached := fun hh => by rw [hh, k2] at p1; cases p1
        have hl : lookup st.entries GUID = some p := by rw [e4, if_pos rfl]
        unfold publish
        rw [ha, e1, he.free]
        refine ⟨_, rfl, ⟨e2, ?_, fun hh => absurd hh p0, fun _ => ⟨hl, ⟨build e.mem, ?_⟩, ?_⟩⟩, h5, ?_⟩
        · show st.sys.header.size = 120
          rw [e7]; exact h3.size
        · dsimp only
          rw [if_pos ⟨h4, rfl⟩, put_other _ _ hne, put_same]
        · intro x hx
          dsimp only at hx ⊢
          rw [if_pos ⟨h4, rfl⟩]
          by_cases hxc : x = s1.cached
          · rw [hxc, put_same]
          · rw [put_other _ _ hxc, put_other _ _ hx]; exact k3 x hxc
        · unfold Sys.published
          dsimp only
          rw [hl]
          dsimp only
          rw [if_pos ⟨h4, rfl⟩, put_other _ _ hne, put_same]

theorem other_steady {s : Sys} (h : Steady s) {o : Tables.Op}
    (ho : match o with | .install a g _ => g ≠ GUID ∧ ∃ x, a = some x ∧ x ≠ 0 | o => o.Proper) :
    ∃ s', s.step (.other o) = some s' ∧ Steady s' ∧ s'.postRtb = s.postRtb ∧ s'.published = s.published := by
  have keep : ∀ st : St, Ordered st → st.sys.header.size = 120 → lookup st.entries GUID = lookup s.st.entries GUID →
      Steady { s with st := st } ∧ ({ s with st := st } : Sys).published = s.published := by
    intro st h1 h2 h3
    refine ⟨⟨h1, h2, fun hc => ?_, fun hc => ?_⟩, ?_⟩
    · show lookup st.entries GUID = none ∧ _
      rw [h3]; exact h.none hc
    · show lookup st.entries GUID = _ ∧ _
      rw [h3]; exact h.some hc
    · unfold Sys.published
      dsimp only
      rw [h3]
  cases o with
  | install a g t =>
    obtain ⟨hg, x, rfl, hx⟩ := ho
    by_cases ht : t = 0
    · subst ht
      by_cases hm : g ∈ s.st.entries.map Entry.guid
      · obtain ⟨st, e1, e2, _, e4, _, _, ⟨n, q, c, e7⟩, _, _⟩ := remove_table h.ordered h.size hx hm
        obtain ⟨k1, k2⟩ := keep st e2 (by rw [e7]; exact h.size) (by rw [e4, if_neg (Ne.symm hg)])
        exact ⟨_, by simp only [Sys.step, St.step]; rw [e1], k1, rfl, k2⟩
      · have e1 := remove_missing h.ordered (some x) hm
        obtain ⟨k1, k2⟩ := keep s.st h.ordered h.size rfl
        exact ⟨_, by simp only [Sys.step, St.step]; rw [e1], k1, rfl, k2⟩
    · obtain ⟨st, e1, e2, _, e4, _, _, ⟨n, q, c, e7⟩, _, _⟩ := install_table h.ordered h.size hx g ht
      obtain ⟨k1, k2⟩ := keep st e2 (by rw [e7]; exact h.size) (by rw [e4, if_neg (Ne.symm hg)])
      exact ⟨_, by simp only [Sys.step, St.step]; rw [e1], k1, rfl, k2⟩
  | console c => obtain ⟨k1, k2⟩ := keep { s.st with sys := { s.st.sys with console := c } } ⟨h.ordered.null, h.ordered.once, h.ordered.some⟩ h.size rfl; exact ⟨_, rfl, k1, rfl, k2⟩
  | bootFunctions f => obtain ⟨k1, k2⟩ := keep { s.st with bootServices := { s.st.bootServices with functions := f } } ⟨h.ordered.null, h.ordered.once, h.ordered.some⟩ h.size rfl; exact ⟨_, rfl, k1, rfl, k2⟩
  | runtimeFunctions f => obtain ⟨k1, k2⟩ := keep { s.st with runtimeServices := { s.st.runtimeServices with functions := f } } ⟨h.ordered.null, h.ordered.once, h.ordered.some⟩ h.size rfl; exact ⟨_, rfl, k1, rfl, k2⟩
  | checksum => obtain ⟨k1, k2⟩ := keep (checksumAll s.st) ⟨h.ordered.null, h.ordered.once, h.ordered.some⟩ h.size rfl; exact ⟨_, rfl, k1, rfl, k2⟩
  | clearBoot => obtain ⟨k1, k2⟩ := keep (clearBoot s.st) ⟨h.ordered.null, h.ordered.once, h.ordered.some⟩ h.size rfl; exact ⟨_, rfl, k1, rfl, k2⟩

/-- Any history: nothing panics; the table published is the one for the memory that the last call found (see `build_describes`); it is in memory that is in
use; no other buffer is kept. -/
theorem mat_history {s : Sys} (h : Steady s) {ops : List Op} (ha : Allowed ops s) :
    ∃ s', s.run ops = some s' ∧ Steady s' ∧ s'.published = current ops s.postRtb s.published := by
  induction ops generalizing s with
  | nil => exact ⟨s, rfl, h, rfl⟩
  | cons o ops ih =>
    have go : ∀ s1, s.step o = some s1 → Steady s1 → ∃ s', s.run (o :: ops) = some s' ∧ Steady s' ∧ s'.published = current ops s1.postRtb s1.published := by
      intro s1 e1 e2
      obtain ⟨s', f1, f2, f3⟩ := ih e2 (ha.2 s1 e1)
      refine ⟨s', ?_, f2, f3⟩
      show (match s.step o with | none => none | some s => s.run ops) = _
      rw [e1]; exact f1
    cases o with
    | readyToBoot e =>
      obtain ⟨s1, e1, e2, e3, e4⟩ := install_steady h ha.1
      obtain ⟨s', f1, f2, f3⟩ := go { s1 with postRtb := true } (by simp only [Sys.step, e1, Option.map_some]) ⟨e2.ordered, e2.size, e2.none, e2.some⟩
      refine ⟨s', f1, f2, f3.trans ?_⟩
      show current ops true s1.published = current ops true (current.expect e s.published)
      rw [e4]
    | runtimePages e =>
      cases hb : s.postRtb with
      | true =>
        obtain ⟨s1, e1, e2, e3, e4⟩ := install_steady h ha.1
        obtain ⟨s', f1, f2, f3⟩ := go s1 (by simp only [Sys.step, hb, if_true, e1]) e2
        refine ⟨s', f1, f2, f3.trans ?_⟩
        show _ = current ops true (current.expect e s.published)
        rw [e4, e3, hb]
      | false =>
        obtain ⟨s', f1, f2, f3⟩ := go s (by simp [Sys.step, hb]) h
        refine ⟨s', f1, f2, f3.trans ?_⟩
        show _ = current ops false s.published
        rw [hb]
    | other x =>
      obtain ⟨s1, e1, e2, e3, e4⟩ := other_steady h (o := x) (by
        have := ha.1
        cases x <;> exact this)
      obtain ⟨s', f1, f2, f3⟩ := go s1 e1 e2
      refine ⟨s', f1, f2, f3.trans ?_⟩
      show _ = current ops s.postRtb s.published
      rw [e3, e4]

/-- Ready to boot, or pages of runtime memory allocated or freed after it: the table published afterwards lists exactly the runtime memory there is at this
point, as it should be listed. -/
theorem mat_published {s : Sys} (h : Steady s) {ops : List Op} {o : Op} (ha : Allowed (ops ++ [o]) s) {e : Env}
    (ho : o = .readyToBoot e ∨ (o = .runtimePages e ∧ (s.postRtb = true ∨ ∃ e', .readyToBoot e' ∈ ops))) (hw : e.Works) (hm : Kept e.mem) :
    ∃ s' t, s.run (ops ++ [o]) = some s' ∧ s'.published = some t ∧ Describes t e.mem := by
  obtain ⟨s', h1, h2, h3⟩ := mat_history h ha
  refine ⟨s', build e.mem, h1, ?_, build_describes hm⟩
  rw [h3]
  have hx : ∀ r, current.expect e r = some (build e.mem) := by
    intro r
    unfold current.expect
    rw [if_neg (fun hh => hw.1 hh.2), if_neg]
    rintro (hh | hh)
    · exact hw.2.2 hh
    · exact hw.2.1 hh
  have key : ∀ (ops : List Op) (b : Bool) (r : Option Table), (o = .readyToBoot e ∨ (o = .runtimePages e ∧ (b = true ∨ ∃ e', .readyToBoot e' ∈ ops))) →
      current (ops ++ [o]) b r = some (build e.mem) := by
    intro ops
    induction ops with
    | nil =>
      intro b r hh
      rcases hh with rfl | ⟨rfl, hb⟩
      · exact hx r
      · rcases hb with rfl | ⟨_, hb⟩
        · exact hx r
        · cases hb
    | cons x ops ih =>
      intro b r hh
      cases x with
      | readyToBoot e' =>
        refine ih _ _ ?_
        rcases hh with hh | ⟨hh, _⟩
        · exact Or.inl hh
        · exact Or.inr ⟨hh, Or.inl rfl⟩
      | runtimePages e' =>
        refine ih _ _ ?_
        rcases hh with hh | ⟨hh, hb⟩
        · exact Or.inl hh
        · refine Or.inr ⟨hh, ?_⟩
          rcases hb with hb | ⟨e'', hb⟩
          · exact Or.inl hb
          · rcases List.mem_cons.1 hb with hb | hb
            · cases hb
            · exact Or.inr ⟨e'', hb⟩
      | other y =>
        refine ih _ _ ?_
        rcases hh with hh | ⟨hh, hb⟩
        · exact Or.inl hh
        · refine Or.inr ⟨hh, ?_⟩
          rcases hb with hb | ⟨e'', hb⟩
          · exact Or.inl hb
          · rcases List.mem_cons.1 hb with hb | hb
            · cases hb
            · exact Or.inr ⟨e'', hb⟩
  exact key ops _ _ ho

/-- No buffer is kept but the one that is published. -/
theorem no_leak {s : Sys} (h : Steady s) {p : Nat} {t : Table} (hp : s.pool p = some t) : lookup s.st.entries GUID = some p ∧ s.published = some t := by
  by_cases hc : s.cached = 0
  · rw [(h.none hc).2 p] at hp; cases hp
  · obtain ⟨h1, _, h3⟩ := h.some hc
    have : p = s.cached := Classical.byContradiction fun hh => by rw [h3 p hh] at hp; cases hp
    rw [this]
    exact ⟨h1, by rw [(steady_published h).2 hc, ← this]; exact hp⟩

end Verif.Tables.Mat
