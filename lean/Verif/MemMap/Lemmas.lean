import Verif.MemMap.Spec
import Verif.Gcd.Invariant
namespace Verif.MemMap
open Gcd

/-! ### Types and attributes -/

theorem find_of_mem {owners : List (Nat × Nat)} (hd : Distinct owners) {h t : Nat} (hm : (h, t) ∈ owners) :
    typeForHandle owners h = some t := by
  unfold typeForHandle
  induction owners with
  | nil => cases hm
  | cons o l ih =>
    have hd' := List.pairwise_cons.1 hd
    rcases List.mem_cons.1 hm with rfl | hm
    · simp
    · have : o.1 ≠ h := hd'.1 _ hm
      rw [List.find?_cons_of_neg (by simpa using this)]
      exact ih hd'.2 hm

theorem mem_of_find {owners : List (Nat × Nat)} {h t : Nat} (hf : typeForHandle owners h = some t) : (h, t) ∈ owners := by
  unfold typeForHandle at hf
  cases hq : owners.find? (fun o => o.1 = h) with
  | none => rw [hq] at hf; cases hf
  | some o =>
    rw [hq] at hf
    have h1 := List.find?_some hq
    have h2 := List.mem_of_find?_eq_some hq
    injection hf with hf
    have h1 : o.1 = h := by simpa using h1
    subst h1; subst hf; exact h2

theorem not_found {owners : List (Nat × Nat)} {h : Nat} (hf : typeForHandle owners h = none) : ∀ o ∈ owners, o.1 ≠ h := by
  unfold typeForHandle at hf
  intro o ho
  have := List.find?_eq_none.1 (Option.map_eq_none_iff.1 hf) o ho
  simpa using this

theorem and_pow {x k : Nat} : x &&& 2 ^ k = 2 ^ k ↔ x.testBit k = true := by
  constructor
  · intro h
    have := congrArg (fun n => n.testBit k) h
    simp only [Nat.testBit_and, Nat.testBit_two_pow_self, Bool.and_true] at this
    exact this
  · intro h
    apply Nat.eq_of_testBit_eq
    intro i
    rw [Nat.testBit_and, Nat.testBit_two_pow]
    by_cases hi : k = i
    · subst hi; simp [h]
    · simp [hi]

theorem memType_iff {owners : List (Nat × Nat)} (hd : Distinct owners) {c : Cell} {t : Nat} :
    memType owners c = some t ↔ HasType owners c t := by
  unfold memType
  constructor
  · intro h
    cases hf : typeForHandle owners c.image with
    | some t' => rw [hf] at h; injection h with h; subst h; exact .owned (mem_of_find hf)
    | none =>
      rw [hf] at h
      have hn := not_found hf
      simp only [gcdType] at h
      split at h
      · rename_i hc; injection h with h; subst h; exact .conventional hn hc
      · rename_i hc
        split at h
        · rename_i hb; injection h with h; subst h; exact .ioPort hn hc (and_pow (k := 62) |>.1 hb)
        · rename_i hb; injection h with h; subst h
          refine .io hn hc ?_
          cases hx : c.attrs.testBit 62
          · rfl
          · exact absurd ((and_pow (k := 62)).2 hx) hb
      · rename_i hc; injection h with h; subst h; exact .persistent hn hc
      · rename_i hc; injection h with h; subst h; exact .unaccepted hn hc
      · rename_i hc; injection h with h; subst h; exact .reserved hn hc
      · cases h
  · intro h
    have none_of : (∀ o ∈ owners, o.1 ≠ c.image) → typeForHandle owners c.image = none := by
      intro hn
      cases hf : typeForHandle owners c.image with
      | none => rfl
      | some t' => exact absurd rfl (hn _ (mem_of_find hf))
    cases h with
    | owned hm => rw [find_of_mem hd hm]
    | conventional hn hc => rw [none_of hn]; simp only [gcdType, hc]; rfl
    | io hn hc hb =>
      rw [none_of hn]; simp only [gcdType, hc]
      rw [if_neg fun h => by rw [(and_pow (k := 62)).1 h] at hb; cases hb]; rfl
    | ioPort hn hc hb => rw [none_of hn]; simp only [gcdType, hc]; exact if_pos ((and_pow (k := 62)).2 hb)
    | persistent hn hc => rw [none_of hn]; simp only [gcdType, hc]; rfl
    | unaccepted hn hc => rw [none_of hn]; simp only [gcdType, hc]; rfl
    | reserved hn hc => rw [none_of hn]; simp only [gcdType, hc]; rfl

theorem keep_bits (i : Nat) : (not64 (MEMORY_ACCESS_MASK ||| MEMORY_RUNTIME)).testBit i =
    decide (i < 64 ∧ i ≠ 13 ∧ i ≠ 14 ∧ i ≠ 17 ∧ i ≠ 63) := by
  by_cases hi : i < 64
  · have : ∀ j < 64, (not64 (MEMORY_ACCESS_MASK ||| MEMORY_RUNTIME)).testBit j =
        decide (j < 64 ∧ j ≠ 13 ∧ j ≠ 14 ∧ j ≠ 17 ∧ j ≠ 63) := by decide +kernel
    exact this i hi
  · rw [Nat.testBit_lt_two_pow (Nat.lt_of_lt_of_le (by decide : _ < 2 ^ 64) (Nat.pow_le_pow_right (by omega) (by omega)))]
    simp [hi]

theorem runtime_bits (i : Nat) : MEMORY_RUNTIME.testBit i = decide (i = 63) := by
  have : MEMORY_RUNTIME = 2 ^ 63 := by decide
  rw [this, Nat.testBit_two_pow]
  simp [eq_comm]

theorem entryAttr_ok (active : Bool) (t : Nat) (c : Cell) : HasAttr active c t (entryAttr active t c) := by
  intro i
  unfold entryAttr
  have h5 : RUNTIME_SERVICES_CODE = 5 := rfl
  have h6 : RUNTIME_SERVICES_DATA = 6 := rfl
  rw [Nat.testBit_or, h5, h6]
  have hr : (if t = 5 ∨ t = 6 then MEMORY_RUNTIME else 0).testBit i = (decide (i = 63) && decide (t = 5 ∨ t = 6)) := by
    split
    · rename_i h; rw [runtime_bits]; simp [h]
    · rename_i h; simp [h]
  rw [hr]
  cases active with
  | true =>
    by_cases hi : i = 63
    · subst hi; simp
    · simp [hi]
  | false =>
    simp only [Bool.false_eq_true, if_false, Nat.testBit_or, Nat.testBit_and, keep_bits, runtime_bits]
    by_cases hi : i = 63
    · subst hi; simp
    · by_cases h1 : i = 13 ∨ i = 14 ∨ i = 17 ∨ 64 ≤ i
      · have : ¬ (i < 64 ∧ i ≠ 13 ∧ i ≠ 14 ∧ i ≠ 17 ∧ i ≠ 63) := by omega
        simp only [this, hi, h1, decide_false, Bool.and_false, Bool.false_and, Bool.or_false, if_false, if_true]
      · have : i < 64 ∧ i ≠ 13 ∧ i ≠ 14 ∧ i ≠ 17 ∧ i ≠ 63 := by omega
        simp only [this, hi, h1, decide_true, decide_false, Bool.and_true, Bool.and_false, Bool.false_and, Bool.or_false, if_false]
        simp [this]

theorem hasAttr_unique {active : Bool} {c : Cell} {t w w' : Nat} (h : HasAttr active c t w) (h' : HasAttr active c t w') : w = w' :=
  Nat.eq_of_testBit_eq fun i => (h i).trans (h' i).symm

/-! ### Merging -/

theorem reports_append {l r : List Entry} {a t w : Nat} : Reports (l ++ r) a t w ↔ Reports l a t w ∨ Reports r a t w := by
  unfold Reports
  constructor
  · rintro ⟨e, he, h⟩
    rcases List.mem_append.1 he with he | he
    · exact .inl ⟨e, he, h⟩
    · exact .inr ⟨e, he, h⟩
  · rintro (⟨e, he, h⟩ | ⟨e, he, h⟩)
    · exact ⟨e, List.mem_append.2 (.inl he), h⟩
    · exact ⟨e, List.mem_append.2 (.inr he), h⟩

theorem reports_one {e : Entry} {a t w : Nat} : Reports [e] a t w ↔ e.start ≤ a ∧ a < e.stop ∧ e.type = t ∧ e.attr = w := by
  simp [Reports]

theorem pairwise_snoc {α : Type} {R : α → α → Prop} {l : List α} {x : α} :
    (l ++ [x]).Pairwise R ↔ l.Pairwise R ∧ ∀ y ∈ l, R y x := by
  rw [List.pairwise_append]
  constructor
  · rintro ⟨h1, _, h3⟩; exact ⟨h1, fun y hy => h3 y hy x (by simp)⟩
  · rintro ⟨h1, h3⟩
    refine ⟨h1, List.pairwise_singleton _ _, fun y hy z hz => ?_⟩
    rw [List.mem_singleton.1 hz]; exact h3 y hy

theorem pages_sum {s p c q : Nat} (h : s + p * 4096 = c) : p + q ≤ c + q * 4096 := by omega

theorem stop_sum {s p c q : Nat} (h : s + p * 4096 = c) : s + (p + q) * 4096 = c + q * 4096 := by
  rw [Nat.add_mul, ← Nat.add_assoc, h]

/-- One step of the fold: the new entry starts at or after the end `s` of everything before. -/
theorem merge_ok {prev : List Entry} {cur : Entry} {s : Nat} (hw : WellFormed prev) (hs : ∀ e ∈ prev, e.stop ≤ s)
    (h1 : 0 < cur.pages) (h2 : cur.start % 4096 = 0) (h3 : s ≤ cur.start) (h4 : cur.stop < W) :
    WellFormed (mergeBlocks prev cur) ∧ (∀ e ∈ mergeBlocks prev cur, e.stop ≤ cur.stop) ∧
      ∀ a t w, Reports (mergeBlocks prev cur) a t w ↔ Reports prev a t w ∨ Reports [cur] a t w := by
  have hcur : cur.start < cur.stop := by unfold Entry.stop; omega
  have hpush : (∀ e ∈ prev, ¬ (e.stop = cur.start ∧ e.type = cur.type ∧ e.attr = cur.attr)) →
      WellFormed (prev ++ [cur]) ∧ (∀ e ∈ prev ++ [cur], e.stop ≤ cur.stop) ∧
      ∀ a t w, Reports (prev ++ [cur]) a t w ↔ Reports prev a t w ∨ Reports [cur] a t w := by
    intro hj
    refine ⟨⟨?_, pairwise_snoc.2 ⟨hw.order, fun y hy => Nat.le_trans (hs y hy) h3⟩, pairwise_snoc.2 ⟨hw.joined, hj⟩⟩, ?_, fun a t w => reports_append⟩
    · intro e he
      rcases List.mem_append.1 he with he | he
      · exact hw.whole e he
      · rw [List.mem_singleton.1 he]; exact ⟨h1, h2⟩
    · intro e he
      rcases List.mem_append.1 he with he | he
      · have := hs e he; omega
      · rw [List.mem_singleton.1 he]; exact Nat.le_refl _
  unfold mergeBlocks
  rcases List.eq_nil_or_concat prev with rfl | ⟨l, d, rfl⟩
  · simp only [List.getLast?_nil]
    exact hpush (fun e he => (List.not_mem_nil he).elim)
  · rw [List.concat_eq_append] at *
    rw [List.getLast?_concat]
    have hd := hs d (by simp)
    have hdw := hw.whole d (by simp)
    have ho := pairwise_snoc.1 hw.order
    have hjn := pairwise_snoc.1 hw.joined
    have hadd : addw d.start (d.pages * 4096 % W) = d.stop := by
      have : d.stop < W := by omega
      unfold Entry.stop at this
      unfold addw Entry.stop
      rw [Nat.mod_eq_of_lt (by omega : d.pages * 4096 < W), Nat.mod_eq_of_lt (by omega)]
    simp only [hadd]
    split
    · rename_i hm
      obtain ⟨m1, m2, m3⟩ := hm
      rw [List.dropLast_concat]
      have hpg : addw d.pages cur.pages = d.pages + cur.pages := by
        unfold addw
        apply Nat.mod_eq_of_lt
        exact Nat.lt_of_le_of_lt (pages_sum m3) h4
      have hstop : ({ d with pages := addw d.pages cur.pages } : Entry).stop = cur.stop := by
        show d.start + addw d.pages cur.pages * 4096 = _
        rw [hpg]
        exact stop_sum m3
      refine ⟨⟨?_, pairwise_snoc.2 ⟨ho.1, ho.2⟩, pairwise_snoc.2 ⟨hjn.1, hjn.2⟩⟩, ?_, ?_⟩
      · intro e he
        rcases List.mem_append.1 he with he | he
        · exact hw.whole e (List.mem_append.2 (.inl he))
        · rw [List.mem_singleton.1 he]
          exact ⟨by show 0 < addw d.pages cur.pages; rw [hpg]; omega, hdw.2⟩
      · intro e he
        rcases List.mem_append.1 he with he | he
        · have := hs e (List.mem_append.2 (.inl he)); omega
        · rw [List.mem_singleton.1 he, hstop]; exact Nat.le_refl _
      · intro a t w
        rw [reports_append, reports_append, reports_one, reports_one, reports_one, hstop, m1, m2]
        have hd1 : d.start < d.stop := by unfold Entry.stop; omega
        constructor
        · rintro (h | ⟨p, q, r1, r2⟩)
          · exact .inl (.inl h)
          · by_cases ha : a < d.stop
            · exact .inl (.inr ⟨p, ha, r1, r2⟩)
            · exact .inr ⟨by omega, q, r1, r2⟩
        · rintro ((h | ⟨p, q, r⟩) | ⟨p, q, r⟩)
          · exact .inl h
          · exact .inr ⟨p, by omega, r⟩
          · exact .inr ⟨by show d.start ≤ a; omega, q, r⟩
    · rename_i hm
      apply hpush
      intro e he hx
      rcases List.mem_append.1 he with he | he
      · have := ho.2 e he
        have hd1 : d.start < d.stop := by unfold Entry.stop; omega
        omega
      · rw [List.mem_singleton.1 he] at hx
        exact hm ⟨hx.2.1, hx.2.2, hx.1⟩

/-- A list of entries as the GCD's blocks give it: whole pages, in order, disjoint, below the end of the address space. -/
structure Raw (l : List Entry) : Prop where
  whole : ∀ e ∈ l, 0 < e.pages ∧ e.start % 4096 = 0 ∧ e.stop < W
  order : l.Pairwise fun x y => x.stop ≤ y.start

theorem fold_ok {l : List Entry} (hr : Raw l) {prev : List Entry} {s : Nat} (hw : WellFormed prev) (hs : ∀ e ∈ prev, e.stop ≤ s)
    (h3 : ∀ e ∈ l, s ≤ e.start) :
    WellFormed (l.foldl mergeBlocks prev) ∧ ∀ a t w, Reports (l.foldl mergeBlocks prev) a t w ↔ Reports prev a t w ∨ Reports l a t w := by
  induction l generalizing prev s with
  | nil => exact ⟨hw, fun a t w => by simp [Reports]⟩
  | cons e l ih =>
    have he := hr.whole e (by simp)
    have ho := List.pairwise_cons.1 hr.order
    obtain ⟨m1, m2, m3⟩ := merge_ok hw hs he.1 he.2.1 (h3 e (by simp)) he.2.2
    obtain ⟨n1, n2⟩ := ih ⟨fun x hx => hr.whole x (by simp [hx]), ho.2⟩ m1 m2 ho.1
    refine ⟨n1, fun a t w => ?_⟩
    rw [List.foldl_cons, n2, m3, show e :: l = [e] ++ l from rfl, reports_append, or_assoc]

/-- Two well-formed maps that report the same are the same. -/
theorem wellFormed_unique {l l' : List Entry} (h : WellFormed l) (h' : WellFormed l')
    (heq : ∀ a t w, Reports l a t w ↔ Reports l' a t w) : l = l' := by
  induction l generalizing l' with
  | nil =>
    cases l' with
    | nil => rfl
    | cons y l' =>
      have hy := h'.whole y (by simp)
      obtain ⟨e, he, _⟩ := (heq y.start y.type y.attr).2 ⟨y, by simp, Nat.le_refl _, by unfold Entry.stop; omega, rfl, rfl⟩
      cases he
  | cons x l ih =>
    have hx := h.whole x (by simp)
    have hxs : x.start < x.stop := by unfold Entry.stop; omega
    cases l' with
    | nil =>
      obtain ⟨e, he, _⟩ := (heq x.start x.type x.attr).1 ⟨x, by simp, Nat.le_refl _, hxs, rfl, rfl⟩
      cases he
    | cons y l' =>
      have hy := h'.whole y (by simp)
      have hys : y.start < y.stop := by unfold Entry.stop; omega
      have ox := List.pairwise_cons.1 h.order
      have oy := List.pairwise_cons.1 h'.order
      have jx := List.pairwise_cons.1 h.joined
      have jy := List.pairwise_cons.1 h'.joined
      -- the first address reported
      obtain ⟨ey, hey, e1, e2, e3, e4⟩ := (heq x.start x.type x.attr).1 ⟨x, by simp, Nat.le_refl _, hxs, rfl, rfl⟩
      obtain ⟨ex, hex, f1, f2, f3, f4⟩ := (heq y.start y.type y.attr).2 ⟨y, by simp, Nat.le_refl _, hys, rfl, rfl⟩
      have g1 : y.start ≤ x.start := by
        rcases List.mem_cons.1 hey with rfl | hm
        · exact e1
        · have := oy.1 _ hm; omega
      have g2 : x.start ≤ y.start := by
        rcases List.mem_cons.1 hex with rfl | hm
        · exact f1
        · have := ox.1 _ hm; omega
      have hst : x.start = y.start := by omega
      have hey' : ey = y := by
        rcases List.mem_cons.1 hey with rfl | hm
        · rfl
        · have := oy.1 _ hm; omega
      subst hey'
      -- the ends
      have k1 : x.stop ≤ ey.stop := by
        apply Nat.le_of_not_lt
        intro hlt
        obtain ⟨z, hz, z1, z2, z3, z4⟩ := (heq ey.stop x.type x.attr).1 ⟨x, by simp, by omega, hlt, rfl, rfl⟩
        rcases List.mem_cons.1 hz with rfl | hm
        · omega
        · exact jy.1 _ hm ⟨by have := oy.1 _ hm; omega, e3.trans z3.symm, e4.trans z4.symm⟩
      have k2 : ey.stop ≤ x.stop := by
        apply Nat.le_of_not_lt
        intro hlt
        obtain ⟨z, hz, z1, z2, z3, z4⟩ := (heq x.stop ey.type ey.attr).2 ⟨ey, by simp, by omega, hlt, rfl, rfl⟩
        rcases List.mem_cons.1 hz with rfl | hm
        · omega
        · exact jx.1 _ hm ⟨by have := ox.1 _ hm; omega, e3.symm.trans z3.symm, e4.symm.trans z4.symm⟩
      have hxy : x = ey := by
        have hp : x.pages = ey.pages := by unfold Entry.stop at *; omega
        cases x; cases ey
        simp only at hst hp e3 e4
        subst hst; subst hp; subst e3; subst e4; rfl
      subst hxy
      congr 1
      refine ih ⟨fun e he => h.whole e (by simp [he]), ox.2, jx.2⟩ ⟨fun e he => h'.whole e (by simp [he]), oy.2, jy.2⟩ fun a t w => ?_
      constructor
      · rintro ⟨z, hz, z1, z2, z3⟩
        obtain ⟨z', hz', p1, p2, p3⟩ := (heq a t w).1 ⟨z, by simp [hz], z1, z2, z3⟩
        rcases List.mem_cons.1 hz' with rfl | hm
        · have := ox.1 _ hz; omega
        · exact ⟨z', hm, p1, p2, p3⟩
      · rintro ⟨z, hz, z1, z2, z3⟩
        obtain ⟨z', hz', p1, p2, p3⟩ := (heq a t w).2 ⟨z, by simp [hz], z1, z2, z3⟩
        rcases List.mem_cons.1 hz' with rfl | hm
        · have := oy.1 _ hz; omega
        · exact ⟨z', hm, p1, p2, p3⟩

/-! ### From the blocks of the GCD -/

theorem entryFor_some {owners : List (Nat × Nat)} {active : Bool} {b : Block Cell} {e : Entry} (h : entryFor owners active b = some e) :
    memType owners b.st = some e.type ∧ e.attr = entryAttr active e.type b.st ∧ e.start = b.base ∧ e.pages = b.len / 4096 ∧
      0 < e.pages ∧ b.base % 4096 = 0 := by
  unfold entryFor at h
  split at h
  · cases h
  · rename_i t ht
    split at h
    · cases h
    · split at h
      · cases h
      · injection h with h; subst h
        exact ⟨ht, rfl, rfl, rfl, by show 0 < b.len / 4096; omega, by omega⟩

theorem tiles_raw {owners : List (Nat × Nat)} {active : Bool} {s n : Nat} {l : List (Block Cell)} (h : Tiles s l n) (hn : n < W) :
    Raw (l.filterMap (entryFor owners active)) ∧ ∀ e ∈ l.filterMap (entryFor owners active), s ≤ e.start := by
  induction l generalizing s with
  | nil => exact ⟨⟨fun e he => (List.not_mem_nil he).elim, List.Pairwise.nil⟩, fun e he => (List.not_mem_nil he).elim⟩
  | cons b l ih =>
    obtain ⟨h1, h2, h3⟩ := h
    obtain ⟨⟨i1, i2⟩, i3⟩ := ih h3
    cases he : entryFor owners active b with
    | none =>
      rw [List.filterMap_cons_none he]
      exact ⟨⟨i1, i2⟩, fun e h => by have := i3 e h; omega⟩
    | some e =>
      rw [List.filterMap_cons_some he]
      obtain ⟨_, _, f3, f4, f5, f6⟩ := entryFor_some he
      have hstop : e.stop ≤ s + b.len := by unfold Entry.stop; omega
      have := tiles_le h3
      refine ⟨⟨?_, List.pairwise_cons.2 ⟨fun x hx => by have := i3 x hx; omega, i2⟩⟩, ?_⟩
      · intro x hx
        rcases List.mem_cons.1 hx with rfl | hx
        · exact ⟨f5, by omega, by omega⟩
        · exact i1 x hx
      · intro x hx
        rcases List.mem_cons.1 hx with rfl | hx
        · omega
        · have := i3 x hx; omega

theorem map_ok {owners : List (Nat × Nat)} {active : Bool} {n : Nat} {l : List (Block Cell)} (h : Tiles 0 l n) (hn : n < W) :
    WellFormed (memoryMap owners active l) ∧ ∀ a t w, Reports (memoryMap owners active l) a t w ↔
      Reports (l.filterMap (entryFor owners active)) a t w := by
  obtain ⟨h1, h2⟩ := tiles_raw (owners := owners) (active := active) h hn
  obtain ⟨m1, m2⟩ := fold_ok h1 (prev := []) (s := 0) ⟨fun e he => (List.not_mem_nil he).elim, .nil, .nil⟩
    (fun e he => (List.not_mem_nil he).elim) h2
  refine ⟨m1, fun a t w => (m2 a t w).trans ?_⟩
  simp [Reports]

theorem cellAt_block {l : List (Block Cell)} {a : Nat} {c : Cell} (h : cellAt l a = some c) :
    ∃ b ∈ l, b.base ≤ a ∧ a < b.base + b.len ∧ b.st = c := by
  induction l with
  | nil => cases h
  | cons b l ih =>
    simp only [cellAt] at h
    split at h
    · rename_i hb; injection h with h; exact ⟨b, by simp, hb.1, hb.2, h⟩
    · obtain ⟨b', hb', x⟩ := ih h
      exact ⟨b', by simp [hb'], x⟩

/-- In a coalesced map whose pages are uniform every block begins and ends at a page boundary. -/
theorem blocks_aligned {l : List (Block Cell)} {n : Nat} (ht : Tiles 0 l n) (hc : Coalesced l) (hp : PageUniform l) (hn : n % 4096 = 0) :
    ∀ b ∈ l, b.base % 4096 = 0 ∧ b.len % 4096 = 0 := by
  -- every boundary between two blocks is at a page boundary
  have key : ∀ r1 (b : Block Cell) r2, l = r1 ++ b :: r2 → b.base % 4096 = 0 := by
    intro r1 b r2 hl
    rcases List.eq_nil_or_concat r1 with rfl | ⟨r1, x, rfl⟩
    · rw [hl] at ht
      rw [ht.1]
    · rw [List.concat_eq_append, List.append_assoc] at hl
      have ht' := ht
      rw [hl] at ht'
      obtain ⟨m, t1, t2⟩ := tiles_append.1 ht'
      obtain ⟨p1, p2, q1, q2, q3⟩ : x.base = m ∧ 0 < x.len ∧ b.base = m + x.len ∧ 0 < b.len ∧ _ := by
        simpa [Tiles] using t2
      have hne : x.st ≠ b.st := by
        rw [hl] at hc
        have := (coalesced_append.1 hc).2.1
        exact this.1
      apply Classical.byContradiction
      intro hmod
      have hx : cellAt l (b.base - 1) = some x.st := cellAt_mem ht (by rw [hl]; simp) (by omega) (by omega)
      have hb : cellAt l b.base = some b.st := cellAt_mem ht (by rw [hl]; simp) (by omega) (by omega)
      have e1 := hp (b.base - 1)
      have e2 := hp b.base
      have : b.base - 1 - (b.base - 1) % 4096 = b.base - b.base % 4096 := by omega
      rw [this, ← e2, hx, hb] at e1
      injection e1 with e1
      exact hne e1
  intro b hb
  obtain ⟨r1, r2, hl⟩ := List.append_of_mem hb
  refine ⟨key r1 b r2 hl, ?_⟩
  have h1 := key r1 b r2 hl
  have ht' := ht
  rw [hl] at ht'
  obtain ⟨m, t1, t2⟩ := tiles_append.1 ht'
  cases r2 with
  | nil =>
    obtain ⟨q1, q2, q3⟩ : b.base = m ∧ 0 < b.len ∧ m + b.len = n := by simpa [Tiles] using t2
    omega
  | cons y r2 =>
    have h2 := key (r1 ++ [b]) y r2 (by rw [hl]; simp)
    obtain ⟨q1, q2, q3, _⟩ : b.base = m ∧ 0 < b.len ∧ y.base = m + b.len ∧ _ := by simpa [Tiles] using t2
    omega

end Verif.MemMap
