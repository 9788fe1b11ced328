import Verif.Perf.Lemmas
namespace Verif.Perf

/-- A record that fits is added to the records that are there. -/
theorem pushOwned_fits (dbg : Bool) (b : Bytes) {r : Rec} (hr : Fits r) : pushOwned dbg b r = (b ++ r.bytes, .ok r.size) := by
  have hs := hr.size
  have hroom : b.length + r.size + (if r.data = [] then 1 else 0) ≤ (b ++ List.replicate MAX 0).length := by
    rw [List.length_append, List.length_replicate]
    have : MAX = 255 := rfl
    split
    · next hd => have : r.size = 4 := by unfold Rec.size; rw [hd]; rfl
                 omega
    · omega
  unfold pushOwned
  rw [writeInto_fit hroom]
  show ((splice (b ++ List.replicate MAX 0) b.length r.bytes).take (b.length + r.size), _) = _
  congr 1
  have hb : r.size + (MAX - r.size) = MAX := by have : MAX = 255 := rfl; omega
  have e : b ++ List.replicate MAX (0 : UInt8) = b ++ List.replicate r.size 0 ++ List.replicate (MAX - r.size) 0 := by
    rw [List.append_assoc, List.replicate_append_replicate, hb]
  rw [e, splice_parts (by rw [bytes_length, List.length_replicate]), List.take_left' (by rw [List.length_append, bytes_length])]

theorem pushPublished_fits {b : Bytes} {used : Nat} {r : Rec} (h : used + r.size + (if r.data = [] then 1 else 0) ≤ b.length) :
    pushPublished b used r = ((splice b used r.bytes, used + r.size), .ok r.size) := by
  unfold pushPublished
  rw [writeInto_fit h]

theorem pushPublished_full {b : Bytes} {used : Nat} {r : Rec} (h : b.length < used + r.size + (if r.data = [] then 1 else 0)) :
    ∃ b', pushPublished b used r = ((b', used), .err .outOfResources) ∧ b'.length = b.length ∧ ∀ n ≤ used, b'.take n = b.take n := by
  obtain ⟨h1, h2, h3⟩ := writeInto_unfit h
  unfold pushPublished
  rcases hw : writeInto b used r with ⟨b', o⟩
  rw [hw] at h1 h2 h3
  cases (show o = none from h1)
  exact ⟨b', rfl, h2, h3⟩

/-! ### The table -/

structure Inv (t : Fbpt) (l : List Rec) : Prop where
  fits : ∀ r ∈ l, Fits r
  small : 56 + (allBytes l).length < 2 ^ 32
  recs : match t.recs with
    | .owned b => b = allBytes l ∧ t.ptr = none ∧ t.len = 56 + (allBytes l).length
    | .published a used => t.ptr = some a ∧ t.address = a ∧ used = (allBytes l).length ∧ Holds (t.mem a) l ∧ 56 + used ≤ (t.mem a).length

theorem putMem_same (m : Nat → Bytes) (a : Nat) (b : Bytes) : putMem m a b a = b := if_pos rfl

/-- A table in memory, taken apart. -/
theorem holds_parts {b : Bytes} {l : List Rec} (h : Holds b l) (hl : 56 + (allBytes l).length ≤ b.length) (hs : 56 + (allBytes l).length < 2 ^ 32) :
    ∃ rest, b = SIGNATURE ++ (leBytes 4 (56 + (allBytes l).length) ++ (Rec.boot.bytes ++ (allBytes l ++ rest))) := by
  refine ⟨b.drop (56 + (allBytes l).length), ?_⟩
  have e1 : b = b.take 4 ++ b.drop 4 := (List.take_append_drop 4 b).symm
  have e2 : b.drop 4 = (b.drop 4).take 4 ++ b.drop 8 := by
    conv => lhs; rw [← List.take_append_drop 4 (b.drop 4)]
    rw [List.drop_drop]
  have e3 : b.drop 8 = (b.drop 8).take 48 ++ b.drop 56 := by
    conv => lhs; rw [← List.take_append_drop 48 (b.drop 8)]
    rw [List.drop_drop]
  have e4 : b.drop 56 = (b.drop 56).take (allBytes l).length ++ b.drop (56 + (allBytes l).length) := by
    conv => lhs; rw [← List.take_append_drop (allBytes l).length (b.drop 56)]
    rw [List.drop_drop]
  have e5 : (b.drop 4).take 4 = leBytes 4 (56 + (allBytes l).length) := by
    refine leVal_inj ?_ ?_
    · rw [List.length_take, List.length_drop, leBytes_length]; omega
    · rw [h.length, leVal_leBytes_of_lt (by omega)]
  conv => lhs; rw [e1, e2, e3, e4, h.signature, h.boot, h.records, e5]

theorem parts_holds {l : List Rec} {rest : Bytes} (hs : 56 + (allBytes l).length < 2 ^ 32) :
    Holds (SIGNATURE ++ (leBytes 4 (56 + (allBytes l).length) ++ (Rec.boot.bytes ++ (allBytes l ++ rest)))) l := by
  have hb : Rec.boot.bytes.length = 48 := bytes_length .boot
  have d4 : ∀ x : Bytes, (SIGNATURE ++ x).drop 4 = x := fun x => List.drop_left' rfl
  have d8 : ∀ (v : Nat) (x : Bytes), (SIGNATURE ++ (leBytes 4 v ++ x)).drop 8 = x := fun v x => by
    rw [← List.append_assoc, List.drop_left' (by rw [List.length_append, leBytes_length]; rfl)]
  refine ⟨List.take_left' rfl, ?_, ?_, ?_⟩
  · rw [d4, List.take_left' (leBytes_length ..), leVal_leBytes_of_lt (by omega)]
  · rw [d8, List.take_left' hb]
  · have : ∀ b : Bytes, b.drop 56 = (b.drop 8).drop 48 := fun b => by rw [List.drop_drop]
    rw [this, d8, List.drop_left' hb, List.take_left' rfl]

theorem holds_length {b : Bytes} {l : List Rec} (rest : Bytes)
    (h : b = SIGNATURE ++ (leBytes 4 (56 + (allBytes l).length) ++ (Rec.boot.bytes ++ (allBytes l ++ rest)))) : b.length = 56 + (allBytes l).length + rest.length := by
  rw [h]
  simp only [List.length_append, leBytes_length, bytes_length]
  show 4 + (4 + (48 + _)) = _
  omega

theorem set_inv {t : Fbpt} {l rs : List Rec} (h : Proper t l (.set rs)) : Inv (t.setRecords (allBytes rs)) rs := by
  obtain ⟨h1, h2, h3⟩ := h
  refine ⟨h2, h3, ?_⟩
  unfold Fbpt.setRecords Fbpt.setLength
  rw [h1]
  refine ⟨rfl, rfl, ?_⟩
  show (EMPTY + (allBytes rs).length) % 2 ^ 32 % 2 ^ 32 = _
  rw [Nat.mod_mod, Nat.mod_eq_of_lt (show EMPTY + (allBytes rs).length < 2 ^ 32 from h3)]
  rfl

/-- Adding a record: it is accepted if there is room, and refused with nothing changed that a reader sees otherwise. -/
theorem add_inv {dbg : Bool} {t : Fbpt} {l : List Rec} (hi : Inv t l) {r : Rec} (hp : Proper t l (.add r)) :
    Inv (t.add dbg r).1 (if room t r then l ++ [r] else l) ∧ (t.add dbg r).2 = (if room t r then .ok () else .err .outOfResources) ∧
    ∀ a, t.ptr = some a → (t.add dbg r).1.ptr = some a := by
  obtain ⟨hf, hz⟩ := hp
  have hfits : ∀ x ∈ l ++ [r], Fits x := fun x hx => by
    rcases List.mem_append.1 hx with hx | hx
    · exact hi.fits x hx
    · rw [List.mem_singleton.1 hx]; exact hf
  have hlen : (allBytes (l ++ [r])).length = (allBytes l).length + r.size := by rw [allBytes_one, List.length_append, bytes_length]
  have hi3 := hi.recs
  cases ht : t.recs with
  | owned b =>
    rw [ht] at hi3
    obtain ⟨i1, i2, i3⟩ := hi3
    have hroom : room t r = true := by unfold room; rw [ht]
    rw [hroom, if_pos rfl, if_pos rfl]
    unfold Fbpt.add
    rw [ht]
    dsimp only
    rw [pushOwned_fits dbg b hf]
    dsimp only
    have hl : Fbpt.length { t with recs := .owned (b ++ r.bytes) } = 56 + (allBytes l).length := by
      unfold Fbpt.length; dsimp only; rw [i2]; exact i3
    rw [hl, if_neg (by omega)]
    refine ⟨⟨hfits, by rw [hlen]; omega, ?_⟩, rfl, fun a ha => by rw [i2] at ha; cases ha⟩
    unfold Fbpt.setLength
    dsimp only
    rw [i2]
    refine ⟨by rw [i1, allBytes_one], rfl, ?_⟩
    show _ % 2 ^ 32 % 2 ^ 32 = _
    rw [Nat.mod_mod, Nat.mod_eq_of_lt hz, hlen, Nat.add_assoc]
  | published a used =>
    rw [ht] at hi3
    obtain ⟨i1, i2, i3, i4, i5⟩ := hi3
    subst i3
    obtain ⟨rest, hb⟩ := holds_parts i4 i5 hi.small
    have hbl := holds_length rest hb
    have hE : EMPTY = 56 := rfl
    have hdrop : (t.mem a).drop EMPTY = allBytes l ++ rest := by
      have : ∀ b : Bytes, b.drop 56 = ((b.drop 4).drop 4).drop 48 := fun b => by rw [List.drop_drop, List.drop_drop]
      rw [hE, this, hb, List.drop_left' (show SIGNATURE.length = 4 from rfl), List.drop_left' (leBytes_length ..), List.drop_left' (show Rec.boot.bytes.length = 48 from bytes_length .boot)]
    have htake : (t.mem a).take EMPTY = SIGNATURE ++ (leBytes 4 (56 + (allBytes l).length) ++ Rec.boot.bytes) := by
      have e : t.mem a = (SIGNATURE ++ (leBytes 4 (56 + (allBytes l).length) ++ Rec.boot.bytes)) ++ (allBytes l ++ rest) := by
        rw [hb]; simp only [List.append_assoc]
      rw [e, List.take_left' (by simp only [List.length_append, leBytes_length, bytes_length]; rfl)]
    by_cases hroom : EMPTY + (allBytes l).length + r.size + (if r.data = [] then 1 else 0) ≤ (t.mem a).length
    · have hr : room t r = true := by unfold room; rw [ht]; exact decide_eq_true hroom
      rw [hr, if_pos rfl, if_pos rfl]
      have hfit : (allBytes l).length + r.size + (if r.data = [] then 1 else 0) ≤ ((t.mem a).drop EMPTY).length := by rw [List.length_drop]; omega
      unfold Fbpt.add
      rw [ht]
      dsimp only
      rw [pushPublished_fits hfit]
      dsimp only
      have hrl : r.size ≤ rest.length := by omega
      have hsp : splice ((t.mem a).drop EMPTY) (allBytes l).length r.bytes = allBytes l ++ r.bytes ++ rest.drop r.size := by
        rw [hdrop, ← List.take_append_drop r.size rest, ← List.append_assoc, splice_parts (by rw [List.length_take, bytes_length]; omega)]
        simp
      have hmem : (t.mem a).take EMPTY ++ splice ((t.mem a).drop EMPTY) (allBytes l).length r.bytes =
          SIGNATURE ++ (leBytes 4 (56 + (allBytes l).length) ++ (Rec.boot.bytes ++ (allBytes (l ++ [r]) ++ rest.drop r.size))) := by
        rw [htake, hsp, allBytes_one]; simp only [List.append_assoc]
      have hl : ∀ (used : Nat), Fbpt.length { t with recs := (.published a used),
                                                           mem := putMem t.mem a ((t.mem a).take EMPTY ++ splice ((t.mem a).drop EMPTY) (allBytes l).length r.bytes) } = 56 + (allBytes l).length := by
        intro used
        unfold Fbpt.length
        dsimp only
        rw [i1]
        dsimp only
        rw [putMem_same, hmem, List.drop_left' (show SIGNATURE.length = 4 from rfl), List.take_left' (leBytes_length ..), leVal_leBytes_of_lt (by omega)]
      rw [hl, if_neg (by omega)]
      refine ⟨⟨hfits, by rw [hlen]; omega, ?_⟩, rfl, fun x hx => ?_⟩
      · unfold Fbpt.setLength
        dsimp only
        rw [i1]
        dsimp only
        rw [putMem_same, putMem_same, hmem, Nat.mod_eq_of_lt hz]
        have e : splice (SIGNATURE ++ (leBytes 4 (56 + (allBytes l).length) ++ (Rec.boot.bytes ++ (allBytes (l ++ [r]) ++ rest.drop r.size)))) 4
              (leBytes 4 (56 + (allBytes l).length + r.size)) =
            SIGNATURE ++ (leBytes 4 (56 + (allBytes (l ++ [r])).length) ++ (Rec.boot.bytes ++ (allBytes (l ++ [r]) ++ rest.drop r.size))) := by
          have := splice_parts (p := SIGNATURE) (q := leBytes 4 (56 + (allBytes l).length)) (s := Rec.boot.bytes ++ (allBytes (l ++ [r]) ++ rest.drop r.size))
            (x := leBytes 4 (56 + (allBytes l).length + r.size)) (by rw [leBytes_length, leBytes_length])
          rw [List.append_assoc, List.append_assoc] at this
          rw [hlen, ← Nat.add_assoc]
          exact this
        rw [e]
        refine ⟨rfl, i2, hlen.symm, parts_holds (by rw [hlen]; omega), ?_⟩
        rw [holds_length (l := l ++ [r]) (rest.drop r.size) rfl]; omega
      · unfold Fbpt.setLength
        dsimp only
        rw [i1] at hx ⊢
        exact hx
    · have hr : room t r = false := by unfold room; rw [ht]; exact decide_eq_false hroom
      rw [hr, if_neg (by simp), if_neg (by simp)]
      have hfull : ((t.mem a).drop EMPTY).length < (allBytes l).length + r.size + (if r.data = [] then 1 else 0) := by rw [List.length_drop]; omega
      obtain ⟨b', hb1, hb2, hb3⟩ := pushPublished_full hfull
      unfold Fbpt.add
      rw [ht]
      dsimp only
      rw [hb1]
      dsimp only
      refine ⟨⟨hi.fits, hi.small, ?_⟩, rfl, fun x hx => hx⟩
      have hb4 := hb3 _ (Nat.le_refl _)
      rw [hdrop, List.take_left' rfl] at hb4
      have hb5 : b' = allBytes l ++ b'.drop (allBytes l).length := by
        conv => lhs; rw [← List.take_append_drop (allBytes l).length b', hb4]
      show t.ptr = some a ∧ t.address = a ∧ _ ∧ Holds (putMem t.mem a _ a) l ∧ _ ≤ (putMem t.mem a _ a).length
      rw [putMem_same, htake, hb5]
      have e : SIGNATURE ++ (leBytes 4 (56 + (allBytes l).length) ++ Rec.boot.bytes) ++ (allBytes l ++ b'.drop (allBytes l).length) =
          SIGNATURE ++ (leBytes 4 (56 + (allBytes l).length) ++ (Rec.boot.bytes ++ (allBytes l ++ b'.drop (allBytes l).length))) := by
        simp only [List.append_assoc]
      rw [e]
      refine ⟨i1, i2, rfl, parts_holds hi.small, ?_⟩
      rw [holds_length (l := l) (b'.drop (allBytes l).length) rfl]; omega

/-- Publishing: the table is in the memory that was allocated, with all records. Without memory nothing changes. -/
theorem report_inv {dbg : Bool} {t : Fbpt} {l : List Rec} (hi : Inv t l) {a : Option Nat} (hp : Proper t l (.report a)) :
    Inv (t.report dbg a).1 l ∧ (t.report dbg a).2 = (match a with | some a => .ok a | none => .err .efi) ∧
    ∀ x, a = some x → (t.report dbg a).1.ptr = some x := by
  cases a with
  | none => exact ⟨hi, rfl, fun x hx => by cases hx⟩
  | some a =>
    obtain ⟨h1, h2⟩ := hp
    have h2 := h2 a rfl
    have hi3 := hi.recs
    cases ht : t.recs with
    | published a' used => rw [ht] at hi3; rw [hi3.1] at h1; cases h1
    | owned b =>
      rw [ht] at hi3
      obtain ⟨i1, _, i3⟩ := hi3
      have hbig : 56 + (allBytes l).length + 0x10000 ≤ (t.mem a).length := by
        rw [h2]
        unfold pagesFor
        have : EMPTY = 56 := rfl
        omega
      obtain ⟨p, q, s, hm, hpl, hql⟩ := parts (t.mem a) (off := 0) (n := 56 + (allBytes l).length) (by omega)
      have hp0 : p = [] := List.eq_nil_of_length_eq_zero hpl
      subst hp0
      obtain ⟨q1, q2, q3, hq, hq1, hq2⟩ := parts q (off := 8) (n := 48) (by omega)
      have hq3 : q3.length = (allBytes l).length := by
        have := congrArg List.length hq
        simp only [List.length_append] at this
        omega
      have hmem : t.mem a = q1 ++ (q2 ++ (q3 ++ s)) := by rw [hm, hq]; simp only [List.append_assoc, List.nil_append]
      have hml : (t.mem a).length = 56 + (allBytes l).length + s.length := by rw [hmem]; simp only [List.length_append]; omega
      have hlen : Fbpt.length { t with address := a } = 56 + (allBytes l).length := by unfold Fbpt.length; dsimp only; rw [h1]; exact i3
      have hw : writeAll (t.mem a) 0 [SIGNATURE, leBytes 4 (56 + (allBytes l).length)] =
          (SIGNATURE ++ leBytes 4 (56 + (allBytes l).length) ++ (q2 ++ (q3 ++ s)), some 8) := by
        have hfit : Fit (t.mem a).length 0 [SIGNATURE, leBytes 4 (56 + (allBytes l).length)] := by
          refine ⟨by omega, ?_, ?_, ?_, trivial⟩
          · show 0 + 4 ≤ _; omega
          · show 0 + 4 < _; omega
          · rw [leBytes_length]; show 0 + 4 + 4 ≤ _; omega
        obtain ⟨w1, _⟩ := writeAll_fit hfit (Nat.zero_le _)
        have e : [SIGNATURE, leBytes 4 (56 + (allBytes l).length)].flatten = SIGNATURE ++ leBytes 4 (56 + (allBytes l).length) := by simp
        rw [w1, e]
        have el : (SIGNATURE ++ leBytes 4 (56 + (allBytes l).length)).length = 8 := by rw [List.length_append, leBytes_length]; rfl
        have := splice_parts (p := []) (q := q1) (s := q2 ++ (q3 ++ s)) (x := SIGNATURE ++ leBytes 4 (56 + (allBytes l).length)) (by rw [hq1, el])
        rw [List.nil_append, List.nil_append, ← hmem] at this
        rw [show (0 : Nat) = ([] : Bytes).length from rfl, this, el]; rfl
      have hpre : (SIGNATURE ++ leBytes 4 (56 + (allBytes l).length)).length = 8 := by rw [List.length_append, leBytes_length]; rfl
      have hboot : Rec.boot.bytes.length = 48 := bytes_length .boot
      have hw2 : writeInto (SIGNATURE ++ leBytes 4 (56 + (allBytes l).length) ++ (q2 ++ (q3 ++ s))) 8 .boot =
          (SIGNATURE ++ leBytes 4 (56 + (allBytes l).length) ++ Rec.boot.bytes ++ (q3 ++ s), some 48) := by
        rw [writeInto_fit]
        · have := splice_parts (p := SIGNATURE ++ leBytes 4 (56 + (allBytes l).length)) (q := q2) (s := q3 ++ s) (x := Rec.boot.bytes) (by rw [hq2, hboot])
          rw [hpre] at this
          rw [← List.append_assoc _ q2, this]
          rfl
        · rw [List.length_append, hpre, List.length_append, hq2]
          show 8 + 48 + 0 ≤ _
          omega
      unfold Fbpt.report
      dsimp only
      rw [hlen, hw]
      dsimp only
      rw [hw2]
      dsimp only
      rw [if_neg (by show ¬ (_ ∧ 8 + 48 ≠ EMPTY); simp [EMPTY]), ht]
      dsimp only
      have hl56 : (SIGNATURE ++ leBytes 4 (56 + (allBytes l).length) ++ Rec.boot.bytes).length = 56 := by rw [List.length_append, hpre, hboot]
      have hnot : ¬ (SIGNATURE ++ leBytes 4 (56 + (allBytes l).length) ++ Rec.boot.bytes ++ (q3 ++ s)).length - (8 + 48) < b.length := by
        rw [List.length_append, hl56, List.length_append, hq3, i1]; omega
      rw [if_neg hnot]
      dsimp only
      have e1 : (SIGNATURE ++ leBytes 4 (56 + (allBytes l).length) ++ Rec.boot.bytes ++ (q3 ++ s)).take (8 + 48) =
          SIGNATURE ++ leBytes 4 (56 + (allBytes l).length) ++ Rec.boot.bytes := List.take_left' hl56
      have e2 : (SIGNATURE ++ leBytes 4 (56 + (allBytes l).length) ++ Rec.boot.bytes ++ (q3 ++ s)).drop (8 + 48 + b.length) = s := by
        rw [← List.append_assoc _ q3, List.drop_left' (by rw [List.length_append, hl56, hq3, i1])]
      rw [e1, e2, i1]
      refine ⟨⟨hi.fits, hi.small, ?_⟩, rfl, fun x hx => hx⟩
      show some a = some a ∧ a = a ∧ _ ∧ Holds (putMem _ a _ a) l ∧ _ ≤ (putMem _ a _ a).length
      rw [putMem_same]
      have e : SIGNATURE ++ leBytes 4 (56 + (allBytes l).length) ++ Rec.boot.bytes ++ allBytes l ++ s =
          SIGNATURE ++ (leBytes 4 (56 + (allBytes l).length) ++ (Rec.boot.bytes ++ (allBytes l ++ s))) := by simp only [List.append_assoc]
      rw [e]
      refine ⟨rfl, rfl, rfl, parts_holds hi.small, ?_⟩
      rw [holds_length (l := l) s rfl]; omega

theorem step_inv {dbg : Bool} {t : Fbpt} {l : List Rec} (hi : Inv t l) {o : Op} (hp : Proper t l o) : Inv (step dbg t l o).1 (step dbg t l o).2 := by
  cases o with
  | set rs => exact set_inv hp
  | add r => exact (add_inv hi hp).1
  | report a => exact (report_inv hi hp).1

theorem run_inv {dbg : Bool} {t : Fbpt} {l : List Rec} (hi : Inv t l) {os : List Op} (hp : AllProper dbg t l os) : Inv (run dbg t l os).1 (run dbg t l os).2 := by
  induction os generalizing t l with
  | nil => exact hi
  | cons o os ih => exact ih (step_inv hi hp.1) hp.2

theorem new_inv (mem : Nat → Bytes) : Inv (Fbpt.new mem) [] := ⟨fun r hr => (List.not_mem_nil hr).elim, by decide, rfl, rfl, rfl⟩

/-- After any history, the table that has been published is at the address it was published at, gives its length, and holds exactly the records that were set and
added, in order; before, the buffer holds them. Either way the iterator returns them. -/
theorem table_holds {dbg : Bool} {mem : Nat → Bytes} {os : List Op} (hp : AllProper dbg (Fbpt.new mem) [] os) :
    let t := (run dbg (Fbpt.new mem) [] os).1
    let l := (run dbg (Fbpt.new mem) [] os).2
    match t.ptr with
    | some a => t.address = a ∧ Holds (t.mem a) l ∧ t.length = 56 + (allBytes l).length ∧
        iter (((t.mem a).drop 56).take (t.length - 56)) = some (l.map Rec.raw)
    | none => t.recs = .owned (allBytes l) ∧ t.length = 56 + (allBytes l).length ∧ iter (allBytes l) = some (l.map Rec.raw) := by
  intro t l
  have hi : Inv t l := run_inv (new_inv mem) hp
  have hr := hi.recs
  cases ht : t.recs with
  | owned b =>
    rw [ht] at hr
    obtain ⟨h1, h2, h3⟩ := hr
    have hl : t.length = 56 + (allBytes l).length := by unfold Fbpt.length; rw [h2]; exact h3
    rw [h2]
    exact ⟨by rw [h1], hl, iter_records hi.fits⟩
  | published a used =>
    rw [ht] at hr
    obtain ⟨h1, h2, h3, h4, h5⟩ := hr
    have hl : t.length = 56 + (allBytes l).length := by unfold Fbpt.length; rw [h1]; exact h4.length
    rw [h1]
    refine ⟨h2, h4, hl, ?_⟩
    rw [hl, Nat.add_sub_cancel_left, h4.records]
    exact iter_records hi.fits

end Verif.Perf
