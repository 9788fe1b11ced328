import Verif.Perf.Props
/-!
Records that come from before, through HOBs, and from the management mode; and what goes wrong with records that do not fit.
-/
namespace Verif.Perf

/-- A record that was read is written again as it was. -/
theorem again_bytes (r : Rec) : r.raw.again.bytes = r.bytes := rfl

theorem again_fits {r : Rec} (h : Fits r) : Fits r.raw.again := ⟨h.size, h.typ, h.rev⟩

theorem pushAll_fits (dbg : Bool) {l : List Rec} (hl : ∀ r ∈ l, Fits r) (b : Bytes) : pushAll dbg b (l.map Rec.raw) = (b ++ allBytes l, .ok ()) := by
  induction l generalizing b with
  | nil => simp [pushAll, allBytes]
  | cons r l ih =>
    show pushAll dbg b (r.raw :: l.map Rec.raw) = _
    unfold pushAll
    rw [pushOwned_fits dbg b (again_fits (hl r List.mem_cons_self)), again_bytes]
    show pushAll dbg (b ++ r.bytes) (l.map Rec.raw) = _
    rw [ih (fun x hx => hl x (List.mem_cons_of_mem _ hx)), List.append_assoc]
    rfl

/-- The records of all HOBs are taken over, in order, byte for byte, and their counts are added up. -/
theorem merge_all (dbg : Bool) {hobs : List (Nat × List Rec)} (hf : ∀ h ∈ hobs, ∀ r ∈ h.2, Fits r) {n : Nat} (b : Bytes)
    (hn : n + (hobs.map Prod.fst).sum < 2 ^ 32) :
    merge dbg n b (hobs.map fun h => (h.1, allBytes h.2)) = .ok (n + (hobs.map Prod.fst).sum, b ++ allBytes (hobs.flatMap Prod.snd)) := by
  induction hobs generalizing n b with
  | nil => simp [merge, allBytes]
  | cons h hobs ih =>
    obtain ⟨k, rs⟩ := h
    have hs : n + (k + (hobs.map Prod.fst).sum) < 2 ^ 32 := hn
    show merge dbg n b ((k, allBytes rs) :: hobs.map fun h => (h.1, allBytes h.2)) = _
    unfold merge
    have hrs := hf (k, rs) List.mem_cons_self
    rw [if_neg (by omega), iter_records hrs]
    dsimp only
    rw [pushAll_fits dbg hrs]
    dsimp only
    rw [Nat.mod_eq_of_lt (by omega), ih (fun h hh => hf h (List.mem_cons_of_mem _ hh)) _ (by omega)]
    have e1 : n + k + (hobs.map Prod.fst).sum = n + (((k, rs) :: hobs).map Prod.fst).sum := by simp only [List.map_cons, List.sum_cons]; omega
    have e2 : b ++ allBytes rs ++ allBytes (hobs.flatMap Prod.snd) = b ++ allBytes (((k, rs) :: hobs).flatMap Prod.snd) := by
      rw [List.flatMap_cons, allBytes_append, List.append_assoc]
    rw [e1, e2]

/-- The body of a HOB is read as its size, count and records say. -/
theorem parseHob_reads {count full : Nat} {d rest : Bytes} (hd : d.length < 2 ^ 32) (hc : count < 2 ^ 32) :
    parseHob (leBytes 4 d.length ++ (leBytes 4 count ++ (leBytes 4 full ++ (d ++ rest)))) = some (count, d) := by
  have h12 : ∀ x : Bytes, (leBytes 4 d.length ++ (leBytes 4 count ++ (leBytes 4 full ++ x))).drop 12 = x := fun x => by
    rw [← List.append_assoc, ← List.append_assoc, List.drop_left' (by simp)]
  have hl : (leBytes 4 d.length ++ (leBytes 4 count ++ (leBytes 4 full ++ (d ++ rest)))).length = 12 + (d.length + rest.length) := by
    simp only [List.length_append, leBytes_length]; omega
  unfold parseHob
  rw [if_neg (by omega), List.take_left' (leBytes_length ..), leVal_leBytes_of_lt (by omega)]
  dsimp only
  rw [h12, if_neg (by rw [List.length_append]; omega), List.take_left' rfl, List.drop_left' (leBytes_length ..), List.take_left' (leBytes_length ..),
    leVal_leBytes_of_lt (by omega)]

/-- A size that is larger than the HOB is a panic. -/
theorem hob_size_panics : parseHob (leBytes 4 5 ++ leBytes 4 1 ++ leBytes 4 0 ++ [1, 2, 3, 4]) = none := by decide

/-- The management mode answers with what it has: some of the data at the offset, at most 1024 bytes, and at least one. -/
def Serves (ask : Nat → Answer) (d : Bytes) : Prop :=
  ∀ o, o < d.length → (ask o).ok = true ∧ 0 < (ask o).size ∧ (ask o).size ≤ 1024 ∧ o + (ask o).size ≤ d.length ∧ (ask o).data.take (ask o).size = (d.drop o).take (ask o).size

theorem fetch_from {ask : Nat → Answer} {d : Bytes} (h : Serves ask d) (fuel o : Nat) (ho : o ≤ d.length) (hf : d.length < fuel + o) :
    fetch ask d.length fuel (d.take o) = some (.ok d) := by
  induction fuel generalizing o with
  | zero => omega
  | succ fuel ih =>
    have hl : (d.take o).length = o := by rw [List.length_take]; omega
    unfold fetch
    rw [hl]
    by_cases hc : o < d.length
    · rw [if_pos hc]
      obtain ⟨h1, h2, h3, h4, h5⟩ := h o hc
      dsimp only
      rw [if_neg (fun hn => hn h1), if_neg (by omega), h5, ← List.take_add]
      exact ih _ h4 (by omega)
    · rw [if_neg hc, List.take_of_length_le (by omega)]

/-- All the data of the management mode are fetched. -/
theorem fetch_all {ask : Nat → Answer} {d : Bytes} (h : Serves ask d) : fetch ask d.length (d.length + 1) [] = some (.ok d) :=
  fetch_from h _ 0 (Nat.zero_le _) (by omega)

/-- An answer without data, and this never ends. -/
theorem fetch_never_ends (fuel : Nat) : fetch (fun _ => ⟨true, 0, []⟩) 1 fuel [] = none := by
  induction fuel with
  | zero => rfl
  | succ fuel ih => exact ih

/-- An answer that claims more data than there can be is a panic. -/
theorem fetch_too_much : fetch (fun _ => ⟨true, 1025, []⟩) 1 1 [] = some .panic := rfl

/-- The records that were fetched are added to the table; those it has no room for are left out. -/
theorem addAll_adds {dbg : Bool} {t : Fbpt} {l rs : List Rec} (hi : Inv t l) (hf : ∀ r ∈ rs, Fits r) (hz : 56 + (allBytes l).length + (allBytes rs).length < 2 ^ 32) :
    ∃ t' rs', t.addAll dbg (rs.map Rec.raw) = some t' ∧ Inv t' (l ++ rs') ∧ List.Sublist rs' (rs.map fun r => r.raw.again) ∧
      (∀ b, t.recs = .owned b → rs' = rs.map fun r => r.raw.again) := by
  induction rs generalizing t l with
  | nil => exact ⟨t, [], rfl, by rw [List.append_nil]; exact hi, List.Sublist.slnil, fun _ _ => rfl⟩
  | cons r rs ih =>
    have hr := hf r List.mem_cons_self
    have hs : (allBytes (r :: rs)).length = r.size + (allBytes rs).length := by
      show (r.bytes ++ allBytes rs).length = _
      rw [List.length_append, bytes_length]
    have hsz : r.raw.again.size = r.size := rfl
    obtain ⟨h1, h2, _⟩ := add_inv (dbg := dbg) hi (r := r.raw.again) ⟨again_fits hr, by rw [hsz]; omega⟩
    have hown : ∀ b, t.recs = .owned b → room t r.raw.again = true ∧ ∃ b', (t.add dbg r.raw.again).1.recs = .owned b' := by
      intro b hb
      refine ⟨by unfold room; rw [hb], ?_⟩
      unfold Fbpt.add
      rw [hb]
      dsimp only
      rw [pushOwned_fits dbg b (again_fits hr)]
      dsimp only
      split
      · exact ⟨_, rfl⟩
      · unfold Fbpt.setLength
        dsimp only
        split <;> exact ⟨_, rfl⟩
    rcases hadd : t.add dbg r.raw.again with ⟨t1, res⟩
    rw [hadd] at h1 h2 hown
    have hstep : t.addAll dbg ((r :: rs).map Rec.raw) = t1.addAll dbg (rs.map Rec.raw) := by
      show t.addAll dbg (r.raw :: rs.map Rec.raw) = _
      conv => lhs; unfold Fbpt.addAll
      rw [hadd]
      have h2 : res = _ := h2
      rw [h2]
      cases room t r.raw.again <;> rfl
    rw [hstep]
    have h1 : Inv t1 _ := h1
    cases hroom : room t r.raw.again with
    | true =>
      rw [hroom, if_pos rfl] at h1
      have hl1 : (allBytes (l ++ [r.raw.again])).length = (allBytes l).length + r.size := by rw [allBytes_one, List.length_append, bytes_length, hsz]
      obtain ⟨t', rs', g1, g2, g3, g4⟩ := ih h1 (fun x hx => hf x (List.mem_cons_of_mem _ hx)) (by rw [hl1]; omega)
      refine ⟨t', r.raw.again :: rs', g1, by rw [List.append_assoc] at g2; exact g2, List.Sublist.cons_cons _ g3, fun b hb => ?_⟩
      obtain ⟨_, b', hb'⟩ := hown b hb
      rw [g4 b' hb']; rfl
    | false =>
      rw [hroom, if_neg (by simp)] at h1
      obtain ⟨t', rs', g1, g2, g3, g4⟩ := ih h1 (fun x hx => hf x (List.mem_cons_of_mem _ hx)) (by omega)
      refine ⟨t', rs', g1, g2, List.Sublist.cons _ g3, fun b hb => ?_⟩
      rw [(hown b hb).1] at hroom; cases hroom

/-! ### Concrete tables -/

def someRec : Rec := .string 0x40 0 17 99 [0x61, 0x62]

example : Fits someRec := ⟨by decide, by decide, by decide⟩

def someMem : Bytes := List.replicate 69632 7

theorem someMem_length : someMem.length = 69632 := List.length_replicate

theorem unpublished_mem {dbg : Bool} {t : Fbpt} (hp : t.ptr = none) (b : Bytes) (hb : t.recs = .owned b) (r : Rec) : (t.add dbg r).1.mem = t.mem := by
  have h : ∀ (t' : Fbpt) v, t'.ptr = none → (t'.setLength v).mem = t'.mem := fun t' v h' => by unfold Fbpt.setLength; rw [h']
  unfold Fbpt.add
  rw [hb]
  dsimp only
  split
  · split
    · rfl
    · exact h _ _ hp
  · rfl
  · rfl

set_option maxRecDepth 100000 in
/-- Some records, published with room for more, and more. -/
example : AllProper false (Fbpt.new fun _ => someMem) [] [.set [someRec], .add (.guid 1 0 5 77), .report (some 0x1000), .add .boot] := by
  have h : ∀ r ∈ [someRec], Fits r := fun r hr => by rw [List.mem_singleton.1 hr]; exact ⟨by decide, by decide, by decide⟩
  refine ⟨⟨rfl, h, by decide +kernel⟩, ⟨⟨by decide, by decide, by decide⟩, by decide +kernel⟩, ⟨by decide +kernel, fun x hx => ?_⟩, ⟨⟨by decide, by decide, by decide⟩, by decide +kernel⟩, trivial⟩
  have hm : ∀ t : Fbpt, t.ptr = none → t.recs = .owned (allBytes [someRec]) → t.mem = (fun _ => someMem) →
      ((step false t [someRec] (.add (.guid 1 0 5 77))).1.mem x).length = 69632 := fun t h1 h2 h3 => by
    show ((t.add false (.guid 1 0 5 77)).1.mem x).length = _
    rw [unpublished_mem h1 _ h2, h3]
    exact someMem_length
  have h1 := hm ((Fbpt.new fun _ => someMem).setRecords (allBytes [someRec])) rfl rfl rfl
  have h3 : ∀ n, n = 69632 → ((step false ((Fbpt.new fun _ => someMem).setRecords (allBytes [someRec])) [someRec] (.add (.guid 1 0 5 77))).1.mem x).length = n :=
    fun n hn => h1.trans hn.symm
  refine h3 _ ?_
  decide +kernel

/-- The table of this history, in a smaller piece of memory, byte for byte. -/
example : ((((Fbpt.new fun _ => List.replicate 100 7).add false (.guid 1 0 5 77)).1.report false (some 0x1000)).1.mem 0x1000) =
    [0x46, 0x42, 0x50, 0x54, 90, 0, 0, 0] ++ ([2, 0, 48, 2] ++ List.replicate 44 0) ++
    ([0x10, 0x10, 34, 1, 1, 0, 0, 0, 0, 0, 5, 0, 0, 0, 0, 0, 0, 0] ++ (77 :: List.replicate 15 0)) ++ List.replicate 10 7 := by decide +kernel

example : Serves (fun o => ⟨true, min 1024 (3000 - o), (List.replicate 3000 1).drop o⟩) (List.replicate 3000 1) := by
  intro o ho
  rw [List.length_replicate] at ho
  refine ⟨rfl, ?_, ?_, ?_, rfl⟩
  · show 0 < min 1024 (3000 - o); omega
  · show min 1024 (3000 - o) ≤ 1024; omega
  · rw [List.length_replicate]; show o + min 1024 (3000 - o) ≤ 3000; omega

/-! ### Findings -/

/-- A name of 300 bytes. -/
def longName : Rec := .string 0x40 0 17 99 (List.replicate 300 0x61)

/-- A record that is too long is refused, but leaves its beginning and zeroes behind (release builds; others panic): the iterator panics over them, and the records that
are added afterwards come after them. -/
theorem too_long_spoils : (pushOwned false [] longName).2 = .err .debugAssert ∧ (pushOwned false [] longName).1.length = 255 ∧
    iter (pushOwned false [] longName).1 = none ∧ iter (pushOwned false (pushOwned false [] longName).1 someRec).1 = none ∧
    (pushOwned true [] longName).2 = .panic := by decide +kernel

/-- Once the table is published a record that is too long is accepted, with a length that is too short: what follows is not read as it was written. -/
theorem too_long_published :
    let first := pushPublished (List.replicate 600 0) 0 longName
    let second := pushPublished first.1.1 first.1.2 someRec
    first.2 = .ok 335 ∧ second.2 = .ok 37 ∧ iter (second.1.1.take second.1.2) = none := by decide +kernel

/-- Publishing a second time is refused, but the table's address is then that of memory that holds none of its records. -/
theorem second_report {t : Fbpt} {l : List Rec} (hi : Inv t l) {a b : Nat} (ha : t.ptr = some a) (hb : 60 ≤ (t.mem b).length) :
    (t.report false (some b)).2 = .err .debugAssert ∧ (t.report false (some b)).1.address = b := by
  have hr := hi.recs
  cases ht : t.recs with
  | owned x => rw [ht, ha] at hr; cases hr.2.1
  | published a' used =>
    have hfit : ∀ v, Fit (t.mem b).length 0 [SIGNATURE, leBytes 4 v] := fun v => by
      refine ⟨by omega, ?_, ?_, ?_, trivial⟩
      · show 0 + 4 ≤ _; omega
      · show 0 + 4 < _; omega
      · rw [leBytes_length]; show 0 + 4 + 4 ≤ _; omega
    obtain ⟨w1, w2⟩ := writeAll_fit (hfit (Fbpt.length { t with address := b })) (Nat.zero_le _)
    have e : 0 + [SIGNATURE, leBytes 4 (Fbpt.length { t with address := b })].flatten.length = 8 := by simp [SIGNATURE]
    unfold Fbpt.report
    dsimp only
    rw [w1, e]
    rw [e] at w2
    dsimp only
    rw [writeInto_fit]
    · dsimp only
      rw [if_neg (by simp), ht]
      exact ⟨rfl, rfl⟩
    · rw [splice_length (by omega)]
      show 8 + 48 + 0 ≤ _
      omega

end Verif.Perf
