import Verif.Perf.LoggingSpec
/-!
What the functions that measure record.
-/
namespace Verif.Perf

theorem and_bit (mask k : Nat) : mask &&& (1 <<< k) = 0 ↔ mask.testBit k = false := by
  rw [Nat.shiftLeft_eq, Nat.one_mul]
  constructor
  · intro h
    have := congrArg (fun x => Nat.testBit x k) h
    simpa [Nat.testBit_and, Nat.testBit_two_pow_self] using this
  · intro h
    apply Nat.eq_of_testBit_eq
    intro i
    rw [Nat.testBit_and, Nat.zero_testBit, Nat.testBit_two_pow]
    by_cases hi : k = i
    · subst hi; simp [h]
    · simp [hi]

theorem masked_bit (mask : Nat) (m : Measurement) (k : Nat) (hk : m.bit = 1 <<< k) (made : Made) : masked mask m made = if mask.testBit k = true then made else some ([], 0) := by
  unfold masked
  rw [hk]
  by_cases h : mask.testBit k = true
  · rw [if_pos h, if_neg]
    rw [and_bit, h]
    simp
  · rw [if_neg h, if_pos]
    rw [and_bit]
    simpa using h

/-- The record that a plain function's call leads to. -/
def Fn.sent : Fn → Sent
  | .image b h => ⟨h, none, none, 0, 0, if b then 2 else 1, .entry⟩
  | .load b h => ⟨h, none, none, 0, 0, if b then 4 else 3, .entry⟩
  | .support b d c => ⟨d, none, none, 0, c, if b then 8 else 7, .entry⟩
  | .start b d c => ⟨d, none, none, 0, c, if b then 6 else 5, .entry⟩
  | .stop b d c => ⟨d, none, none, 0, c, if b then 10 else 9, .entry⟩
  | .event s c => ⟨c, none, some s, 0, 0, 0, .entry⟩
  | .signal b g s c => ⟨c, some g, some s, 0, 0, if b then 0x11 else 0x10, .entry⟩
  | .callback b g s c => ⟨c, some g, some s, 0, 0, if b then 0x21 else 0x20, .entry⟩
  | .function b s c => ⟨c, none, some s, 0, 0, if b then 0x31 else 0x30, .entry⟩
  | .inModule b s c => ⟨c, none, some s, 0, 0, if b then 0x41 else 0x40, .entry⟩
  | .crossModule b s c => ⟨c, none, some s, 0, 0, if b then 0x51 else 0x50, .entry⟩
  | .mark b h t m k => ⟨h, none, t.or m, k, 0, 0, if b then .stop else .start⟩
  | .markEx b h t m k i => ⟨h, none, t.or m, k, 0, i, if b then .stop else .start⟩

theorem choose_or (t m : Option Bytes) : (if t.isSome then t else if m.isSome then m else none) = t.or m := by
  cases t <;> cases m <;> rfl

/-- An enabled function makes one call, one that is not enabled makes none; a string with a zero byte panics. -/
theorem made_calls (mask : Nat) (f : Fn) :
    f.made mask = if f.Enabled mask then (if 0 ∈ f.string.getD [] then none else some ([f.sent], (f.string.map fun s => s.length + 1).getD 0)) else some ([], 0) := by
  have hb : ∀ k, f.maskBit = some k → (f.Enabled mask ↔ mask.testBit k = true) := fun k hk => ⟨fun h => h k hk, fun h b hb => by rw [hk] at hb; cases hb; exact h⟩
  have hn : f.maskBit = none → f.Enabled mask := fun h b hb => by rw [h] at hb; cases hb
  cases f with
  | image b h =>
    simp only [hb 0 rfl]
    cases b <;> exact masked_bit mask .startImage 0 rfl _
  | load b h =>
    simp only [hb 1 rfl]
    cases b <;> exact masked_bit mask .loadImage 1 rfl _
  | support b d c =>
    simp only [hb 2 rfl]
    cases b <;> exact masked_bit mask .dbSupport 2 rfl _
  | start b d c =>
    simp only [hb 3 rfl]
    cases b <;> exact masked_bit mask .dbStart 3 rfl _
  | stop b d c =>
    simp only [hb 4 rfl]
    cases b <;> exact masked_bit mask .dbStop 4 rfl _
  | event s c => rw [if_pos (hn rfl)]; rfl
  | signal b g s c => rw [if_pos (hn rfl)]; cases b <;> rfl
  | callback b g s c => rw [if_pos (hn rfl)]; cases b <;> rfl
  | function b s c => rw [if_pos (hn rfl)]; cases b <;> rfl
  | inModule b s c => rw [if_pos (hn rfl)]; cases b <;> rfl
  | crossModule b s c => rw [if_pos (hn rfl)]; cases b <;> rfl
  | mark b h t m k =>
    rw [if_pos (hn rfl), if_neg (show ¬ (0 : UInt8) ∈ (Fn.mark b h t m k).string.getD [] from List.not_mem_nil)]
    have := choose_or t m
    cases b
    · exact congrArg (fun x => some ([(⟨h, none, x, k, 0, 0, .start⟩ : Sent)], 0)) this
    · exact congrArg (fun x => some ([(⟨h, none, x, k, 0, 0, .stop⟩ : Sent)], 0)) this
  | markEx b h t m k i =>
    rw [if_pos (hn rfl), if_neg (show ¬ (0 : UInt8) ∈ (Fn.markEx b h t m k i).string.getD [] from List.not_mem_nil)]
    have := choose_or t m
    cases b
    · exact congrArg (fun x => some ([(⟨h, none, x, k, 0, i, .start⟩ : Sent)], 0)) this
    · exact congrArg (fun x => some ([(⟨h, none, x, k, 0, i, .stop⟩ : Sent)], 0)) this

theorem plain_entry {f : Fn} (h : f.Plain) : f.sent.attr = .entry ∧ f.sent.identifier < 2 ^ 16 ∧ f.sent.string = f.string := by
  cases f with
  | mark => exact h.elim
  | markEx => exact h.elim
  | event => exact ⟨rfl, by show 0 < _; decide, rfl⟩
  | image b | load b | support b | start b | stop b | signal b | callback b | function b | inModule b | crossModule b =>
    cases b <;> exact ⟨rfl, by simp [Fn.sent], rfl⟩

/-- The number of loaded images after an enabled function. -/
def Fn.bump (loads : Nat) : Fn → Nat
  | .load false _ => (loads + 1) % 2 ^ 32
  | _ => loads

theorem plain_record (e : Env) (loads : Nat) {f : Fn} (h : f.Plain) :
    (record loads f.sent.identifier (f.sent.call e)).2 = f.record e loads ∧ (record loads f.sent.identifier (f.sent.call e)).1 = f.bump loads := by
  cases f with
  | mark => exact h.elim
  | markEx => exact h.elim
  | event => exact ⟨rfl, rfl⟩
  | image b | load b | support b | start b | stop b | signal b | callback b | function b | inModule b | crossModule b =>
    cases b <;> exact ⟨rfl, rfl⟩

/-- What a plain function does to a table that holds the records `l`: if it is enabled and its module is known it adds its record, when the table has room; else the records stay. -/
theorem function_records {dbg : Bool} {e : Env} {p : Perf} {l : List Rec} (hi : Inv p.table l) (hz : 56 + (allBytes l).length + 255 < 2 ^ 32) {f : Fn} (hp : f.Plain) (hs : f.Short) :
    ∃ p', f.run dbg e p = some p' ∧ p'.loads = f.loaded e.mask p.loads ∧
      Inv p'.table (l ++ if f.Enabled e.mask then ((f.record e p.loads).filter fun r => room p.table r).toList else []) := by
  have hz0 : 0 ∉ f.string.getD [] := by
    cases hf : f.string with
    | none => exact List.not_mem_nil
    | some s => exact (hs s hf).2
  unfold Fn.run
  rw [made_calls, if_neg hz0]
  have hlo : ∀ he : f.Enabled e.mask, f.loaded e.mask p.loads = f.bump p.loads := fun he => by
    cases f with
    | load b h =>
      cases b
      · exact if_pos he
      · rfl
    | _ => rfl
  by_cases he : f.Enabled e.mask
  · rw [if_pos he, if_pos he]
    obtain ⟨h1, h2, h3⟩ := plain_entry hp
    obtain ⟨hr, hl⟩ := plain_record e p.loads hp
    have hid : perfId (f.sent.call e) = some f.sent.identifier := by
      have : perfId (f.sent.call e) = some ((f.sent.call e).identifier % 2 ^ 16) := id_entry h1
      rw [this]
      exact congrArg some (Nat.mod_eq_of_lt h2)
    have hstr : ∀ s, (f.sent.call e).string = some s → s.length ≤ 204 := fun s hh => (hs s (by rw [← h3]; exact hh)).1
    have hloads : (measure dbg p.table p.loads (f.sent.call e)).1.2 = f.loaded e.mask p.loads := by
      rw [hlo he, ← hl]
      unfold measure
      rw [hid]
      dsimp only
      rcases hrec : record p.loads f.sent.identifier (f.sent.call e) with ⟨n, r⟩
      cases r with
      | none => rfl
      | some r =>
        dsimp only
        rcases p.table.add dbg r with ⟨t, res⟩
        cases res with
        | ok _ => rfl
        | err x => cases x <;> rfl
        | panic => rfl
    show ∃ p', measureAll dbg e _ [f.sent] = some p' ∧ _
    unfold measureAll
    rcases hm : measure dbg p.table p.loads (f.sent.call e) with ⟨⟨t, n⟩, st⟩
    rw [hm] at hloads
    have hloads : n = f.loaded e.mask p.loads := hloads
    rcases measure_adds (dbg := dbg) hi (loads := p.loads) (c := f.sent.call e) hstr hz with ⟨r, id, e1, e2, -, -, e3, e4, e5⟩ | ⟨e1, e2⟩ | ⟨r, id, e1, e2, e3, e4, e5⟩
    · rw [hid] at e1
      cases e1
      rw [hr] at e2
      rw [hm] at e4 e5
      have e4 : st = some .success := e4
      subst e4
      refine ⟨_, rfl, hloads, ?_⟩
      rw [e2, Option.filter_some_pos e3]
      exact e5
    · rw [hm] at e1 e2
      have e1 : st = some .invalidParameter := e1
      subst e1
      have hnone : f.record e p.loads = none := by
        rw [← hr]
        cases hrec : (record p.loads f.sent.identifier (f.sent.call e)).2 with
        | none => rfl
        | some r =>
          exfalso
          have hm' := hm
          unfold measure at hm'
          rw [hid] at hm'
          dsimp only at hm'
          rcases hrr : record p.loads f.sent.identifier (f.sent.call e) with ⟨k, rr⟩
          rw [hrr] at hm' hrec
          have hrec : rr = some r := hrec
          subst hrec
          dsimp only at hm'
          rcases hadd : p.table.add dbg r with ⟨t', res⟩
          rw [hadd] at hm'
          cases res with
          | ok _ => simp at hm'
          | err x => cases x <;> simp at hm'
          | panic => simp at hm'
      refine ⟨_, rfl, hloads, ?_⟩
      rw [hnone]
      have e2 : t = p.table := e2
      subst e2
      simpa using hi
    · rw [hid] at e1
      cases e1
      rw [hr] at e2
      rw [hm] at e4 e5
      have e4 : st = some .outOfResources := e4
      subst e4
      refine ⟨_, rfl, hloads, ?_⟩
      rw [e2, Option.filter_some_neg (by first | (rw [e3]; done) | simp [e3])]
      simpa using e5
  · rw [if_neg he, if_neg he]
    refine ⟨_, rfl, ?_, by simpa using hi⟩
    unfold Fn.loaded
    split
    · rw [if_neg he]
    · rfl

/-- A table that is not published has room. -/
theorem add_unpublished (dbg : Bool) (t : Fbpt) (r : Rec) (h : t.ptr = none ∧ ∃ b, t.recs = .owned b) : (t.add dbg r).1.ptr = none ∧ ∃ b, (t.add dbg r).1.recs = .owned b := by
  obtain ⟨hp, b, hb⟩ := h
  unfold Fbpt.add
  rw [hb]
  dsimp only
  rcases pushOwned dbg b r with ⟨b', res⟩
  cases res with
  | ok n =>
    dsimp only
    split
    · exact ⟨hp, b', rfl⟩
    · unfold Fbpt.setLength
      dsimp only
      rw [hp]
      exact ⟨rfl, b', rfl⟩
  | err x => exact ⟨hp, b', rfl⟩
  | panic => exact ⟨hp, b', rfl⟩

theorem measure_unpublished (dbg : Bool) (t : Fbpt) (loads : Nat) (c : Call) (h : t.ptr = none ∧ ∃ b, t.recs = .owned b) :
    (measure dbg t loads c).1.1.ptr = none ∧ ∃ b, (measure dbg t loads c).1.1.recs = .owned b := by
  unfold measure
  cases perfId c with
  | none => exact h
  | some id =>
    dsimp only
    rcases record loads id c with ⟨n, r⟩
    cases r with
    | none => exact h
    | some r =>
      dsimp only
      have := add_unpublished dbg t r h
      rcases hadd : t.add dbg r with ⟨t', res⟩
      rw [hadd] at this
      cases res with
      | ok _ => exact this
      | err x => cases x <;> exact this
      | panic => exact this

theorem all_unpublished (dbg : Bool) (e : Env) : ∀ (ss : List Sent) (p p' : Perf), (p.table.ptr = none ∧ ∃ b, p.table.recs = .owned b) → measureAll dbg e p ss = some p' →
    p'.table.ptr = none ∧ ∃ b, p'.table.recs = .owned b := by
  intro ss
  induction ss with
  | nil => intro p p' h he; cases he; exact h
  | cons s ss ih =>
    intro p p' h he
    unfold measureAll at he
    have hm := measure_unpublished dbg p.table p.loads (s.call e) h
    rcases hme : measure dbg p.table p.loads (s.call e) with ⟨⟨t, n⟩, st⟩
    rw [hme] at he hm
    cases st with
    | none => simp at he
    | some st => exact ih _ _ hm he

theorem record_size {e : Env} {n : Nat} {f : Fn} (hp : f.Plain) (hs : f.Short) {r : Rec} (h : f.record e n = some r) : r.size ≤ 255 := by
  obtain ⟨h1, h2, h3⟩ := plain_entry hp
  have hr := (plain_record e n hp).1
  exact (record_fits (c := f.sent.call e) (fun s hh => (hs s (by rw [← h3]; exact hh)).1) (hr.trans h)).2

/-- Until the table is published, it holds exactly the records of the calls that were enabled, in their order. -/
theorem functions_record {dbg : Bool} : ∀ (fs : List (Env × Fn)) (p : Perf) (l : List Rec), Inv p.table l → (p.table.ptr = none ∧ ∃ b, p.table.recs = .owned b) →
    (∀ x ∈ fs, x.2.Plain ∧ x.2.Short) → 56 + (allBytes l).length + 255 * (fs.length + 1) < 2 ^ 32 →
    ∃ p', runAll dbg p fs = some p' ∧ Inv p'.table (expected l p.loads fs).1 ∧ p'.loads = (expected l p.loads fs).2 ∧ (p'.table.ptr = none ∧ ∃ b, p'.table.recs = .owned b) := by
  intro fs
  induction fs with
  | nil => exact fun p l hi hu _ _ => ⟨p, rfl, hi, rfl, hu⟩
  | cons x fs ih =>
    intro p l hi hu hf hz
    obtain ⟨e, f⟩ := x
    obtain ⟨hp, hs⟩ := hf (e, f) List.mem_cons_self
    rw [List.length_cons] at hz
    have hz1 : 56 + (allBytes l).length + 255 < 2 ^ 32 := by
      rw [Nat.mul_add] at hz
      exact Nat.lt_of_le_of_lt (Nat.add_le_add_left (Nat.le_add_left 255 _) _) hz
    obtain ⟨p', hrun, hl, hinv⟩ := function_records (dbg := dbg) (e := e) hi hz1 hp hs
    have hroom : ∀ r : Rec, room p.table r = true := fun r => by
      obtain ⟨-, b, hb⟩ := hu
      unfold room
      rw [hb]
    have hfil : ((f.record e p.loads).filter fun r => room p.table r) = f.record e p.loads := by
      cases f.record e p.loads with
      | none => rfl
      | some r => exact Option.filter_some_pos (hroom r)
    rw [hfil] at hinv
    have hu' : p'.table.ptr = none ∧ ∃ b, p'.table.recs = .owned b := by
      unfold Fn.run at hrun
      split at hrun
      · cases hrun
      · exact all_unpublished dbg e _ _ p' (by exact hu) hrun
    have hz' : 56 + (allBytes (l ++ if f.Enabled e.mask then (f.record e p.loads).toList else [])).length + 255 * (fs.length + 1) < 2 ^ 32 := by
      rw [allBytes_append, List.length_append]
      have : (allBytes (if f.Enabled e.mask then (f.record e p.loads).toList else [])).length ≤ 255 := by
        split
        · cases hr : f.record e p.loads with
          | none => exact Nat.zero_le _
          | some r =>
            show (allBytes [r]).length ≤ 255
            have := allBytes_one [] r
            rw [List.nil_append] at this
            rw [this]
            show ([] ++ r.bytes).length ≤ 255
            rw [List.nil_append, bytes_length]
            exact record_size hp hs hr
        · exact Nat.zero_le _
      have hd : 255 * (fs.length + 1 + 1) = 255 + 255 * (fs.length + 1) := by rw [Nat.mul_add 255 (fs.length + 1) 1, Nat.mul_one, Nat.add_comm]
      rw [hd] at hz
      generalize 255 * (fs.length + 1) = q at hz ⊢
      generalize (2 : Nat) ^ 32 = top at hz ⊢
      omega
    obtain ⟨q, h1, h2, h3, h4⟩ := ih p' _ hinv hu' (fun y hy => hf y (List.mem_cons_of_mem _ hy)) hz'
    refine ⟨q, ?_, ?_, ?_, h4⟩
    · unfold runAll
      rw [hrun]
      exact h1
    · rw [hl] at h2; exact h2
    · rw [hl] at h3; exact h3

/-- From the start: after any calls, publishing puts a table at the address that holds exactly the records of the calls that were enabled, in their order, and reading it gives them. -/
theorem calls_published {dbg : Bool} (mem : Nat → Bytes) (fs : List (Env × Fn)) (hf : ∀ x ∈ fs, x.2.Plain ∧ x.2.Short) (hz : 56 + 255 * (fs.length + 1) < 2 ^ 32) :
    ∃ p, runAll dbg ⟨Fbpt.new mem, 0, 0⟩ fs = some p ∧ ∀ a, (p.table.mem a).length = pagesFor (allBytes (expected [] 0 fs).1).length * 0x1000 →
      let t := (p.table.report dbg (some a)).1
      (p.table.report dbg (some a)).2 = .ok a ∧ t.ptr = some a ∧ Holds (t.mem a) (expected [] 0 fs).1 ∧ iter (((t.mem a).drop 56).take (t.length - 56)) = some ((expected [] 0 fs).1.map Rec.raw) := by
  obtain ⟨p, h1, h2, -, h3, -⟩ := functions_record (dbg := dbg) fs ⟨Fbpt.new mem, 0, 0⟩ [] (new_inv mem) ⟨rfl, _, rfl⟩ hf (by exact hz)
  have h2 : Inv p.table (expected [] 0 fs).1 := h2
  refine ⟨p, h1, fun a ha => ?_⟩
  obtain ⟨hi, ho, hq⟩ := report_inv (dbg := dbg) h2 (a := some a) ⟨h3, fun x hx => by cases hx; exact ha⟩
  have hq := hq a rfl
  have hr := hi.recs
  intro t
  cases ht : t.recs with
  | owned b =>
    rw [ht] at hr
    rw [hr.2.1] at hq
    cases hq
  | published x used =>
    rw [ht] at hr
    obtain ⟨e1, e2, e3, e4, e5⟩ := hr
    rw [hq] at e1
    cases e1
    refine ⟨ho, hq, e4, ?_⟩
    have hl : t.length = 56 + (allBytes (expected [] 0 fs).1).length := by unfold Fbpt.length; rw [hq]; exact e4.length
    rw [hl, Nat.add_sub_cancel_left, e4.records]
    exact iter_records hi.fits

/-- `perf_start` and `perf_end`, with an identifier or without, measure once, with the token if there is one and the module otherwise. Which record that gives is said by the theorems
about `create_performance_measurement`. -/
theorem marks_measure (dbg : Bool) (e : Env) (p : Perf) (stop : Bool) (h : Nat) (token mod : Option Bytes) (k id : Nat) :
    let c : Call := ⟨h, e.module h, e.there h, none, token.or mod, e.time k, 0, id, if stop then .stop else .start⟩
    (Fn.markEx stop h token mod k id).run dbg e p = (match measure dbg p.table p.loads c with | ((_, _), none) => none | ((t, n), some _) => some { p with table := t, loads := n }) ∧
    (Fn.mark stop h token mod k).run dbg e p = (Fn.markEx stop h token mod k 0).run dbg e p := by
  constructor
  · unfold Fn.run
    rw [made_calls, if_pos (show (Fn.markEx stop h token mod k id).Enabled e.mask from fun b hb => by cases hb), if_neg (show ¬ (0 : UInt8) ∈ (Fn.markEx stop h token mod k id).string.getD [] from List.not_mem_nil)]
    show measureAll dbg e p [(Fn.markEx stop h token mod k id).sent] = _
    unfold measureAll
    show (match measure dbg p.table p.loads _ with | ((_, _), none) => none | ((t, n), some _) => measureAll dbg e { p with table := t, loads := n } []) = _
    rfl
  · unfold Fn.run
    rw [made_calls, made_calls]
    rw [if_pos (show (Fn.mark stop h token mod k).Enabled e.mask from fun b hb => by cases hb), if_pos (show (Fn.markEx stop h token mod k 0).Enabled e.mask from fun b hb => by cases hb)]
    rfl

/-- A function that is not enabled changes nothing. -/
theorem disabled_nothing {dbg : Bool} {e : Env} {p : Perf} {f : Fn} (h : ¬ f.Enabled e.mask) : f.run dbg e p = some p := by
  unfold Fn.run
  rw [made_calls, if_neg h]
  rfl

def someEnv : Env := ⟨0b01011, fun h => if h = 0x10 then some 77 else none, fun a => a + 1, fun k => if k = 0 then 5 else k⟩

/-- Loading and starting an image, with a callback in between. -/
def someCalls : List (Env × Fn) :=
  [(someEnv, .load false 0x10), (someEnv, .load true 0x10), (someEnv, .image false 0x10), (someEnv, .callback false 9 (ascii "cb") 0x20), (someEnv, .support false 0x10 3),
    (someEnv, .start false 0x11 3), (someEnv, .image true 0x10)]

example : expected [] 4 someCalls =
    ([.qword 3 0 5 77 5, .qword 4 0 5 77 5, .guid 1 0 5 77, .dual 0x20 0 5 0x21 9 (ascii "cb"), .guid 2 0 5 77], 5) := by decide +kernel
theorem some_plain : ∀ x ∈ someCalls, x.2.Plain ∧ x.2.Short := by
  intro x hx
  simp only [someCalls, List.mem_cons, List.not_mem_nil, or_false] at hx
  rcases hx with rfl | rfl | rfl | rfl | rfl | rfl | rfl
  all_goals refine ⟨trivial, fun s hs => ?_⟩
  all_goals first | (cases hs; done) | (have hs : some (ascii "cb") = some s := hs; cases hs; decide)
example : 56 + (allBytes []).length + 255 * (someCalls.length + 1) < 2 ^ 32 := by decide

/-! ### Findings -/

/-- Every string that is measured is allocated and never freed: what is lost grows without bound. -/
theorem strings_leak (dbg : Bool) (e : Env) (p p' : Perf) (f : Fn) {s : Bytes} (hs : f.string = some s) (h : f.run dbg e p = some p') : p'.leaked = p.leaked + s.length + 1 := by
  have keep : ∀ (ss : List Sent) (p p' : Perf), measureAll dbg e p ss = some p' → p'.leaked = p.leaked := by
    intro ss
    induction ss with
    | nil => intro p p' h; cases h; rfl
    | cons x ss ih =>
      intro p p' h
      unfold measureAll at h
      split at h
      · cases h
      · exact (ih _ _ h :)
  have he : f.Enabled e.mask := fun b hb => by cases f <;> first | (cases hs; done) | (cases hb; done)
  unfold Fn.run at h
  rw [made_calls, if_pos he, hs] at h
  split at h
  · cases h
  · next hm =>
    split at hm
    · cases hm
    · cases hm
      rw [keep _ _ _ h]
      rfl

/-- A string with a zero byte panics, whether anything is measured or not. -/
theorem zero_byte_panics (dbg : Bool) (e : Env) (p : Perf) (f : Fn) {s : Bytes} (hs : f.string = some s) (h0 : 0 ∈ s) : f.run dbg e p = none := by
  have he : f.Enabled e.mask := fun b hb => by cases f <;> first | (cases hs; done) | (cases hb; done)
  unfold Fn.run
  rw [made_calls, if_pos he, hs, if_pos (by exact h0)]

/-- The mask does not disable events, callbacks, functions and the measurements inside and across modules. -/
theorem mask_ignored (dbg : Bool) (e : Env) (p : Perf) (f : Fn) {s : Bytes} (hs : f.string = some s) (mask : Nat) :
    f.run dbg { e with mask := mask } p = f.run dbg e p := by
  have he : ∀ m, f.Enabled m := fun m b hb => by cases f <;> first | (cases hs; done) | (cases hb; done)
  unfold Fn.run
  rw [made_calls, made_calls, if_pos (he _), if_pos (he _)]
  have same : ∀ (ss : List Sent) (p : Perf), measureAll dbg { e with mask := mask } p ss = measureAll dbg e p ss := by
    intro ss
    induction ss with
    | nil => exact fun _ => rfl
    | cons x ss ih =>
      intro p
      unfold measureAll
      simp only [ih]
      rfl
  simp only [same]

end Verif.Perf
