import Verif.Cache.Spec

namespace Verif.Cache

theorem lineLen_eq (ctr : Nat) : lineLen ctr = 2 ^ (2 + ((ctr >>> 16) &&& 0xf)) := by
  unfold lineLen
  rw [Nat.shiftLeft_eq, Nat.pow_add]

theorem lineLen_ge (ctr : Nat) : 4 ≤ lineLen ctr := by
  rw [lineLen_eq, Nat.pow_add]
  have := Nat.one_le_two_pow (n := (ctr >>> 16) &&& 0xf)
  omega

theorem aligned_eq (ctr start : Nat) : start - (start &&& (lineLen ctr - 1)) = lineLen ctr * (start / lineLen ctr) := by
  rw [lineLen_eq, Nat.and_two_pow_sub_one_eq_mod]
  have := Nat.div_add_mod start (2 ^ (2 + ((ctr >>> 16) &&& 0xf)))
  omega

/-- The lines the loop has an instruction for, from an address on. -/
def Touched (len step stop addr l : Nat) : Prop :=
  l = addr / len ∨ ∃ j, addr + j * step < stop ∧ (addr + j * step) / len = l

theorem after_after (t : Flush) (l : Line) : t.after (t.after l) = t.after l := by cases t <;> cases l <;> rfl

theorem writes_after (t : Flush) (l : Line) : t.writes (t.after l) = false := by cases t <;> cases l <;> rfl

/-- Some lines were flushed, the others are as they were. -/
structure Flushed (t : Flush) (len : Nat) (T : Nat → Prop) (s s' : Sys) : Prop where
  line : ∀ l, T l → s'.line l = t.after (s.line l)
  keep : ∀ l, ¬ T l → s'.line l = s.line l
  wrote : ∀ a, T (a / len) → s'.ram a = if t.writes (s.line (a / len)) then s.copy a else s.ram a
  left : ∀ a, ¬ T (a / len) → s'.ram a = s.ram a
  copy : s'.copy = s.copy

theorem Flushed.one (t : Flush) (len a : Nat) (s : Sys) :
    Flushed t len (fun l => l = a / len) s (t.instruction len a s) := by
  refine ⟨?_, ?_, ?_, ?_, rfl⟩
  · intro l h
    simp [Flush.instruction, h]
  · intro l h
    simp only [Flush.instruction, if_neg h]
  · intro b h
    simp only [Flush.instruction, h, true_and]
  · intro b h
    simp only [Flush.instruction, h, false_and, if_false]

theorem Flushed.trans {t : Flush} {len : Nat} {T U : Nat → Prop} {s s' s'' : Sys} (h : Flushed t len T s s')
    (h' : Flushed t len U s' s'') : Flushed t len (fun l => T l ∨ U l) s s'' := by
  refine ⟨?_, ?_, ?_, ?_, h'.copy.trans h.copy⟩
  · intro l hl
    by_cases hT : T l
    · by_cases hU : U l
      · rw [h'.line l hU, h.line l hT, after_after]
      · rw [h'.keep l hU, h.line l hT]
    · rw [h'.line l (hl.resolve_left hT), h.keep l hT]
  · intro l hl
    rw [h'.keep l (fun c => hl (.inr c)), h.keep l (fun c => hl (.inl c))]
  · intro a ha
    by_cases hT : T (a / len)
    · by_cases hU : U (a / len)
      · rw [h'.wrote a hU, h.line _ hT, writes_after, h.wrote a hT]
        simp
      · rw [h'.left a hU, h.wrote a hT]
    · rw [h'.wrote a (ha.resolve_left hT), h.keep _ hT, h.left a hT, h.copy]
  · intro a ha
    rw [h'.left a (fun c => ha (.inr c)), h.left a (fun c => ha (.inl c))]

theorem Flushed.congr {t : Flush} {len : Nat} {T U : Nat → Prop} {s s' : Sys} (h : Flushed t len T s s')
    (hTU : ∀ l, T l ↔ U l) : Flushed t len U s s' := by
  have : T = U := funext fun l => propext (hTU l)
  exact this ▸ h

theorem touched_next {len step stop addr : Nat} (hs : step ≠ 0) (h : ¬ stop ≤ addr + step) (l : Nat) :
    (l = addr / len ∨ Touched len step stop (addr + step) l) ↔ Touched len step stop addr l := by
  unfold Touched
  constructor
  · rintro (h1 | h1 | ⟨j, hj, hl⟩)
    · exact .inl h1
    · exact .inr ⟨1, by omega, by rw [h1, Nat.one_mul]⟩
    · refine .inr ⟨j + 1, ?_, ?_⟩
      · rw [Nat.add_mul]; omega
      · rw [← hl, Nat.add_mul]; congr 1; omega
  · rintro (h1 | ⟨j, hj, hl⟩)
    · exact .inl h1
    · cases j with
      | zero => left; rw [← hl]; simp
      | succ j =>
        right; right
        rw [Nat.add_mul] at hj hl
        exact ⟨j, by omega, by rw [← hl]; congr 1; omega⟩

theorem loop_done (dbg : Bool) (t : Flush) (len step stop : Nat) (hs : step ≠ 0) (hb : stop + step ≤ 2 ^ 64) :
    ∀ (addr : Nat), addr < stop ∨ addr + step < 2 ^ 64 → ∀ s, ∃ s',
      loop dbg t len step stop addr s = .done s' ∧ Flushed t len (Touched len step stop addr) s s' := by
  intro addr
  induction hn : stop - addr using Nat.strongRecOn generalizing addr with
  | _ n ih =>
    intro ha s
    have h1 := Flushed.one t len addr s
    rw [loop]
    simp only [hs, if_false]
    rw [if_neg (show ¬ 2 ^ 64 ≤ addr + step by omega)]
    by_cases hstop : stop ≤ addr + step
    · rw [if_pos hstop]
      refine ⟨_, rfl, h1.congr fun l => ⟨.inl, ?_⟩⟩
      rintro (h | ⟨j, hj, hl⟩)
      · exact h
      · cases j with
        | zero => rw [← hl]; simp
        | succ j => rw [Nat.add_mul] at hj; omega
    · rw [if_neg hstop]
      obtain ⟨s', hs', hf⟩ := ih (stop - (addr + step)) (by omega) (addr + step) rfl (.inl (by omega))
        (t.instruction len addr s)
      exact ⟨s', hs', (h1.trans hf).congr (touched_next hs hstop)⟩

end Verif.Cache
