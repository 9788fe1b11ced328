import Verif.Status.Model
namespace Verif.Status

/-- A status that is turned into a result and back is the same status, whatever it is. -/
theorem status_kept (s : Nat) : (match statusToResult s with | .ok _ => 0 | .error e => toStatus e) = s := by
  by_cases h0 : s = 0
  · subst h0; rfl
  unfold statusToResult
  rw [if_neg h0]
  by_cases h1 : s = ERROR + 1
  · rw [if_pos h1]; exact h1.symm
  rw [if_neg h1]
  by_cases h2 : s = ERROR + 2
  · rw [if_pos h2]; exact h2.symm
  rw [if_neg h2]
  by_cases h3 : s = ERROR + 3
  · rw [if_pos h3]; exact h3.symm
  rw [if_neg h3]
  by_cases h4 : s = ERROR + 4
  · rw [if_pos h4]; exact h4.symm
  rw [if_neg h4]
  by_cases h5 : s = ERROR + 5
  · rw [if_pos h5]; exact h5.symm
  rw [if_neg h5]
  by_cases h6 : s = ERROR + 6
  · rw [if_pos h6]; exact h6.symm
  rw [if_neg h6]
  by_cases h7 : s = ERROR + 7
  · rw [if_pos h7]; exact h7.symm
  rw [if_neg h7]
  by_cases h8 : s = ERROR + 8
  · rw [if_pos h8]; exact h8.symm
  rw [if_neg h8]
  by_cases h9 : s = ERROR + 9
  · rw [if_pos h9]; exact h9.symm
  rw [if_neg h9]
  by_cases h10 : s = ERROR + 10
  · rw [if_pos h10]; exact h10.symm
  rw [if_neg h10]
  by_cases h11 : s = ERROR + 11
  · rw [if_pos h11]; exact h11.symm
  rw [if_neg h11]
  by_cases h12 : s = ERROR + 12
  · rw [if_pos h12]; exact h12.symm
  rw [if_neg h12]
  by_cases h13 : s = ERROR + 13
  · rw [if_pos h13]; exact h13.symm
  rw [if_neg h13]
  by_cases h14 : s = ERROR + 14
  · rw [if_pos h14]; exact h14.symm
  rw [if_neg h14]
  by_cases h15 : s = ERROR + 15
  · rw [if_pos h15]; exact h15.symm
  rw [if_neg h15]
  by_cases h16 : s = ERROR + 16
  · rw [if_pos h16]; exact h16.symm
  rw [if_neg h16]
  by_cases h17 : s = ERROR + 17
  · rw [if_pos h17]; exact h17.symm
  rw [if_neg h17]
  by_cases h18 : s = ERROR + 18
  · rw [if_pos h18]; exact h18.symm
  rw [if_neg h18]
  by_cases h19 : s = ERROR + 19
  · rw [if_pos h19]; exact h19.symm
  rw [if_neg h19]
  by_cases h20 : s = ERROR + 20
  · rw [if_pos h20]; exact h20.symm
  rw [if_neg h20]
  by_cases h21 : s = ERROR + 21
  · rw [if_pos h21]; exact h21.symm
  rw [if_neg h21]
  by_cases h22 : s = ERROR + 22
  · rw [if_pos h22]; exact h22.symm
  rw [if_neg h22]
  by_cases h23 : s = ERROR + 23
  · rw [if_pos h23]; exact h23.symm
  rw [if_neg h23]
  by_cases h24 : s = ERROR + 24
  · rw [if_pos h24]; exact h24.symm
  rw [if_neg h24]
  by_cases h25 : s = ERROR + 25
  · rw [if_pos h25]; exact h25.symm
  rw [if_neg h25]
  by_cases h26 : s = ERROR + 26
  · rw [if_pos h26]; exact h26.symm
  rw [if_neg h26]
  by_cases h27 : s = ERROR + 27
  · rw [if_pos h27]; exact h27.symm
  rw [if_neg h27]
  by_cases h28 : s = ERROR + 28
  · rw [if_pos h28]; exact h28.symm
  rw [if_neg h28]
  by_cases h31 : s = ERROR + 31
  · rw [if_pos h31]; exact h31.symm
  rw [if_neg h31]
  by_cases h32 : s = ERROR + 32
  · rw [if_pos h32]; exact h32.symm
  rw [if_neg h32]
  by_cases h33 : s = ERROR + 33
  · rw [if_pos h33]; exact h33.symm
  rw [if_neg h33]
  by_cases h34 : s = ERROR + 34
  · rw [if_pos h34]; exact h34.symm
  rw [if_neg h34]
  by_cases h35 : s = ERROR + 35
  · rw [if_pos h35]; exact h35.symm
  rw [if_neg h35]
  rfl

/-- Only success is a success. -/
theorem success_iff (s : Nat) : statusToResult s = .ok () ↔ s = 0 := by
  constructor
  · intro h
    have := status_kept s
    rw [h] at this
    exact this.symm
  · rintro rfl; rfl

/-- An error that was made from a status is known as such: `Unknown` is no second name of another error, and not of success. -/
def Proper (e : Error) : Prop := ∀ s, e = .Unknown s → statusToResult s = .error (.Unknown s)

/-- An error that is turned into a status and back is the same error. -/
theorem error_kept (e : Error) (h : Proper e) : statusToResult (toStatus e) = .error e := by
  cases e
  case Unknown s => exact h s rfl
  all_goals rfl

/-- All errors that come from a status are proper. -/
theorem proper_of_status (s : Nat) (e : Error) (h : statusToResult s = .error e) : Proper e := by
  rintro u rfl
  have := status_kept s
  rw [h] at this
  simp only [toStatus] at this
  rw [this] at h ⊢; exact h

/-- Every named error has the error bit, so that callers written in C see it as one. -/
theorem named_are_errors (e : Error) (h : ∀ s, e ≠ .Unknown s) : ERROR < toStatus e ∧ toStatus e < 2 * ERROR := by
  cases e
  case Unknown s => exact absurd rfl (h s)
  all_goals decide

/-- Different errors, different statuses. -/
theorem distinct (a b : Error) (ha : Proper a) (hb : Proper b) (h : toStatus a = toStatus b) : a = b := by
  have h1 := error_kept a ha
  rw [h, error_kept b hb] at h1
  cases h1; rfl

/-- Finding: turning a success into an error panics. -/
theorem of_success_panics (s : Nat) : ofStatus s = .panic ↔ s = 0 := by
  unfold ofStatus
  constructor
  · intro h
    cases hs : statusToResult s with
    | ok u => exact (success_iff s).1 hs
    | error e => rw [hs] at h; cases h
  · rintro rfl; rfl

/-- Finding: an UEFI warning (no error bit, not 0) is an error here. -/
theorem warning_is_error (s : Nat) (h0 : s ≠ 0) (h : s < ERROR) : statusToResult s = .error (.Unknown s) := by
  cases hs : statusToResult s with
  | ok u => exact absurd ((success_iff s).1 hs) h0
  | error e =>
    have hk := status_kept s
    rw [hs] at hk
    simp only at hk
    by_cases hu : ∃ u, e = .Unknown u
    · obtain ⟨u, rfl⟩ := hu
      simp only [toStatus] at hk
      rw [hk]
    · have := named_are_errors e (fun u hu' => hu ⟨u, hu'⟩)
      omega

/-- Finding: an `Unknown` that names a success is turned into a success. -/
theorem unknown_success : toStatus (.Unknown 0) = 0 ∧ ¬ Proper (.Unknown 0) := by
  refine ⟨rfl, fun h => ?_⟩
  have := h 0 rfl
  cases this

example : statusToResult (ERROR + 29) = .error (.Unknown (ERROR + 29)) ∧ statusToResult (ERROR + 31) = .error .EndOfFile := ⟨rfl, rfl⟩
example : Proper (.Unknown 5) := by rintro s h; cases h; rfl
example : (5 : Nat) ≠ 0 ∧ 5 < ERROR := by decide

end Verif.Status
