import Verif.Component.StorageModel
/-! An index map together with a sparse vector is a map from types to values. -/
namespace Verif.Component
variable {α : Type}

theorem sget_nil (i : Nat) : sget ([] : List (Option α)) i = none := rfl

theorem sget_of_le {l : List (Option α)} {i : Nat} (h : l.length ≤ i) : sget l i = none := by
  simp [sget, List.getElem?_eq_none h]

theorem sget_eq_getD (l : List (Option α)) (i : Nat) : sget l i = l[i]?.getD none := by
  unfold sget; cases l[i]? <;> rfl

theorem scontains_eq (l : List (Option α)) (i : Nat) : scontains l i = (sget l i).isSome := by
  unfold scontains sget; cases l[i]? <;> rfl

theorem length_sinsert (l : List (Option α)) (i : Nat) (v : α) :
    (sinsert l i v).length = max l.length (i + 1) := by
  unfold sinsert; by_cases h : i ≥ l.length <;> simp [h] <;> omega

theorem sget_sinsert (l : List (Option α)) (i j : Nat) (v : α) :
    sget (sinsert l i v) j = if j = i then some v else sget l j := by
  simp only [sget_eq_getD, sinsert]
  by_cases h : i ≥ l.length
  · rw [if_pos h, List.getElem?_set]
    by_cases hj : j = i
    · subst hj
      have : j < (l ++ List.replicate (j + 1 - l.length) (none : Option α)).length := by simp; omega
      rw [if_pos rfl, if_pos this, if_pos rfl]; rfl
    · rw [if_neg (fun e => hj e.symm), if_neg hj, List.getElem?_append]
      by_cases hl : j < l.length
      · rw [if_pos hl]
      · rw [if_neg hl, List.getElem?_replicate, List.getElem?_eq_none (by omega)]
        split <;> rfl
  · rw [if_neg h, List.getElem?_set]
    by_cases hj : j = i
    · subst hj; simp [show j < l.length by omega]
    · rw [if_neg (fun e => hj e.symm), if_neg hj]

theorem length_smodify (l : List (Option α)) (i : Nat) (f : α → α) : (smodify l i f).length = l.length := by
  unfold smodify; cases sget l i <;> simp

theorem sget_smodify (l : List (Option α)) (i j : Nat) (f : α → α) :
    sget (smodify l i f) j = if j = i then (sget l j).map f else sget l j := by
  unfold smodify
  cases h : sget l i with
  | none =>
    by_cases hj : j = i
    · subst hj; simp [h]
    · simp [hj]
  | some v =>
    have hi : i < l.length := by
      by_cases hl : i < l.length
      · exact hl
      · rw [sget_of_le (by omega)] at h; cases h
    by_cases hj : j = i
    · subst hj
      rw [if_pos rfl, h]
      simp [sget_eq_getD, hi]
    · rw [if_neg hj]
      simp only [sget_eq_getD]
      rw [List.getElem?_set, if_neg (fun e => hj e.symm)]

/-- The value stored for the type `t`. -/
def look (idx : List (Nat × Nat)) (cells : List (Option α)) (t : Nat) : Option α :=
  match mget idx t with
  | some i => sget cells i
  | none => none

/-- Indices are below the number of registered types, belong to one type each, and there are no cells
beyond them. -/
structure Tab (idx : List (Nat × Nat)) (cells : List (Option α)) : Prop where
  bound : ∀ t i, mget idx t = some i → i < idx.length
  inj : ∀ t u i, mget idx t = some i → mget idx u = some i → t = u
  small : cells.length ≤ idx.length

theorem Tab.nil : Tab [] ([] : List (Option α)) := ⟨nofun, nofun, Nat.le_refl _⟩

theorem entry_get (idx : List (Nat × Nat)) (t : Nat) : mget (entry idx t).2 t = some (entry idx t).1 := by
  unfold entry
  cases h : mget idx t with
  | some i => exact h
  | none => simp [mget]

theorem entry_other (idx : List (Nat × Nat)) (t u : Nat) (h : u ≠ t) :
    mget (entry idx t).2 u = mget idx u := by
  unfold entry
  cases mget idx t with
  | some i => rfl
  | none => simp [mget, Ne.symm h]

theorem entry_keep (idx : List (Nat × Nat)) (t u i : Nat) (h : mget idx u = some i) :
    mget (entry idx t).2 u = some i := by
  by_cases hu : u = t
  · subst hu; unfold entry; rw [h]; exact h
  · rw [entry_other _ _ _ hu, h]

theorem Tab.entry {idx : List (Nat × Nat)} {cells : List (Option α)} (h : Tab idx cells) (t : Nat) :
    Tab (Component.entry idx t).2 cells := by
  unfold Component.entry
  cases ht : mget idx t with
  | some i => exact h
  | none =>
    refine ⟨?_, ?_, ?_⟩
    · intro u i hu
      simp only [mget] at hu
      split at hu
      · injection hu with hu; subst hu; simp
      · have := h.bound u i hu; simp; omega
    · intro u v i hu hv
      simp only [mget] at hu hv
      split at hu
      · split at hv
        · omega
        · injection hu with hu; subst hu
          have := h.bound v _ hv; omega
      · split at hv
        · injection hv with hv; subst hv
          have := h.bound u _ hu; omega
        · exact h.inj u v i hu hv
    · simp; have := h.small; omega

theorem Tab.look_entry {idx : List (Nat × Nat)} {cells : List (Option α)} (h : Tab idx cells) (t u : Nat) :
    look (Component.entry idx t).2 cells u = look idx cells u := by
  unfold look
  by_cases hu : u = t
  · subst hu
    rw [entry_get]
    unfold Component.entry
    cases ht : mget idx u with
    | some i => rfl
    | none => exact sget_of_le h.small
  · rw [entry_other _ _ _ hu]

theorem Tab.insert {idx : List (Nat × Nat)} {cells : List (Option α)} (h : Tab idx cells) {t i : Nat}
    (ht : mget idx t = some i) (v : α) : Tab idx (sinsert cells i v) :=
  ⟨h.bound, h.inj, by rw [length_sinsert]; have := h.bound t i ht; have := h.small; omega⟩

theorem Tab.look_insert {idx : List (Nat × Nat)} {cells : List (Option α)} (h : Tab idx cells) {t i : Nat}
    (ht : mget idx t = some i) (v : α) (u : Nat) :
    look idx (sinsert cells i v) u = if u = t then some v else look idx cells u := by
  unfold look
  by_cases hu : u = t
  · subst hu; rw [ht]; simp [sget_sinsert]
  · rw [if_neg hu]
    cases hm : mget idx u with
    | none => rfl
    | some j =>
      simp only [sget_sinsert]
      rw [if_neg]
      rintro rfl
      exact hu (h.inj _ _ _ hm ht)

theorem Tab.modify {idx : List (Nat × Nat)} {cells : List (Option α)} (h : Tab idx cells) (i : Nat)
    (f : α → α) : Tab idx (smodify cells i f) :=
  ⟨h.bound, h.inj, by rw [length_smodify]; exact h.small⟩

theorem Tab.look_modify {idx : List (Nat × Nat)} {cells : List (Option α)} (h : Tab idx cells) {t i : Nat}
    (ht : mget idx t = some i) (f : α → α) (u : Nat) :
    look idx (smodify cells i f) u = if u = t then (look idx cells t).map f else look idx cells u := by
  unfold look
  by_cases hu : u = t
  · subst hu; rw [ht]; simp [sget_smodify]
  · rw [if_neg hu]
    cases hm : mget idx u with
    | none => rfl
    | some j =>
      simp only [sget_smodify]
      rw [if_neg]
      rintro rfl
      exact hu (h.inj _ _ _ hm ht)

theorem sget_map {β : Type} (l : List (Option α)) (f : α → β) (i : Nat) :
    sget (l.map fun o => o.map f) i = (sget l i).map f := by
  simp only [sget_eq_getD, List.getElem?_map]
  cases l[i]? <;> rfl

end Verif.Component
