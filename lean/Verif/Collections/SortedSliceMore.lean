import Verif.Collections.SortedSliceProps
/-! C25, continued: exactly when a bulk insertion succeeds, and the search by key. -/
namespace Verif.Collections.SortedSlice
variable {T : Type}

/-- Searching by key: the element with the key if there is one; otherwise the next larger element is
reported as the closest one, and if there is none the call panics. -/
theorem searchWithKey_spec (key : T → Nat) (s : State T) (k : Nat) (h : Inv key s) :
    (∀ e ∈ s.items, key e = k → searchWithKey key s k = .ok (.ok e)) ∧
    ((¬ ∃ e ∈ s.items, key e = k) → ∀ e ∈ s.items, k < key e → (∀ e' ∈ s.items, k < key e' → key e ≤ key e') →
      searchWithKey key s k = .ok (.error e)) ∧
    ((∀ e ∈ s.items, key e < k) → searchWithKey key s k = .panic) := by
  obtain ⟨pre, post, e, hpre, hc⟩ := searchKey_split key k s.items h.sorted
  have hsorted := h.sorted
  rw [e] at hsorted
  have hp := (List.pairwise_append.1 hsorted).2.1
  unfold searchWithKey
  rcases hc with ⟨he, hpost⟩ | ⟨y, post', hy, hk, he, hpost⟩
  · rw [he]
    refine ⟨fun x hx hk => ?_, fun _ x hx hkx hmin => ?_, fun hall => ?_⟩
    · rw [e] at hx
      rcases List.mem_append.1 hx with hx | hx
      · have := hpre x hx; omega
      · have := hpost x hx; omega
    · have hx' : x ∈ post := by
        rw [e] at hx
        rcases List.mem_append.1 hx with hx | hx
        · have := hpre x hx; omega
        · exact hx
      cases post with
      | nil => simp at hx'
      | cons z post =>
        have hget : s.items[pre.length]? = some z := by
          rw [e, List.getElem?_append_right (Nat.le_refl _)]; simp
        have hz : z = x := by
          rcases List.mem_cons.1 hx' with h1 | h1
          · exact h1.symm
          · have h2 := (List.pairwise_cons.1 hp).1 x h1
            have h3 := hmin z (by rw [e]; simp) (hpost z (by simp))
            omega
        simp only [hget, hz]
    · have hnil : post = [] := by
        cases post with
        | nil => rfl
        | cons z post =>
          have h1 := hall z (by rw [e]; simp)
          have h2 := hpost z (by simp)
          omega
      have hget : s.items[pre.length]? = none := by rw [e, hnil]; simp
      simp only [hget]
  · subst hy
    have hget : s.items[pre.length]? = some y := by
      rw [e, List.getElem?_append_right (Nat.le_refl _)]; simp
    rw [he]
    simp only [hget]
    refine ⟨fun x hx hkx => ?_, fun hno => ?_, fun hall => ?_⟩
    · have : x = y := by
        rw [e] at hx
        rcases List.mem_append.1 hx with hx | hx
        · have := hpre x hx; omega
        · rcases List.mem_cons.1 hx with h1 | h1
          · exact h1
          · have := hpost x h1; omega
      rw [this]
    · exact absurd ⟨y, by rw [e]; simp, hk⟩ hno
    · have := hall y (by rw [e]; simp); omega

theorem isSorted_of_strict (key : T → Nat) : ∀ l : List T, StrictSorted key l →
    isSortedByKey key l = true ∧ hasAdjacentDup key l = false
  | [], _ => ⟨rfl, rfl⟩
  | [_], _ => ⟨rfl, rfl⟩
  | a :: b :: l, h => by
    have h1 := (List.pairwise_cons.1 h).1 b (by simp)
    obtain ⟨h2, h3⟩ := isSorted_of_strict key (b :: l) (List.pairwise_cons.1 h).2
    simp only [isSortedByKey, hasAdjacentDup, h2, h3, Bool.and_true, Bool.or_false, decide_eq_true_eq,
      decide_eq_false_iff_not]
    omega

/-- A bulk insertion succeeds if there is room, the new elements are strictly ascending and no present key
lies between the first and the last new one. -/
theorem addContiguous_succeeds (key : T → Nat) (s : State T) (x : T) (rest : List T) (h : Inv key s)
    (hroom : s.items.length + (x :: rest).length ≤ s.capacity) (hxs : StrictSorted key (x :: rest))
    (hfit : ∀ e ∈ s.items, key e < key x ∨ ∀ y ∈ x :: rest, key y < key e) :
    ∃ idx s', addContiguous key s (x :: rest) = .ok (idx, s') := by
  have hlen := items_length h
  obtain ⟨h1, h2⟩ := isSorted_of_strict key _ hxs
  unfold addContiguous
  simp only [h1, h2]
  rw [if_neg (by omega)]
  simp only [Bool.not_true, Bool.false_eq_true, if_false]
  cases hs : search key s x with
  | ok i =>
    obtain ⟨pre, e, post, hi, _, hk, _⟩ := search_ok h hs
    rcases hfit e (by rw [hi]; simp) with h3 | h3
    · omega
    · have := h3 x (by simp); omega
  | error i =>
    simp only
    obtain ⟨pre, post, hi, rfl, h3, h4⟩ := search_error h hs
    obtain ⟨a, a', hc, hw, _, _⟩ := shift_write (xs := x :: rest) hi (by
      simp [State.capacity] at hroom ⊢; omega)
    have hfin : (copyWithin s.slice pre.length s.count (pre.length + (x :: rest).length) >>= fun a =>
        writeAt a pre.length (x :: rest) >>= fun a =>
        Outcome.ok (pre.length, ({ slice := a, count := s.count + (x :: rest).length } : State T))) =
        .ok (pre.length, { slice := a', count := s.count + (x :: rest).length }) := by
      rw [hc]; simp only [Outcome.ok_bind]; rw [hw]; rfl
    rw [hfin]
    cases hg : s.items[pre.length]? with
    | none => exact ⟨_, _, rfl⟩
    | some next =>
      have hnext : next ∈ s.items := List.mem_of_getElem? hg
      have hpn : next ∈ post := by
        rw [hi, List.getElem?_append_right (Nat.le_refl _)] at hg
        exact List.mem_of_getElem? hg
      have h5 := h4 next hpn
      have h6 : key ((x :: rest).getLast (by simp)) < key next := by
        rcases hfit next hnext with h6 | h6
        · omega
        · exact h6 _ (List.getLast_mem _)
      simp only
      rw [if_neg (by omega), if_neg (by omega)]
      exact ⟨_, _, rfl⟩

/-- Without room nothing is inserted and the error says so. -/
theorem addContiguous_full (key : T → Nat) (s : State T) (x : T) (rest : List T) (h : Inv key s)
    (hroom : s.capacity < s.items.length + (x :: rest).length) :
    addContiguous key s (x :: rest) = .err .outOfSpace := by
  have hlen := items_length h
  unfold addContiguous
  simp only
  rw [if_pos (by omega)]

/-- Two elements into the gap of a slice of capacity four. -/
example : addContiguous id ⟨[1, 9, 0, 0], 2⟩ [4, 6] = .ok (1, ⟨[1, 4, 6, 9], 4⟩) := by decide
example : searchWithKey id ⟨[1, 4, 9, 0], 3⟩ 5 = .ok (.error 9) := rfl

end Verif.Collections.SortedSlice
