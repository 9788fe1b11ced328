import Verif.Collections.SortedSliceModel
namespace Verif.Collections.SortedSlice
variable {T : Type}

/-- Strictly increasing keys. -/
def StrictSorted (key : T → Nat) (l : List T) : Prop := l.Pairwise (fun a b => key a < key b)

/-- Representation invariant. -/
structure Inv (key : T → Nat) (s : State T) : Prop where
  le : s.count ≤ s.slice.length
  sorted : StrictSorted key s.items

theorem items_length {key : T → Nat} {s : State T} (h : Inv key s) : s.items.length = s.count := by
  simp [State.items, h.le]

/-- Split of a strictly sorted list at the insertion point. -/
theorem searchKey_split (key : T → Nat) (k : Nat) (l : List T) (h : StrictSorted key l) :
    ∃ pre post, l = pre ++ post ∧ (∀ e ∈ pre, key e < k) ∧
      ((searchKey key k l = .error pre.length ∧ ∀ e ∈ post, k < key e) ∨
       (∃ e post', post = e :: post' ∧ key e = k ∧ searchKey key k l = .ok pre.length ∧
          ∀ e ∈ post', k < key e)) := by
  refine ⟨l.takeWhile (fun e => key e < k), l.dropWhile (fun e => key e < k),
    List.takeWhile_append_dropWhile.symm, ?_, ?_⟩
  · intro e he
    have := List.all_takeWhile (p := fun e => decide (key e < k)) (l := l)
    rw [List.all_eq_true] at this
    simpa using this e he
  · have hget : l[(l.takeWhile (fun e => decide (key e < k))).length]? =
        (l.dropWhile (fun e => decide (key e < k))).head? := by
      conv => lhs; lhs; rw [← List.takeWhile_append_dropWhile (p := fun e => decide (key e < k)) (l := l)]
      rw [List.getElem?_append_right (Nat.le_refl _), Nat.sub_self, List.head?_eq_getElem?]
    have hs2 : StrictSorted key (l.dropWhile (fun e => decide (key e < k))) :=
      List.Pairwise.sublist (List.dropWhile_sublist _) h
    unfold searchKey
    simp only [hget]
    cases hd : l.dropWhile (fun e => decide (key e < k)) with
    | nil => left; simp
    | cons e post' =>
      have hge : ¬ key e < k := by
        have := List.head?_dropWhile_not (fun e => decide (key e < k)) l
        rw [hd] at this
        simpa using this
      rw [hd] at hs2
      have hlt : ∀ x ∈ post', key e < key x := (List.pairwise_cons.1 hs2).1
      by_cases hk : key e = k
      · right
        refine ⟨e, post', rfl, hk, by simp [hk], fun x hx => by have := hlt x hx; omega⟩
      · left
        refine ⟨by simp [hk], ?_⟩
        intro x hx
        rcases List.mem_cons.1 hx with rfl | hx
        · omega
        · have := hlt x hx; omega

theorem search_error {key : T → Nat} {s : State T} {x : T} {idx : Nat} (h : Inv key s)
    (hs : search key s x = .error idx) :
    ∃ pre post, s.items = pre ++ post ∧ pre.length = idx ∧ (∀ e ∈ pre, key e < key x) ∧
      (∀ e ∈ post, key x < key e) := by
  obtain ⟨pre, post, e, hpre, hc⟩ := searchKey_split key (key x) s.items h.sorted
  rcases hc with ⟨he, hp⟩ | ⟨_, _, _, _, he, _⟩
  · unfold search at hs; rw [he] at hs
    exact ⟨pre, post, e, by injection hs, hpre, hp⟩
  · unfold search at hs; rw [he] at hs; cases hs

theorem search_ok {key : T → Nat} {s : State T} {x : T} {idx : Nat} (h : Inv key s)
    (hs : search key s x = .ok idx) :
    ∃ pre e post, s.items = pre ++ e :: post ∧ pre.length = idx ∧ key e = key x ∧
      (∀ e ∈ pre, key e < key x) ∧ (∀ e ∈ post, key x < key e) := by
  obtain ⟨pre, post, e, hpre, hc⟩ := searchKey_split key (key x) s.items h.sorted
  rcases hc with ⟨he, hp⟩ | ⟨y, post', hp, hy, he, hpost⟩
  · unfold search at hs; rw [he] at hs; cases hs
  · unfold search at hs; rw [he] at hs
    exact ⟨pre, y, post', by rw [e, hp], by injection hs, hy, hpre, hpost⟩

theorem slice_split {s : State T} {pre post : List T} (e : s.items = pre ++ post) (hle : s.count ≤ s.slice.length) :
    s.slice = pre ++ (post ++ s.slice.drop s.count) ∧ pre.length + post.length = s.count := by
  constructor
  · rw [← List.append_assoc, ← e, State.items, List.take_append_drop]
  · have := congrArg List.length e
    simp [State.items] at this
    omega

/-- Shifting the tail and writing `xs` into the gap inserts `xs`. -/
theorem shift_write {s : State T} {pre post xs : List T} (e : s.items = pre ++ post)
    (hroom : s.count + xs.length ≤ s.slice.length) :
    ∃ a a', copyWithin s.slice pre.length s.count (pre.length + xs.length) = .ok a ∧
      writeAt a pre.length xs = .ok a' ∧ a'.take (s.count + xs.length) = pre ++ (xs ++ post) ∧
      a'.length = s.slice.length := by
  obtain ⟨hs, hl⟩ := slice_split e (by omega)
  have h1 : pre.length ≤ s.count ∧ s.count ≤ s.slice.length ∧
      pre.length + xs.length + (s.count - pre.length) ≤ s.slice.length := by omega
  have hcnt : s.count - pre.length = post.length := by omega
  have hdrop : (s.slice.drop pre.length).take (s.count - pre.length) = post := by
    rw [hcnt, hs]; simp
  have hshift : copyWithin s.slice pre.length s.count (pre.length + xs.length) =
      .ok (s.slice.take (pre.length + xs.length) ++ (post ++
        s.slice.drop (pre.length + xs.length + post.length))) := by
    rw [copyWithin, if_pos h1, hdrop, hcnt]
  refine ⟨_, pre ++ (xs ++ (post ++ s.slice.drop (pre.length + xs.length + post.length))), hshift, ?_, ?_, ?_⟩
  · have htake : (s.slice.take (pre.length + xs.length)).length = pre.length + xs.length := by
      rw [List.length_take]; omega
    unfold writeAt
    rw [if_pos (by simp; omega)]
    congr 1
    have e1 : (s.slice.take (pre.length + xs.length) ++ (post ++ s.slice.drop (pre.length + xs.length + post.length))).take pre.length = pre := by
      rw [List.take_append_of_le_length (by omega), List.take_take]
      rw [Nat.min_eq_left (by omega), hs]; simp
    have e2 : (s.slice.take (pre.length + xs.length) ++ (post ++ s.slice.drop (pre.length + xs.length + post.length))).drop (pre.length + xs.length) =
        post ++ s.slice.drop (pre.length + xs.length + post.length) := by
      rw [List.drop_append_of_le_length (by omega)]
      simp
    rw [e1, e2]
  · have : s.count + xs.length = (pre ++ (xs ++ post)).length := by simp; omega
    have e3 : pre ++ (xs ++ (post ++ s.slice.drop (pre.length + xs.length + post.length))) =
        (pre ++ (xs ++ post)) ++ s.slice.drop (pre.length + xs.length + post.length) := by simp
    rw [this, e3, List.take_left' rfl]
  · simp only [List.length_append, List.length_drop]; omega

theorem setAt_eq_writeAt (a : List T) (i : Nat) (x : T) (h : i < a.length) :
    setAt a i x = writeAt a i [x] := by
  simp only [setAt, h, if_true, writeAt, List.length_singleton, Nat.succ_le_of_lt h]
  rw [List.set_eq_take_append_cons_drop, if_pos h]
  rfl

theorem strictSorted_insert {key : T → Nat} {pre xs post : List T} (h : StrictSorted key (pre ++ post))
    (hx : StrictSorted key xs) (h1 : ∀ a ∈ pre, ∀ b ∈ xs, key a < key b)
    (h2 : ∀ a ∈ xs, ∀ b ∈ post, key a < key b) : StrictSorted key (pre ++ (xs ++ post)) := by
  unfold StrictSorted at *
  rw [List.pairwise_append] at h ⊢
  refine ⟨h.1, List.pairwise_append.2 ⟨hx, h.2.1, h2⟩, ?_⟩
  intro a ha b hb
  rcases List.mem_append.1 hb with hb | hb
  · exact h1 a ha b hb
  · exact h.2.2 a ha b hb

end Verif.Collections.SortedSlice
