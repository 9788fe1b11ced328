import Verif.Collections.SortedSliceLemmas
/-!
C25: `SortedSlice` stays sorted and duplicate free and behaves as a map from keys to elements.
-/
namespace Verif.Collections.SortedSlice
variable {T : Type}

/-- C25 (add). On a well-formed slice: full → `OutOfSpace`; key present → `AlreadyExists`; otherwise
the element is inserted at the returned index, everything else is kept, and the result is
well-formed with the same capacity. Errors leave the slice unchanged (no new state is produced). -/
theorem add_spec (key : T → Nat) (s : State T) (x : T) (h : Inv key s) :
    (s.items.length = s.capacity → add key s x = .err .outOfSpace) ∧
    (s.items.length < s.capacity → (∃ e ∈ s.items, key e = key x) → add key s x = .err .alreadyExists) ∧
    (s.items.length < s.capacity → (¬ ∃ e ∈ s.items, key e = key x) →
      ∃ idx s', add key s x = .ok (idx, s') ∧ Inv key s' ∧ s'.capacity = s.capacity ∧
        s'.items = s.items.take idx ++ x :: s.items.drop idx ∧ idx ≤ s.items.length) := by
  have hlen := items_length h
  refine ⟨fun hf => ?_, fun hr ⟨e, he, hk⟩ => ?_, fun hr hno => ?_⟩
  · unfold add; rw [if_pos (by rw [← hlen, hf])]
  · unfold add
    rw [if_neg (by simp [State.capacity] at *; omega)]
    cases hs : search key s x with
    | ok i => rfl
    | error i =>
      exfalso
      obtain ⟨pre, post, hi, _, h1, h2⟩ := search_error h hs
      rw [hi] at he
      rcases List.mem_append.1 he with he | he
      · have := h1 e he; omega
      · have := h2 e he; omega
  · have hcap : s.count < s.slice.length := by simp [State.capacity] at hr; omega
    unfold add
    rw [if_neg (by simp [State.capacity]; omega)]
    cases hs : search key s x with
    | ok i =>
      exfalso
      obtain ⟨pre, e, post, hi, _, hk, _⟩ := search_ok h hs
      exact hno ⟨e, by rw [hi]; simp, hk⟩
    | error i =>
      obtain ⟨pre, post, hi, rfl, h1, h2⟩ := search_error h hs
      obtain ⟨a, a', hc, hw, ht, hl⟩ := shift_write (xs := [x]) hi (by simp; omega)
      obtain ⟨_, hpl⟩ := slice_split hi h.le
      have ha : a.length = s.slice.length := by
        unfold copyWithin at hc
        split at hc
        · simp at hc; rw [← hc]; simp; omega
        · cases hc
      simp only [List.length_singleton] at hc ht
      have hset : setAt a pre.length x = .ok a' := by rw [setAt_eq_writeAt _ _ _ (by omega), hw]
      refine ⟨pre.length, { slice := a', count := s.count + 1 }, ?_, ⟨?_, ?_⟩, ?_, ?_, ?_⟩
      · simp [hc, hset]
      · simp; omega
      · show StrictSorted key (List.take (s.count + 1) a')
        rw [ht]
        refine strictSorted_insert (hi ▸ h.sorted) (List.pairwise_singleton _ _) ?_ ?_
        · intro a ha b hb; simp at hb; subst hb; exact h1 a ha
        · intro a ha b hb; simp at ha; subst ha; exact h2 b hb
      · exact hl
      · show List.take (s.count + 1) a' = _
        rw [ht, hi]; simp
      · rw [hi]; simp

/-- C25 (bulk add). Success inserts exactly the given elements as one contiguous run and preserves
well-formedness. -/
theorem addContiguous_ok (key : T → Nat) (s : State T) (xs : List T) (h : Inv key s)
    (idx : Nat) (s' : State T) (hok : addContiguous key s xs = .ok (idx, s')) :
    Inv key s' ∧ s'.capacity = s.capacity ∧ s'.items = s.items.take idx ++ (xs ++ s.items.drop idx) := by
  have hlen := items_length h
  have sorted_of : ∀ l : List T, isSortedByKey key l = true → hasAdjacentDup key l = false → StrictSorted key l := by
    intro l
    induction l with
    | nil => intro _ _; exact List.Pairwise.nil
    | cons a l ih =>
      cases l with
      | nil => intro _ _; exact List.pairwise_singleton _ _
      | cons b l =>
        intro h1 h2
        simp only [isSortedByKey, Bool.and_eq_true, decide_eq_true_eq] at h1
        simp only [hasAdjacentDup, Bool.or_eq_false_iff, decide_eq_false_iff_not] at h2
        have hs := ih h1.2 h2.2
        refine List.pairwise_cons.2 ⟨?_, hs⟩
        intro c hc
        rcases List.mem_cons.1 hc with rfl | hc
        · omega
        · have := (List.pairwise_cons.1 hs).1 c hc; omega
  cases xs with
  | nil =>
    simp only [addContiguous, Outcome.ok.injEq, Prod.mk.injEq] at hok
    obtain ⟨rfl, rfl⟩ := hok
    exact ⟨h, rfl, by simp⟩
  | cons x rest =>
    unfold addContiguous at hok
    simp only at hok
    split at hok
    · cases hok
    · rename_i hroom
      split at hok
      · cases hok
      · rename_i hsorted
        split at hok
        · cases hok
        · rename_i hdup
          have hxs : StrictSorted key (x :: rest) := sorted_of _ (by simpa using hsorted) (by simpa using hdup)
          cases hs : search key s x with
          | ok i => rw [hs] at hok; cases hok
          | error i =>
            rw [hs] at hok
            simp only at hok
            obtain ⟨pre, post, hi, rfl, h1, h2⟩ := search_error h hs
            obtain ⟨_, hpl⟩ := slice_split hi h.le
            obtain ⟨a, a', hc, hw, ht, hl⟩ := shift_write (xs := x :: rest) hi (by
              simp [State.capacity] at hroom; simp; omega)
            have hfin : (copyWithin s.slice pre.length s.count (pre.length + (x :: rest).length) >>= fun a =>
                writeAt a pre.length (x :: rest) >>= fun a =>
                Outcome.ok (pre.length, ({ slice := a, count := s.count + (x :: rest).length } : State T))) =
                .ok (pre.length, { slice := a', count := s.count + (x :: rest).length }) := by
              rw [hc]; simp only [Outcome.ok_bind]; rw [hw]; rfl
            have hhead : ∀ b ∈ x :: rest, key x ≤ key b := by
              intro b hb
              rcases List.mem_cons.1 hb with rfl | hb
              · exact Nat.le_refl _
              · exact Nat.le_of_lt ((List.pairwise_cons.1 hxs).1 b hb)
            have done : ∀ (hlast : ∀ a ∈ x :: rest, ∀ b ∈ post, key a < key b),
                (.ok (pre.length, ({ slice := a', count := s.count + (x :: rest).length } : State T)) : Outcome CErr _) = .ok (idx, s') →
                Inv key s' ∧ s'.capacity = s.capacity ∧ s'.items = s.items.take idx ++ ((x :: rest) ++ s.items.drop idx) := by
              intro hlast heq
              simp only [Outcome.ok.injEq, Prod.mk.injEq] at heq
              obtain ⟨rfl, rfl⟩ := heq
              refine ⟨⟨?_, ?_⟩, hl, ?_⟩
              · simp [State.capacity] at hroom ⊢; omega
              · show StrictSorted key (List.take (s.count + (x :: rest).length) a')
                rw [ht]
                refine strictSorted_insert (hi ▸ h.sorted) hxs ?_ hlast
                intro a ha b hb
                have := h1 a ha; have := hhead b hb; omega
              · show List.take (s.count + (x :: rest).length) a' = _
                rw [ht, hi]; simp
            have hidx : s.items[pre.length]? = post.head? := by
              rw [hi, List.getElem?_append_right (Nat.le_refl _), Nat.sub_self, List.head?_eq_getElem?]
            rw [hidx] at hok
            cases hp : post with
            | nil =>
              subst hp
              simp only [List.head?_nil] at hok
              exact done (by simp) (hfin ▸ hok)
            | cons next post' =>
              subst hp
              simp only [List.head?_cons] at hok
              split at hok
              · cases hok
              · split at hok
                · cases hok
                · rename_i hne hgt
                  refine done ?_ (hfin ▸ hok)
                  intro a ha b hb
                  have hal : key a ≤ key ((x :: rest).getLast (by simp)) := by
                    rcases List.eq_nil_or_concat (x :: rest) with hnil | ⟨init, lst, hcc⟩
                    · cases hnil
                    · have hla : (x :: rest).getLast (by simp) = lst := by
                        have : (x :: rest).getLast? = some lst := by rw [hcc]; simp
                        rw [List.getLast?_eq_some_getLast (by simp)] at this
                        simpa using this
                      rw [hla]
                      rw [hcc, List.concat_eq_append] at ha hxs
                      rcases List.mem_append.1 ha with ha | ha
                      · exact Nat.le_of_lt ((List.pairwise_append.1 hxs).2.2 a ha lst (by simp))
                      · simp at ha; subst ha; exact Nat.le_refl _
                  have hbn : key next ≤ key b := by
                    rcases List.mem_cons.1 hb with rfl | hb
                    · exact Nat.le_refl _
                    · have hsp := h.sorted
                      rw [hi] at hsp
                      have := (List.pairwise_append.1 hsp).2.1
                      exact Nat.le_of_lt ((List.pairwise_cons.1 this).1 b hb)
                  omega

/-- C25 (bulk add never panics on a well-formed slice). -/
theorem addContiguous_no_panic (key : T → Nat) (s : State T) (xs : List T) (h : Inv key s) :
    addContiguous key s xs ≠ .panic := by
  cases xs with
  | nil => simp [addContiguous]
  | cons x rest =>
    unfold addContiguous
    simp only
    split
    · simp
    · rename_i hroom
      split
      · simp
      · split
        · simp
        · cases hs : search key s x with
          | ok i => simp
          | error i =>
            simp only
            obtain ⟨pre, post, hi, rfl, h1, h2⟩ := search_error h hs
            obtain ⟨a, a', hc, hw, ht, hl⟩ := shift_write (xs := x :: rest) hi (by
              simp [State.capacity] at hroom; simp; omega)
            have hfin : (copyWithin s.slice pre.length s.count (pre.length + (x :: rest).length) >>= fun a =>
                writeAt a pre.length (x :: rest) >>= fun a =>
                Outcome.ok (pre.length, ({ slice := a, count := s.count + (x :: rest).length } : State T))) ≠ .panic := by
              rw [hc]; simp only [Outcome.ok_bind]; rw [hw]; simp
            split
            · split
              · simp
              · split
                · simp
                · exact hfin
            · exact hfin

/-- C25 (remove). A key that is absent gives `NotFound`; otherwise exactly the element with that key
is removed. -/
theorem remove_spec (key : T → Nat) (s : State T) (x : T) (h : Inv key s) :
    ((¬ ∃ e ∈ s.items, key e = key x) → remove key s x = .err .notFound) ∧
    ((∃ e ∈ s.items, key e = key x) → ∃ idx s', remove key s x = .ok (idx, s') ∧ Inv key s' ∧
      s'.capacity = s.capacity ∧ s'.items = s.items.take idx ++ s.items.drop (idx + 1) ∧
      ∃ e, s.items[idx]? = some e ∧ key e = key x) := by
  have hlen := items_length h
  refine ⟨fun hno => ?_, fun ⟨e0, he0, hk0⟩ => ?_⟩
  · unfold remove
    cases hs : search key s x with
    | ok i =>
      exfalso
      obtain ⟨pre, e, post, hi, _, hk, _⟩ := search_ok h hs
      exact hno ⟨e, by rw [hi]; simp, hk⟩
    | error i => rfl
  · unfold remove
    cases hs : search key s x with
    | error i =>
      exfalso
      obtain ⟨pre, post, hi, _, h1, h2⟩ := search_error h hs
      rw [hi] at he0
      rcases List.mem_append.1 he0 with he | he
      · have := h1 e0 he; omega
      · have := h2 e0 he; omega
    | ok i =>
      obtain ⟨pre, e, post, hi, rfl, hk, h1, h2⟩ := search_ok h hs
      obtain ⟨hsl, hpl⟩ := slice_split hi h.le
      simp only [List.length_cons] at hpl
      have hcw : copyWithin s.slice (pre.length + 1) s.count pre.length =
          .ok (pre ++ (post ++ s.slice.drop (pre.length + post.length))) := by
        have hcnt : s.count - (pre.length + 1) = post.length := by omega
        unfold copyWithin
        have := h.le
        rw [if_pos (by omega), hcnt]
        congr 1
        have e1 : s.slice.take pre.length = pre := by rw [hsl]; simp
        have e2 : (s.slice.drop (pre.length + 1)).take post.length = post := by
          rw [hsl, ← List.drop_drop]; simp
        rw [e1, e2]
      have hitem : s.slice[pre.length]? = some e := by
        rw [hsl, List.getElem?_append_right (Nat.le_refl _)]; simp
      refine ⟨pre.length, { slice := pre ++ (post ++ s.slice.drop (pre.length + post.length)), count := s.count - 1 }, ?_, ⟨?_, ?_⟩, ?_, ?_, e, ?_, hk⟩
      · simp only [removeAt]
        rw [if_neg (by omega), hitem]
        simp only
        rw [hcw]; rfl
      · have := h.le
        simp; omega
      · show StrictSorted key (List.take (s.count - 1) _)
        have : s.count - 1 = (pre ++ post).length := by simp; omega
        rw [this, ← List.append_assoc, List.take_left']
        · exact List.Pairwise.sublist (by rw [hi]; simp) h.sorted
        · rfl
      · have := h.le
        simp [State.capacity]; omega
      · show List.take (s.count - 1) _ = _
        have : s.count - 1 = (pre ++ post).length := by simp; omega
        rw [this, ← List.append_assoc, List.take_left' rfl, hi]
        simp [← List.drop_drop]
      · rw [hi, List.getElem?_append_right (Nat.le_refl _)]; simp

/-- C25 (search): an element is found exactly when an element with its key is present, at its index. -/
theorem search_spec (key : T → Nat) (s : State T) (x : T) (h : Inv key s) :
    (∀ i, search key s x = .ok i → ∃ e, s.items[i]? = some e ∧ key e = key x) ∧
    (∀ i, search key s x = .error i → (¬ ∃ e ∈ s.items, key e = key x) ∧
        (∀ e ∈ s.items.take i, key e < key x) ∧ (∀ e ∈ s.items.drop i, key x < key e)) := by
  constructor
  · intro i hs
    obtain ⟨pre, e, post, hi, rfl, hk, _⟩ := search_ok h hs
    exact ⟨e, by rw [hi, List.getElem?_append_right (Nat.le_refl _)]; simp, hk⟩
  · intro i hs
    obtain ⟨pre, post, hi, rfl, h1, h2⟩ := search_error h hs
    rw [hi]
    refine ⟨?_, by simpa using h1, by simpa using h2⟩
    rintro ⟨e, he, hk⟩
    rcases List.mem_append.1 he with he | he
    · have := h1 e he; omega
    · have := h2 e he; omega

/-- Operations of a history. -/
inductive Op (T : Type) where
  | add (x : T)
  | addContiguous (xs : List T)
  | remove (x : T)
  | removeAt (i : Nat)

/-- One call; a failing call leaves the state as it was. -/
def step (key : T → Nat) (s : State T) : Op T → Outcome CErr (State T)
  | .add x => match add key s x with | .ok r => .ok r.2 | .err _ => .ok s | .panic => .panic
  | .addContiguous xs => match addContiguous key s xs with | .ok r => .ok r.2 | .err _ => .ok s | .panic => .panic
  | .remove x => match remove key s x with | .ok r => .ok r.2 | .err _ => .ok s | .panic => .panic
  | .removeAt i => match removeAt s i with | .ok r => .ok r.2 | .err _ => .ok s | .panic => .panic

/-- Run a history. -/
def run (key : T → Nat) (s : State T) : List (Op T) → Outcome CErr (State T)
  | [] => .ok s
  | op :: ops => (step key s op).bind (fun s' => run key s' ops)

theorem removeAt_inv (key : T → Nat) (s : State T) (i : Nat) (h : Inv key s) :
    ∃ r s', removeAt s i = .ok (r, s') ∧ Inv key s' ∧ s'.capacity = s.capacity ∧ r = s.items[i]? ∧
      s'.items = s.items.eraseIdx i := by
  have hlen := items_length h
  unfold removeAt
  by_cases hi : i ≥ s.count
  · rw [if_pos hi]
    refine ⟨none, s, rfl, h, rfl, ?_, ?_⟩
    · rw [List.getElem?_eq_none (by omega)]
    · rw [List.eraseIdx_of_length_le (by omega)]
  · rw [if_neg hi]
    have hi' : i < s.items.length := by omega
    have hi2 : i < s.slice.length := by have := h.le; omega
    have hit : s.items[i]? = s.slice[i]? := by
      simp [State.items, List.getElem?_take]; omega
    have hsplit : s.items = s.items.take i ++ s.items.drop i := (List.take_append_drop i _).symm
    have hle := h.le
    rw [List.getElem?_eq_getElem hi2]
    simp only
    have hcw : copyWithin s.slice (i + 1) s.count i =
        .ok (s.slice.take i ++ ((s.slice.drop (i + 1)).take (s.count - (i + 1)) ++ s.slice.drop (i + (s.count - (i + 1))))) := by
      unfold copyWithin
      rw [if_pos (by omega)]
    rw [hcw]
    have hitems : (State.items { slice := s.slice.take i ++ ((s.slice.drop (i + 1)).take (s.count - (i + 1)) ++ s.slice.drop (i + (s.count - (i + 1)))), count := s.count - 1 } : List T) = s.items.eraseIdx i := by
      have e1 : s.slice.take i = s.items.take i := by
        rw [State.items, List.take_take, Nat.min_eq_left (by omega)]
      have e2 : (s.slice.drop (i + 1)).take (s.count - (i + 1)) = s.items.drop (i + 1) := by
        rw [State.items, List.drop_take]
      rw [e1, e2, State.items]
      have hl : s.count - 1 = (s.items.take i ++ s.items.drop (i + 1)).length := by
        simp; omega
      rw [← List.append_assoc]
      show List.take (s.count - 1) _ = _
      rw [hl, List.take_left' rfl, List.eraseIdx_eq_take_drop_succ]
    refine ⟨_, _, rfl, ⟨?_, ?_⟩, ?_, ?_, hitems⟩
    · simp; omega
    · rw [hitems]
      exact List.Pairwise.sublist (List.eraseIdx_sublist _ _) h.sorted
    · simp [State.capacity]; omega
    · rw [hit, List.getElem?_eq_getElem hi2]

/-- C25 (every history): starting from an empty slice over any backing memory, no history of calls
panics, and after it the items are strictly sorted by key within an unchanged capacity. -/
theorem history_sorted (key : T → Nat) (backing : List T) (ops : List (Op T)) :
    ∃ s, run key (new backing) ops = .ok s ∧ s.capacity = backing.length ∧
      s.items.Pairwise (fun a b => key a < key b) ∧ s.items.length ≤ s.capacity := by
  suffices H : ∀ (s0 : State T), Inv key s0 → ∃ s, run key s0 ops = .ok s ∧ s.capacity = s0.capacity ∧ Inv key s by
    have h0 : Inv key (new backing) := ⟨Nat.zero_le _, by simp [new, State.items, StrictSorted]⟩
    obtain ⟨s, hr, hc, hI⟩ := H _ h0
    refine ⟨s, hr, hc, hI.sorted, ?_⟩
    rw [items_length hI]; exact hI.le
  induction ops with
  | nil => intro s0 h; exact ⟨s0, rfl, rfl, h⟩
  | cons op ops ih =>
    intro s0 h
    have hstep : ∃ s1, step key s0 op = .ok s1 ∧ Inv key s1 ∧ s1.capacity = s0.capacity := by
      cases op with
      | add x =>
        obtain ⟨a1, a2, a3⟩ := add_spec key s0 x h
        rcases Nat.lt_or_ge s0.items.length s0.capacity with hl | hl
        · by_cases hex : ∃ e ∈ s0.items, key e = key x
          · exact ⟨s0, by simp [step, a2 hl hex], h, rfl⟩
          · obtain ⟨i, s', hs, hI, hc, _⟩ := a3 hl hex
            exact ⟨s', by simp [step, hs], hI, hc⟩
        · have : s0.items.length = s0.capacity := by
            have := items_length h; have := h.le; simp [State.capacity] at *; omega
          exact ⟨s0, by simp [step, a1 this], h, rfl⟩
      | addContiguous xs =>
        cases hr : addContiguous key s0 xs with
        | ok r =>
          obtain ⟨i, s'⟩ := r
          obtain ⟨hI, hc, _⟩ := addContiguous_ok key s0 xs h i s' hr
          exact ⟨s', by simp [step, hr], hI, hc⟩
        | err e => exact ⟨s0, by simp [step, hr], h, rfl⟩
        | panic => exact absurd hr (addContiguous_no_panic key s0 xs h)
      | remove x =>
        obtain ⟨a1, a2⟩ := remove_spec key s0 x h
        by_cases hex : ∃ e ∈ s0.items, key e = key x
        · obtain ⟨i, s', hs, hI, hc, _⟩ := a2 hex
          exact ⟨s', by simp [step, hs], hI, hc⟩
        · exact ⟨s0, by simp [step, a1 hex], h, rfl⟩
      | removeAt i =>
        obtain ⟨r, s', hs, hI, hc, _⟩ := removeAt_inv key s0 i h
        exact ⟨s', by simp [step, hs], hI, hc⟩
    obtain ⟨s1, hs1, hI1, hc1⟩ := hstep
    obtain ⟨s, hr, hc, hI⟩ := ih s1 hI1
    refine ⟨s, ?_, hc.trans hc1, hI⟩
    simp [run, hs1, Outcome.bind, hr]

/-- Finding: `search_with_key` is documented to return the closest greater element when the key is
absent, but panics when the key is greater than every element (e.g. on an empty slice). -/
theorem searchWithKey_panics (key : T → Nat) (s : State T) (k : Nat) (h : Inv key s)
    (hk : ∀ e ∈ s.items, key e < k) : searchWithKey key s k = .panic := by
  obtain ⟨pre, post, hi, hpre, hc⟩ := searchKey_split key k s.items h.sorted
  rcases hc with ⟨he, hp⟩ | ⟨e, post', hp, hke, _, _⟩
  · have : post = [] := by
      cases post with
      | nil => rfl
      | cons y ys =>
        have h1 := hp y (by simp)
        have h2 := hk y (by rw [hi]; simp)
        omega
    subst this
    unfold searchWithKey
    rw [he]
    simp [hi]
  · have := hk e (by rw [hi, hp]; simp)
    omega

/-! Non-vacuity. -/
example : run (fun x : Nat => x) (new [0, 0, 0, 0]) [.add 5, .add 2, .add 5, .addContiguous [3, 4], .remove 2] =
    .ok { slice := [3, 4, 5, 5], count := 3 } := by decide
example : Inv (fun x : Nat => x) { slice := [2, 5, 9], count := 2 } :=
  ⟨by decide, by simp [StrictSorted, State.items]⟩

end Verif.Collections.SortedSlice
