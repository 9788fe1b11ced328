import Verif.Collections.TreeStep
/-!
Histories of the two trees (C22, C24): every answer and every observation is the one of the
specification in `TreeSpec.lean`.
-/
namespace Verif.Collections.Tree
variable {α : Type}

/-- All the read-only functions agree with the contents `b`. -/
structure Agrees (key : α → Nat) (cap : Nat) (s : TreeState α) (b : Book α) : Prop where
  /-- keys strictly ascending -/
  ascending : b.vals.Pairwise fun x y => key x < key y
  /-- slots distinct and within the buffer -/
  distinct : b.slots.Nodup ∧ (∀ i ∈ b.slots, i < cap) ∧ b.used ≤ cap
  len : len s = b.items.length + b.lost
  capacity : capacity s = cap
  get : ∀ k, get key s k = .ok (b.vals.find? fun d => key d = k)
  getIdx : ∀ k, getIdx key s k = .ok ((b.items.find? fun e => key e.2 = k).map (·.1))
  getWithIdx : (∀ i d, (i, d) ∈ b.items → getWithIdx s i = some d) ∧ ∀ i, getWithIdx s i = none ↔ cap ≤ i
  closest : ∀ k, getClosestIdx key s k = .ok (((b.items.filter fun e => key e.2 ≤ k).getLast?).map (·.1))
  first : first s = .ok b.vals.head?
  last : last s = .ok b.vals.getLast?
  next : ∀ k, next key s k = .ok (b.after key k)
  prev : ∀ k, prev key s k = .ok (b.before key k)
  nextIdx : ∀ A i d B, b.items = A ++ (i, d) :: B → nextIdx s.st i = .ok (B.head?.map (·.1))
  prevIdx : ∀ A i d B, b.items = A ++ (i, d) :: B → prevIdx s.st i = .ok (A.getLast?.map (·.1))
  values : values s = .ok b.vals
  height : ∃ h, treeHeight s = .ok h ∧ h ≤ b.items.length

theorem Ok_data {m : Mem α} {p : Option Nat} {t : T α} (ho : Ok m p t) {i : Nat} {d : α} (h : (i, d) ∈ t.items) :
    (m i).data = d := by
  induction t generalizing p with
  | nil => simp [T.items] at h
  | node b l j v r ihl ihr =>
    obtain ⟨e, ol, or⟩ := ho
    simp only [T.items, List.mem_append, List.mem_cons, Prod.mk.injEq] at h
    rcases h with h | ⟨rfl, rfl⟩ | h
    · exact ihl ol h
    · rw [e]
    · exact ihr or h

theorem find_split {key : α → Nat} {xs : List (Nat × α)} {k : Nat} :
    (slotOf key k xs = none ∧ ∀ e ∈ xs, key e.2 ≠ k) ∨
    ∃ A i d B, xs = A ++ (i, d) :: B ∧ key d = k ∧ slotOf key k xs = some i := by
  cases h : slotOf key k xs with
  | none => left; exact ⟨rfl, fun e he hk => slotOf_eq_none h ⟨e, he, hk⟩⟩
  | some i =>
    obtain ⟨d, h1, h2⟩ := slotOf_some h
    obtain ⟨A, B, h3⟩ := List.append_of_mem h1
    right; exact ⟨A, i, d, B, h3, h2, rfl⟩

theorem map_find? {key : α → Nat} {m : Mem α} {k : Nat} {xs : List (Nat × α)}
    (h : ∀ i d, (i, d) ∈ xs → (m i).data = d) :
    (slotOf key k xs).map (fun n => (m n).data) = (xs.map (·.2)).find? fun d => key d = k := by
  induction xs with
  | nil => rfl
  | cons e xs ih =>
    have h0 := h e.1 e.2 (by simp)
    simp only [slotOf, List.find?_cons, List.map_cons] at ih ⊢
    by_cases hk : key e.2 = k
    · simp [hk, h0]
    · simp only [hk, decide_false]
      exact ih (fun i d hm => h i d (by simp [hm]))

theorem Inv.agrees {key : α → Nat} {cap : Nat} {s : TreeState α} {b : Book α} {t : T α} {fl : List Nat}
    (h : Inv key cap s b t fl) : Agrees key cap s b := by
  have hroot : s.root = t.root := h.holds.root
  have hasc : Asc key t.items := by rw [h.items]; exact h.asc
  have hok : Ok s.st.mem none t := h.holds.ok
  have hdata : ∀ i d, (i, d) ∈ b.items → (s.st.mem i).data = d := by
    intro i d hm; exact Ok_data hok (by rw [h.items]; exact hm)
  have hwith : ∀ i d, (i, d) ∈ b.items → Tree.getWithIdx s i = some d := by
    intro i d hm
    simp only [Tree.getWithIdx, Store.get, h.hcap, if_pos (h.bound i (mem_slots h hm)), Option.map_some, hdata i d hm]
  have hgi : ∀ k, Tree.getIdx key s k = .ok (slotOf key k b.items) := by
    intro k; simp only [Tree.getIdx, hroot]; rw [getNode_ok hok hasc h.height_le, h.items]
  have hhead : ∀ xs : List (Nat × α), (∀ e ∈ xs, e ∈ b.items) →
      (xs.head?.map (·.1)).bind (Tree.getWithIdx s) = (xs.map (·.2)).head? := by
    intro xs hx
    cases xs with
    | nil => rfl
    | cons e xs => simp [hwith e.1 e.2 (hx e (by simp))]
  have hlast : ∀ xs : List (Nat × α), (∀ e ∈ xs, e ∈ b.items) →
      (xs.getLast?.map (·.1)).bind (Tree.getWithIdx s) = (xs.map (·.2)).getLast? := by
    intro xs hx
    rw [List.getLast?_map]
    cases hl : xs.getLast? with
    | none => rfl
    | some e => simp [hwith e.1 e.2 (hx e (List.mem_of_getLast? hl))]
  have hnd : (b.items.map (·.1)).Nodup := by have := h.holds.nodup; rw [h.slots] at this; exact this
  have hnext : ∀ A i d B, b.items = A ++ (i, d) :: B → Tree.nextIdx s.st i = .ok (B.head?.map (·.1)) := by
    intro A i d B e
    have hm : i ∈ t.addrs := mem_slots h (d := d) (by rw [e]; simp)
    rw [next_ok h.holds hm (by rw [h.hcap]; exact h.bound i hm) h.size_le, h.items, e, slotAfter_mid]
    rw [e, List.map_append, List.nodup_append] at hnd
    exact fun hm => hnd.2.2 i hm i (by simp) rfl
  have hprev : ∀ A i d B, b.items = A ++ (i, d) :: B → Tree.prevIdx s.st i = .ok (A.getLast?.map (·.1)) := by
    intro A i d B e
    have hm : i ∈ t.addrs := mem_slots h (d := d) (by rw [e]; simp)
    rw [prev_ok h.holds hm (by rw [h.hcap]; exact h.bound i hm) h.size_le, h.items, e, slotBefore_mid]
    rw [e, List.map_append, List.nodup_append, List.map_cons, List.nodup_cons] at hnd
    exact hnd.2.1.1
  refine ⟨?_, ⟨by rw [← h.slots]; exact h.holds.nodup, by rw [← h.slots]; exact h.bound, ?_⟩, h.used, h.hcap, ?_, hgi,
    ⟨hwith, ?_⟩, ?_, ?_, ?_, ?_, ?_, hnext, hprev, ?_, ?_⟩
  · simp only [Book.vals, List.pairwise_map]; exact h.asc
  · have := h.used; have h2 := h.free.len; rw [h.hcap] at h2; omega
  · intro k
    simp only [Tree.get, hroot]
    rw [getNode_ok hok hasc h.height_le, h.items, Outcome.ok_bind, map_find? hdata]
    rfl
  · intro i
    simp only [Tree.getWithIdx, Store.get, h.hcap]
    by_cases hi : i < cap
    · simp [hi]
    · simp [hi]; omega
  · intro k
    simp only [getClosestIdx, hroot]
    rw [getClosest_ok hok hasc h.height_le, h.items, Option.or_none]
    rfl
  · simp only [Tree.first, hroot]
    rw [firstIdx_ok hok h.height_le, h.items, Outcome.ok_bind, hhead _ (fun _ he => he)]
    rfl
  · simp only [Tree.last, hroot]
    rw [lastIdx_ok hok h.height_le, h.items, Outcome.ok_bind, hlast _ (fun _ he => he)]
    rfl
  · intro k
    simp only [Tree.next]
    rw [hgi, Outcome.ok_bind]
    rcases find_split (key := key) (xs := b.items) (k := k) with ⟨e, hno⟩ | ⟨A, i, d, B, e, hk, e2⟩
    · have hany : b.vals.any (fun d => decide (key d = k)) = false := by
        rw [List.any_eq_false]; intro d hd
        obtain ⟨x, hx, rfl⟩ := List.mem_map.1 hd
        simpa using hno x hx
      rw [e]; simp [walk, Book.after, hany]
    · rw [e2]
      simp only [walk]
      rw [hnext A i d B e, Outcome.ok_bind, hhead B (fun x hx => by rw [e]; simp [hx])]
      have hasc := h.asc
      rw [e, Asc_append, Asc_cons] at hasc
      have hany : b.vals.any (fun d => decide (key d = k)) = true := by
        rw [List.any_eq_true]; exact ⟨d, by simp [Book.vals, e], by simpa using hk⟩
      have hf : b.vals.find? (fun d => decide (k < key d)) = (B.map (·.2)).head? := by
        simp only [Book.vals, e, List.map_append, List.map_cons, List.find?_append, List.find?_cons]
        have h1 : (A.map (·.2)).find? (fun d => decide (k < key d)) = none := by
          rw [List.find?_eq_none]; intro x hx
          obtain ⟨y, hy, rfl⟩ := List.mem_map.1 hx
          have := hasc.2.2 y hy (i, d) (by simp)
          simp only [decide_eq_true_eq]; simp only [] at this; omega
        rw [h1]
        have h2 : ¬ k < key d := by omega
        simp only [h2, decide_false, Option.none_or]
        cases B with
        | nil => rfl
        | cons y B =>
          have := hasc.2.1.1 y (by simp)
          simp only [] at this
          have h3 : k < key y.2 := by omega
          simp [h3]
      simp only [Book.after, hany, if_true, hf]
  · intro k
    simp only [Tree.prev]
    rw [hgi, Outcome.ok_bind]
    rcases find_split (key := key) (xs := b.items) (k := k) with ⟨e, hno⟩ | ⟨A, i, d, B, e, hk, e2⟩
    · have hany : b.vals.any (fun d => decide (key d = k)) = false := by
        rw [List.any_eq_false]; intro d hd
        obtain ⟨x, hx, rfl⟩ := List.mem_map.1 hd
        simpa using hno x hx
      rw [e]; simp [walk, Book.before, hany]
    · rw [e2]
      simp only [walk]
      rw [hprev A i d B e, Outcome.ok_bind, hlast A (fun x hx => by rw [e]; simp [hx])]
      have hasc := h.asc
      rw [e, Asc_append, Asc_cons] at hasc
      have hany : b.vals.any (fun d => decide (key d = k)) = true := by
        rw [List.any_eq_true]; exact ⟨d, by simp [Book.vals, e], by simpa using hk⟩
      have hf : b.vals.filter (fun d => decide (key d < k)) = A.map (·.2) := by
        simp only [Book.vals, e, List.map_append, List.map_cons, List.filter_append]
        rw [List.filter_eq_self.2 (by
          intro x hx
          obtain ⟨y, hy, rfl⟩ := List.mem_map.1 hx
          have := hasc.2.2 y hy (i, d) (by simp)
          simp only [decide_eq_true_eq]; simp only [] at this; omega),
          List.filter_eq_nil_iff.2 (by
          intro x hx
          rcases List.mem_cons.1 hx with rfl | hx
          · simp only [decide_eq_true_eq]; omega
          · obtain ⟨y, hy, rfl⟩ := List.mem_map.1 hx
            have := hasc.2.1.1 y hy
            simp only [decide_eq_true_eq]; simp only [] at this; omega)]
        simp
      simp only [Book.before, hany, if_true, hf]
  · simp only [Tree.values, hroot]
    rw [dfs_ok hok h.height_le, h.items]
    rfl
  · simp only [treeHeight, hroot]
    refine ⟨_, height_ok hok h.height_le, ?_⟩
    rw [← h.items, ← size_eq]; exact height_le_size t

/-! ### Histories -/

/-- The operations of a history with the answers of the program. -/
def trace (exec : TreeState α → Op α → Outcome CErr Nat × TreeState α) :
    TreeState α → List (Op α) → List (Op α × Outcome CErr Nat)
  | _, [] => []
  | s, op :: ops => (op, (exec s op).1) :: trace exec (exec s op).2 ops

/-- The state after a history. -/
def final (exec : TreeState α → Op α → Outcome CErr Nat × TreeState α) : TreeState α → List (Op α) → TreeState α
  | s, [] => s
  | s, op :: ops => final exec (exec s op).2 ops

/-- Either the whole history goes as specified, or the caller breaks a rule of `Legal` at some point, up
to which it does. -/
def AsSpecified (exec : TreeState α → Op α → Outcome CErr Nat × TreeState α) (key : α → Nat) (cap : Nat)
    (s : TreeState α) (b : Book α) (ops : List (Op α)) : Prop :=
  (∃ b', History key cap b (trace exec s ops) b' ∧ Agrees key cap (final exec s ops) b') ∨
  ∃ pre op post b', ops = pre ++ op :: post ∧ History key cap b (trace exec s pre) b' ∧
    Agrees key cap (final exec s pre) b' ∧ ¬ Legal key cap b' op

theorem history_of {exec : TreeState α → Op α → Outcome CErr Nat × TreeState α} {key : α → Nat} {cap : Nat}
    (P : TreeState α → Book α → Prop) (hP : ∀ s b, P s b → Agrees key cap s b)
    (hstep : ∀ s b op, P s b → Legal key cap b op → ∃ b', Step key cap b op (exec s op).1 b' ∧ P (exec s op).2 b')
    (ops : List (Op α)) : ∀ s b, P s b → AsSpecified exec key cap s b ops := by
  induction ops with
  | nil => intro s b h; exact .inl ⟨b, .nil b, hP s b h⟩
  | cons op ops ih =>
    intro s b h
    by_cases hl : Legal key cap b op
    · obtain ⟨b', h1, h2⟩ := hstep s b op h hl
      rcases ih _ _ h2 with ⟨b2, h3, h4⟩ | ⟨pre, op2, post, b2, h3, h4, h5, h6⟩
      · exact .inl ⟨b2, .cons _ _ _ _ _ _ h1 h3, h4⟩
      · exact .inr ⟨op :: pre, op2, post, b2, by rw [h3]; rfl, .cons _ _ _ _ _ _ h1 h4, h5, h6⟩
    · exact .inr ⟨[], op, ops, b, rfl, .nil b, hP s b h, hl⟩

/-- No `delete_with_idx` and no writes through references. -/
def Plain : Op α → Prop
  | .add _ => True
  | .delete _ => True
  | _ => False

theorem plain_of {exec : TreeState α → Op α → Outcome CErr Nat × TreeState α} {key : α → Nat} {cap : Nat}
    {s : TreeState α} {b : Book α} {ops : List (Op α)} (h : AsSpecified exec key cap s b ops)
    (hp : ∀ op ∈ ops, Plain op) :
    ∃ b', History key cap b (trace exec s ops) b' ∧ Agrees key cap (final exec s ops) b' := by
  rcases h with h | ⟨pre, op, post, b', h1, _, _, h4⟩
  · exact h
  · have := hp op (by rw [h1]; simp)
    cases op with
    | add d => exact absurd trivial h4
    | delete k => exact absurd trivial h4
    | deleteAt i => exact absurd this (by simp [Plain])
    | put i d => exact absurd this (by simp [Plain])

/-- C24. The memory must have a null `right` link in its last node, e.g. because it is zeroed. -/
theorem bst_history (key : α → Nat) (m0 : Mem α) {cap : Nat} (hc : 0 < cap) (h0 : (m0 (cap - 1)).right = none)
    (ops : List (Op α)) :
    ∃ s0, Bst.withCapacity m0 cap = .ok s0 ∧ AsSpecified (Bst.exec key) key cap s0 ⟨[], 0⟩ ops := by
  obtain ⟨st, h1, h2⟩ := init_inv key m0 hc h0
  refine ⟨⟨st, none⟩, by simp [Bst.withCapacity, h1], ?_⟩
  refine history_of (fun s b => ∃ t fl, Inv key cap s b t fl) ?_ ?_ ops _ _ ⟨_, _, h2⟩
  · rintro s b ⟨t, fl, h⟩; exact h.agrees
  · rintro s b op ⟨t, fl, h⟩ hl
    obtain ⟨b', t', fl', h3, h4⟩ := Bst.step h op hl
    exact ⟨b', h3, t', fl', h4⟩

/-- C24 for `add` and `delete`: no condition on the history. -/
theorem bst_plain_history (key : α → Nat) (m0 : Mem α) {cap : Nat} (hc : 0 < cap)
    (h0 : (m0 (cap - 1)).right = none) (ops : List (Op α)) (hp : ∀ op ∈ ops, Plain op) :
    ∃ s0 b, Bst.withCapacity m0 cap = .ok s0 ∧ History key cap ⟨[], 0⟩ (trace (Bst.exec key) s0 ops) b ∧
      Agrees key cap (final (Bst.exec key) s0 ops) b := by
  obtain ⟨s0, h1, h2⟩ := bst_history key m0 hc h0 ops
  obtain ⟨b, h3, h4⟩ := plain_of h2 hp
  exact ⟨s0, b, h1, h3, h4⟩

/-- C22. -/
theorem rbt_history (key : α → Nat) (m0 : Mem α) {cap : Nat} (hc : 0 < cap) (h0 : (m0 (cap - 1)).right = none)
    (ops : List (Op α)) :
    ∃ s0, Rbt.withCapacity m0 cap = .ok s0 ∧ AsSpecified (Rbt.exec key) key cap s0 ⟨[], 0⟩ ops := by
  obtain ⟨st, h1, h2⟩ := init_inv key m0 hc h0
  refine ⟨⟨st, none⟩, by simp [Rbt.withCapacity, h1], ?_⟩
  refine history_of (fun s b => ∃ t fl, Inv key cap s b t fl ∧ t.black = true) ?_ ?_ ops _ _ ⟨_, _, h2, rfl⟩
  · rintro s b ⟨t, fl, h, _⟩; exact h.agrees
  · rintro s b op ⟨t, fl, h, hb⟩ hl
    obtain ⟨b', t', fl', h3, h4, h5⟩ := Rbt.step h hb op hl
    exact ⟨b', h3, t', fl', h4, h5⟩

/-- C22 for `add` and `delete`: no condition on the history. -/
theorem rbt_plain_history (key : α → Nat) (m0 : Mem α) {cap : Nat} (hc : 0 < cap)
    (h0 : (m0 (cap - 1)).right = none) (ops : List (Op α)) (hp : ∀ op ∈ ops, Plain op) :
    ∃ s0 b, Rbt.withCapacity m0 cap = .ok s0 ∧ History key cap ⟨[], 0⟩ (trace (Rbt.exec key) s0 ops) b ∧
      Agrees key cap (final (Rbt.exec key) s0 ops) b := by
  obtain ⟨s0, h1, h2⟩ := rbt_history key m0 hc h0 ops
  obtain ⟨b, h3, h4⟩ := plain_of h2 hp
  exact ⟨s0, b, h1, h3, h4⟩

theorem eq_of_key {key : α → Nat} {xs : List (Nat × α)} (h : Asc key xs) {e f : Nat × α} (he : e ∈ xs)
    (hf : f ∈ xs) (hk : key e.2 = key f.2) : e = f := by
  obtain ⟨i, hi, rfl⟩ := List.mem_iff_getElem.1 he
  obtain ⟨j, hj, rfl⟩ := List.mem_iff_getElem.1 hf
  unfold Asc at h
  rw [List.pairwise_iff_getElem] at h
  rcases Nat.lt_trichotomy i j with h1 | h1 | h1
  · have := h i j hi hj h1; omega
  · subst h1; rfl
  · have := h j i hj hi h1; omega

theorem eq_of_slot {xs : List (Nat × α)} (h : (xs.map (·.1)).Nodup) {e f : Nat × α} (he : e ∈ xs)
    (hf : f ∈ xs) (hk : e.1 = f.1) : e = f := by
  obtain ⟨i, hi, rfl⟩ := List.mem_iff_getElem.1 he
  obtain ⟨j, hj, rfl⟩ := List.mem_iff_getElem.1 hf
  unfold List.Nodup at h
  rw [List.pairwise_map, List.pairwise_iff_getElem] at h
  rcases Nat.lt_trichotomy i j with h1 | h1 | h1
  · exact absurd hk (h i j hi hj h1)
  · subst h1; rfl
  · exact absurd hk.symm (h j i hj hi h1)

/-- Every step of `add` and `delete` keeps keys ascending and slots distinct. -/
theorem step_tidy {key : α → Nat} {cap : Nat} {b b1 : Book α} {op : Op α} {r : Outcome CErr Nat}
    (hs : Step key cap b op r b1) (hp : Plain op) (hu : Asc key b.items) (hn : b.slots.Nodup) :
    Asc key b1.items ∧ b1.slots.Nodup := by
  cases hs with
  | full => exact ⟨hu, hn⟩
  | dup => exact ⟨hu, hn⟩
  | absent => exact ⟨hu, hn⟩
  | noSlot => exact ⟨hu, hn⟩
  | gone i d0 hm => exact ⟨List.Pairwise.filter _ hu, (List.filter_sublist.map _).nodup hn⟩
  | goneAt => exact absurd hp (by simp [Plain])
  | wrote => exact absurd hp (by simp [Plain])
  | new d0 i h1 h2 h3 h4 =>
    constructor
    · simp only [Book.insert, Asc_append, Asc_cons]
      refine ⟨List.Pairwise.filter _ hu, ⟨fun e he => by simpa using (List.mem_filter.1 he).2,
        List.Pairwise.filter _ hu⟩, fun x hx y hy => ?_⟩
      have hx2 := (List.mem_filter.1 hx).2
      rcases List.mem_cons.1 hy with rfl | hy
      · simpa using hx2
      · have hy2 := (List.mem_filter.1 hy).2
        simp only [decide_eq_true_eq] at hx2 hy2; omega
    · simp only [Book.slots, Book.insert, List.map_append, List.map_cons, List.nodup_append, List.nodup_cons]
      have hin : ∀ (p : Nat × α → Bool) j, j ∈ (b.items.filter p).map (·.1) → j ∈ b.slots := fun p j hj =>
        (List.filter_sublist.map _).subset hj
      refine ⟨(List.filter_sublist.map _).nodup hn, ⟨fun hm => h4 (hin _ _ hm), (List.filter_sublist.map _).nodup hn⟩,
        fun x hx y hy => ?_⟩
      rcases List.mem_cons.1 hy with rfl | hy
      · exact fun e => h4 (e ▸ hin _ _ hx)
      · rintro rfl
        obtain ⟨e, he, e1⟩ := List.mem_map.1 hx
        obtain ⟨f, hf, f1⟩ := List.mem_map.1 hy
        rw [List.mem_filter, decide_eq_true_eq] at he hf
        have := eq_of_slot hn he.1 hf.1 (by rw [e1, f1])
        subst this
        omega

/-- What one step of `add` or `delete` does to the values stored. -/
theorem step_vals {key : α → Nat} {cap : Nat} {b b1 : Book α} {op : Op α} {r : Outcome CErr Nat}
    (hs : Step key cap b op r b1) (hp : Plain op) (hu : Asc key b.items) (hn : b.slots.Nodup) (d : α) :
    d ∈ b1.vals ↔ (op = .add d ∧ ∃ i, r = .ok i) ∨ (d ∈ b.vals ∧ ¬ (op = .delete (key d) ∧ r = .ok 0)) := by
  cases hs with
  | full d0 => simp
  | dup d0 => simp [Book.vals]
  | absent k => simp
  | noSlot i => simp
  | goneAt => exact absurd hp (by simp [Plain])
  | wrote => exact absurd hp (by simp [Plain])
  | gone i d0 hm =>
    simp only [reduceCtorEq, false_and, false_or, Op.delete.injEq, and_true, Book.vals, Book.remove, List.mem_map,
      List.mem_filter, decide_eq_true_eq, ne_eq]
    constructor
    · rintro ⟨e, ⟨he, hi⟩, rfl⟩
      refine ⟨⟨e, he, rfl⟩, fun hk => hi ?_⟩
      have := eq_of_key hu hm he hk
      rw [← this]
    · rintro ⟨⟨e, he, rfl⟩, hk⟩
      refine ⟨e, ⟨he, fun hi => hk ?_⟩, rfl⟩
      have := eq_of_slot hn hm he hi.symm
      rw [← this]
  | new d0 i h1 h2 h3 h4 =>
    simp only [reduceCtorEq, false_and, not_false_eq_true, and_true, Op.add.injEq, Outcome.ok.injEq, exists_eq',
      Book.vals, Book.insert, List.map_append, List.map_cons, List.mem_append, List.mem_cons, List.mem_map,
      List.mem_filter, decide_eq_true_eq]
    constructor
    · rintro (⟨e, ⟨he, _⟩, rfl⟩ | rfl | ⟨e, ⟨he, _⟩, rfl⟩)
      · exact .inr ⟨e, he, rfl⟩
      · exact .inl rfl
      · exact .inr ⟨e, he, rfl⟩
    · rintro (rfl | ⟨e, he, rfl⟩)
      · exact .inr (.inl rfl)
      · have hne : key e.2 ≠ key d0 := fun hk => h2 ⟨e, he, hk⟩
        rcases Nat.lt_or_gt_of_ne hne with h | h
        · exact .inl ⟨e, ⟨he, h⟩, rfl⟩
        · exact .inr (.inr ⟨e, ⟨he, h⟩, rfl⟩)

theorem history_vals {key : α → Nat} {cap : Nat} {b b' : Book α} {tr : List (Op α × Outcome CErr Nat)}
    (h : History key cap b tr b') (hu : Asc key b.items) (hn : b.slots.Nodup) (hp : ∀ x ∈ tr, Plain x.1) (d : α) :
    d ∈ b'.vals ↔
      (∃ pre post i, tr = pre ++ (.add d, .ok i) :: post ∧ (.delete (key d), .ok 0) ∉ post) ∨
      (d ∈ b.vals ∧ (.delete (key d), .ok 0) ∉ tr) := by
  induction h with
  | nil b => simp
  | cons b op r b1 rest b2 hs hrest ih =>
    have hp1 : Plain op := hp (op, r) (by simp)
    obtain ⟨hu1, hn1⟩ := step_tidy hs hp1 hu hn
    rw [ih hu1 hn1 (fun x hx => hp x (by simp [hx])), step_vals hs hp1 hu hn d]
    have hcons : (∃ pre post i, (op, r) :: rest = pre ++ (.add d, .ok i) :: post ∧
        (.delete (key d), .ok 0) ∉ post) ↔
        ((op = .add d ∧ (∃ i, r = .ok i) ∧ (.delete (key d), .ok 0) ∉ rest) ∨
        ∃ pre post i, rest = pre ++ (.add d, .ok i) :: post ∧ (.delete (key d), .ok 0) ∉ post) := by
      constructor
      · rintro ⟨pre, post, i, e, hn⟩
        cases pre with
        | nil =>
          simp only [List.nil_append, List.cons.injEq, Prod.mk.injEq] at e
          exact .inl ⟨e.1.1, ⟨i, e.1.2⟩, by rw [e.2]; exact hn⟩
        | cons x pre =>
          simp only [List.cons_append, List.cons.injEq] at e
          exact .inr ⟨pre, post, i, e.2, hn⟩
      · rintro (⟨rfl, ⟨i, rfl⟩, hn⟩ | ⟨pre, post, i, e, hn⟩)
        · exact ⟨[], rest, i, rfl, hn⟩
        · exact ⟨(op, r) :: pre, post, i, by rw [e]; rfl, hn⟩
    rw [hcons]
    simp only [List.mem_cons, Prod.mk.injEq, not_or]
    grind

/-- The contents after a history of `add` and `delete` are exactly the values added (successfully) and
not deleted since. -/
theorem history_contents {key : α → Nat} {cap : Nat} {b : Book α} {tr : List (Op α × Outcome CErr Nat)}
    (h : History key cap ⟨[], 0⟩ tr b) (hp : ∀ x ∈ tr, Plain x.1) (d : α) :
    d ∈ b.vals ↔ ∃ pre post i, tr = pre ++ (.add d, .ok i) :: post ∧ (.delete (key d), .ok 0) ∉ post := by
  rw [history_vals h List.Pairwise.nil List.nodup_nil hp d]
  simp [Book.vals]

/-! ### A concrete history -/

/-- Zeroed memory. -/
def blank : Mem Nat := fun _ => ⟨0, false, none, none, none⟩

/-- Insertions (one of a duplicate, one into the full buffer), deletions (one of an absent key) and a reused
slot. -/
def sampleOps : List (Op Nat) :=
  [.add 5, .add 3, .add 9, .add 3, .add 7, .add 1, .delete 5, .delete 4, .add 6, .deleteAt 1]

def answers (ops : List (Op Nat × Outcome CErr Nat)) : List (Outcome CErr Nat) := ops.map (·.2)

/-- The hypotheses of `bst_plain_history` and `rbt_history` hold here, and this is what the model answers. -/
example : (blank (5 - 1)).right = none := rfl
example : (Rbt.withCapacity blank 5 >>= fun s0 => .ok (answers (trace (Rbt.exec id) s0 sampleOps))) =
    .ok [.ok 0, .ok 1, .ok 2, .err .alreadyExists, .ok 4, .err .outOfSpace, .ok 0, .err .notFound, .ok 0, .ok 0] := by
  decide +kernel
example : (Rbt.withCapacity blank 5 >>= fun s0 => values (final (Rbt.exec id) s0 sampleOps)) = .ok [6, 7, 9] := by
  decide +kernel
example : (Bst.withCapacity blank 5 >>= fun s0 => .ok (answers (trace (Bst.exec id) s0 sampleOps))) =
    .ok [.ok 0, .ok 1, .ok 2, .err .alreadyExists, .ok 4, .err .outOfSpace, .ok 0, .err .notFound, .ok 0, .ok 0] := by
  decide +kernel
example : (Bst.withCapacity blank 5 >>= fun s0 => values (final (Bst.exec id) s0 sampleOps)) = .ok [6, 7, 9] := by
  decide +kernel

end Verif.Collections.Tree
