import Verif.Collections.TreeProps
/-!
C47: moving a tree to another buffer.
-/
namespace Verif.Collections.Tree
variable {α : Type}

/-- `Storage::new`, node.rs lines 46-53. -/
def Store.empty (m0 : Mem α) : Store α := ⟨m0, 0, 0, none⟩

/-- `Rbt::new`, rbt.rs lines 44-46, and `Bst::new`, bst.rs lines 39-41. -/
def TreeState.empty (m0 : Mem α) : TreeState α := ⟨.empty m0, none⟩

/-- The last part of `resize`: `storage.get_mut(idx).expect(..)`. -/
def rootCheck (root : Option Nat) (st : Store α) : Outcome CErr (TreeState α) :=
  match root with
  | none => .ok ⟨st, none⟩
  | some i => if i < st.cap then .ok ⟨st, some i⟩ else .panic

/-- `Rbt::resize`, rbt.rs lines 852-862, and `Bst::resize`, bst.rs lines 616-626: `b` is what the new
memory holds, `cap'` the number of nodes that fit. -/
def resize (s : TreeState α) (b : Mem α) (cap' : Nat) : Outcome CErr (TreeState α) :=
  match s.st.resize b cap' with
  | .ok st => rootCheck s.root st
  | .err e => .err e
  | .panic => .panic

/-- The first `resize` of a tree made by `new` gives the tree `with_capacity` makes. -/
theorem resize_new (m0 b : Mem α) (cap : Nat) :
    resize (.empty m0) b cap = Rbt.withCapacity b cap ∧ resize (.empty m0) b cap = Bst.withCapacity b cap := by
  constructor <;>
  · unfold resize Store.resize TreeState.empty Store.empty
    simp only [Rbt.withCapacity, Bst.withCapacity, withCapacity]
    by_cases h : cap = 0
    · subst h; rfl
    · simp [h, rootCheck]

theorem copyFrom_apply (m b : Mem α) (i k j : Nat) :
    copyFrom m b i k j = if i ≤ j ∧ j < i + k then m j else b j := by
  induction k generalizing b i with
  | zero => simp only [copyFrom]; rw [if_neg (by omega)]
  | succ k ih =>
    simp only [copyFrom, ih]
    by_cases h1 : i + 1 ≤ j ∧ j < i + 1 + k
    · rw [if_pos h1, if_pos (by omega)]
    · rw [if_neg h1]
      by_cases h2 : j = i
      · subst h2; simp [upd]
      · simp only [upd, h2, if_false]
        rw [if_neg (by omega)]

theorem buildFrom_below (m : Mem α) (i k j : Nat) (h : j < i) : buildFrom m i k j = m j := by
  induction k generalizing m i with
  | zero => rfl
  | succ k ih =>
    simp only [buildFrom]
    rw [ih _ _ (by omega)]
    simp only [setLeft_apply, setRight_apply]
    rw [if_neg (by omega), if_neg (by omega)]

/-- The links of the nodes of a tree stay inside the tree, except the parent of the root. -/
theorem Ok_links {m : Mem α} {p : Option Nat} {t : T α} (h : Ok m p t) :
    ∀ i ∈ t.addrs, (∀ j, (m i).left = some j → j ∈ t.addrs) ∧ (∀ j, (m i).right = some j → j ∈ t.addrs) ∧
      (∀ j, (m i).parent = some j → j ∈ t.addrs ∨ p = some j) := by
  have hroot : ∀ (t : T α) j, t.root = some j → j ∈ t.addrs := by
    intro t j; cases t <;> simp [T.addrs, T.root]; intro h; simp [h]
  induction t generalizing p with
  | nil => simp [T.addrs]
  | node c l i d r ihl ihr =>
    obtain ⟨hc, hl, hr⟩ := h
    intro k hk
    simp only [T.addrs, List.mem_append, List.mem_cons] at hk ⊢
    rcases hk with hk | rfl | hk
    · obtain ⟨a, b, e⟩ := ihl hl k hk
      exact ⟨fun j hj => .inl (a j hj), fun j hj => .inl (b j hj), fun j hj => by
        rcases e j hj with h | h
        · exact .inl (.inl h)
        · injection h with h; exact .inl (.inr (.inl h.symm))⟩
    · rw [hc]
      exact ⟨fun j hj => .inl (hroot l j hj), fun j hj => .inr (.inr (hroot r j hj)), fun j hj => .inr hj⟩
    · obtain ⟨a, b, e⟩ := ihr hr k hk
      exact ⟨fun j hj => .inr (.inr (a j hj)), fun j hj => .inr (.inr (b j hj)), fun j hj => by
        rcases e j hj with h | h
        · exact .inl (.inr (.inr h))
        · injection h with h; exact .inl (.inr (.inl h.symm))⟩

variable {key : α → Nat} {cap : Nat} {s : TreeState α} {b : Book α} {t : T α} {fl : List Nat}

/-- The slots below `n` are in use and hold the contents, the others are free in order. -/
structure Packed (key : α → Nat) (cap : Nat) (s : TreeState α) (b : Book α) (t : T α) : Prop where
  inv : Inv key cap s b t (List.range' s.st.length (cap - s.st.length))
  noneLost : b.lost = 0

theorem Packed.size (h : Packed key cap s b t) : t.size = s.st.length ∧ s.st.length ≤ cap := by
  have h1 := h.inv.count
  have h2 := h.inv.free.len
  rw [h.noneLost] at h1
  rw [h.inv.hcap] at h2
  simp at h1 h2
  omega

theorem Packed.below (h : Packed key cap s b t) : ∀ i ∈ t.addrs, i < s.st.length := by
  intro i hi
  have h1 := h.inv.disj i hi
  have h2 := h.inv.bound i hi
  simp [List.mem_range'] at h1
  by_cases hlt : s.st.length ≤ i
  · have := h1 (i - s.st.length) (by omega); omega
  · omega

theorem length_le_of_below {n : Nat} : ∀ {l : List Nat}, l.Nodup → (∀ i ∈ l, i < n) → l.length ≤ n := by
  induction n with
  | zero =>
    intro l _ hb
    cases l with
    | nil => simp
    | cons a l => have := hb a (by simp); omega
  | succ n ih =>
    intro l hnd hb
    have h1 := ih (l := l.erase n) (hnd.erase n) (fun j hj => by
      have h1 := hb j (List.mem_of_mem_erase hj)
      have h2 : j ≠ n := fun e => by subst e; exact (List.Nodup.not_mem_erase hnd) hj
      omega)
    rw [List.length_erase] at h1
    split at h1 <;> omega

/-- Everything below `length` holds a value. -/
theorem all_below {n : Nat} : ∀ {l : List Nat}, l.Nodup → (∀ i ∈ l, i < n) → l.length = n → ∀ i, i < n → i ∈ l := by
  induction n with
  | zero => intro l _ _ _ i hi; omega
  | succ n ih =>
    intro l hnd hb hl
    have hn : n ∈ l := by
      apply Classical.byContradiction
      intro hn
      have hb' : ∀ i ∈ l, i < n := fun i hi => by
        have := hb i hi
        have : i ≠ n := fun e => hn (e ▸ hi)
        omega
      have := length_le_of_below hnd hb'
      omega
    intro i hi
    by_cases e : i = n
    · subst e; exact hn
    · have hm := ih (l := l.erase n) (hnd.erase n) (fun j hj => by
        have h1 := hb j (List.mem_of_mem_erase hj)
        have h2 : j ≠ n := fun e => by subst e; exact (List.Nodup.not_mem_erase hnd) hj
        omega) (by rw [List.length_erase_of_mem hn]; omega) i (by omega)
      exact List.mem_of_mem_erase hm

theorem Packed.links (h : Packed key cap s b t) {cap' : Nat} (hc : s.st.length ≤ cap') : ((List.range s.st.length).any (fun i => outside cap' (s.st.mem i).left || outside cap' (s.st.mem i).right ||
      outside cap' (s.st.mem i).parent)) = false := by
  obtain ⟨hsz, hle⟩ := h.size
  have hlt := h.below
  have hall : ∀ i, i < s.st.length → i ∈ t.addrs :=
    all_below h.inv.holds.nodup hlt (by rw [← size_addrs, hsz])
  have hlinks := Ok_links h.inv.holds.ok
  rw [List.any_eq_false]
  intro i hi
  obtain ⟨h1, h2, h3⟩ := hlinks i (hall i (by simpa using hi))
  simp only [] at h1 h2 h3 ⊢
  have key : ∀ o : Option Nat, (∀ j, o = some j → j ∈ t.addrs) → outside cap' o = false := by
    intro o ho
    cases o with
    | none => rfl
    | some j => have := hlt j (ho j rfl); simp [outside]; omega
  rw [key _ h1, key _ h2, key _ (fun j hj => by
    rcases h3 j hj with h | h
    · exact h
    · cases h)]
  simp

theorem Packed.firstFree (h : Packed key cap s b t) : s.st.firstFree = s.st.length := by
  have hle := h.size.2
  have hinv := h.inv
  generalize hL : s.st.length = L at *
  unfold Store.firstFree
  have hch := hinv.free.chain
  by_cases e : L = cap
  · subst e
    simp at hch
    cases ha : s.st.available with
    | none => simp only []; omega
    | some n => rw [ha] at hch; exact absurd hch (by simp [FreeChain])
  · obtain ⟨k, hk⟩ : ∃ k, cap - L = k + 1 := ⟨cap - L - 1, by omega⟩
    rw [hk, List.range'_succ] at hch
    cases ha : s.st.available with
    | none => rw [ha] at hch; exact absurd hch (by simp [FreeChain])
    | some n => rw [ha] at hch; exact hch.1

/-- The storage after a resize. -/
def moved (m0 m : Mem α) (L cap' : Nat) : Store α :=
  ⟨buildFrom (copyFrom m0 m 0 L) L (cap' - 1 - L), cap', L, some L⟩

theorem Packed.resize (h : Packed key cap s b t) (hcap : 0 < cap) (m : Mem α) {cap' : Nat} (hc : s.st.length < cap')
    (hm : (m (cap' - 1)).right = none) :
    ∃ s', resize s m cap' = .ok s' ∧ Packed key cap' s' b t ∧ s'.st.length = s.st.length := by
  obtain ⟨hsz, hle⟩ := h.size
  have hlt := h.below
  have hall : ∀ i, i < s.st.length → i ∈ t.addrs :=
    all_below h.inv.holds.nodup hlt (by rw [← size_addrs, hsz])
  have hinv := h.inv
  generalize hL : s.st.length = L at *
  have hlinks := Ok_links hinv.holds.ok
  have hnone := h.links (cap' := cap') (by omega)
  have hidx := h.firstFree
  rw [hL] at hnone hidx
  have hst : s.st.resize m cap' = .ok (moved s.st.mem m L cap') := by
    unfold Store.resize
    rw [hL, if_neg (by omega), if_neg (by rw [hinv.hcap]; omega), hnone]
    simp only [Bool.false_eq_true, if_false, hidx]
    rw [if_neg (by omega)]
    rfl
  have hmem : ∀ i, i < L → buildFrom (copyFrom s.st.mem m 0 L) L (cap' - 1 - L) i = s.st.mem i := by
    intro i hi
    rw [buildFrom_below _ _ _ _ hi, copyFrom_apply, if_pos (by omega)]
  have hroot : rootCheck s.root (moved s.st.mem m L cap') = .ok ⟨moved s.st.mem m L cap', s.root⟩ := by
    unfold rootCheck
    cases hr : s.root with
    | none => rfl
    | some i =>
      have h1 := hinv.holds.root
      simp only [hr] at h1
      have : i ∈ t.addrs := by
        cases t with
        | nil => cases h1
        | node c l k d r => simp at h1; simp [T.addrs, h1]
      exact if_pos (show i < cap' by have := hlt i this; omega)
  refine ⟨⟨moved s.st.mem m L cap', s.root⟩, by unfold Tree.resize; simp only [hst]; exact hroot, ⟨⟨⟨hinv.holds.root, ?_, hinv.holds.nodup⟩, ⟨?_, ?_, ?_, ?_⟩, rfl,
    hinv.items, hinv.asc, ?_, ?_, ?_⟩, h.noneLost⟩, rfl⟩
  · exact Ok_congr (fun i hi => hmem i (hlt i hi)) hinv.holds.ok
  · have := build_chain (copyFrom s.st.mem m 0 L) L (cap' - 1 - L) (by
      rw [copyFrom_apply, if_neg (by omega), show L + (cap' - 1 - L) = cap' - 1 by omega]; exact hm)
    rwa [show cap' - 1 - L + 1 = cap' - L by omega] at this
  · exact List.nodup_range'
  · intro i hi; simp [moved, List.mem_range'] at hi ⊢; omega
  · simp [moved]; omega
  · intro i hi; have := hlt i hi; simp [moved, List.mem_range']; omega
  · intro i hi; have := hlt i hi; omega
  · rw [h.noneLost, hsz]; simp [moved]; omega

/-- The values are added one after the other and every insertion succeeds. -/
def AllAdded (tr : List (Op α × Outcome CErr Nat)) : Prop := ∀ e ∈ tr, ∃ i, e.2 = .ok i

theorem Step_add_ok {b' : Book α} {d : α} {i : Nat} (h : Step key cap b (.add d) (.ok i) b') : b'.lost = b.lost := by
  cases h; rfl

theorem Packed.added {s' : TreeState α} {b' : Book α} {t' : T α} {d : α} {i : Nat} (h : Packed key cap s b t)
    (hs : Step key cap b (.add d) (.ok i) b')
    (hi : Inv key cap s' b' t' (List.range' s.st.length (cap - s.st.length)).tail) :
    Packed key cap s' b' t' ∧ s'.st.length = s.st.length + 1 := by
  have hl := h.size
  have hlt : s.st.length < cap := by
    have := h.inv.used
    cases hs with
    | new _ _ _ hu => omega
  obtain ⟨k, hk⟩ : ∃ k, cap - s.st.length = k + 1 := ⟨cap - s.st.length - 1, by omega⟩
  have hlen : s'.st.length = s.st.length + 1 := by
    have h1 := hi.free.len
    rw [hi.hcap] at h1
    simp at h1
    omega
  refine ⟨⟨?_, (Step_add_ok hs).trans h.noneLost⟩, hlen⟩
  rw [hk, List.range'_succ, List.tail_cons] at hi
  rw [hlen, show cap - (s.st.length + 1) = k by omega]
  exact hi

theorem fill {exec : TreeState α → Op α → Outcome CErr Nat × TreeState α} (Q : T α → Prop)
    (hstep : ∀ s b t d, Packed key cap s b t → Q t → ∃ b' t', Step key cap b (.add d) (exec s (.add d)).1 b' ∧
      Inv key cap (exec s (.add d)).2 b' t' (List.range' s.st.length (cap - s.st.length)).tail ∧ Q t')
    (ds : List α) : ∀ s b t, Packed key cap s b t → Q t → AllAdded (trace exec s (ds.map .add)) →
    ∃ b' t', History key cap b (trace exec s (ds.map .add)) b' ∧ Packed key cap (final exec s (ds.map .add)) b' t' ∧
      Q t' ∧ (final exec s (ds.map .add)).st.length = s.st.length + ds.length := by
  induction ds with
  | nil => intro s b t h hq _; exact ⟨b, t, .nil b, h, hq, rfl⟩
  | cons d ds ih =>
    intro s b t h hq ha
    obtain ⟨b', t', h1, h2, h3⟩ := hstep s b t d h hq
    obtain ⟨i, hi⟩ := ha _ List.mem_cons_self
    simp only [] at hi
    obtain ⟨h4, h5⟩ := h.added (hi ▸ h1) h2
    obtain ⟨b2, t2, g1, g2, g3, g4⟩ := ih _ _ _ h4 h3 (fun e he => ha e (List.mem_cons_of_mem _ he))
    exact ⟨b2, t2, .cons _ _ _ _ _ _ h1 g1, g2, g3, by
      simp only [List.map_cons, final, List.length_cons]; rw [g4, h5]; omega⟩

theorem init_packed (key : α → Nat) (m0 : Mem α) {cap : Nat} (hc : 0 < cap) (h0 : (m0 (cap - 1)).right = none) :
    ∃ st, withCapacity m0 cap = .ok st ∧ Packed key cap ⟨st, none⟩ ⟨[], 0⟩ .nil ∧ st.length = 0 := by
  obtain ⟨st, h1, h2⟩ := init_inv key m0 hc h0
  have : st.length = 0 := by simpa [Book.used] using h2.used
  exact ⟨st, h1, ⟨by simp only [this]; simpa using h2, rfl⟩, this⟩

/-- C47 for the red-black tree. A tree that has only been filled, by insertions that all succeeded, can be
moved to any buffer with more slots than values: contents and slots stay, and it goes on working as
specified, now with the capacity of the new buffer. Missing for the full property: trees from which values
have been deleted (`resize_corrupts`) and buffers with no slot to spare (`resize_full_panics`). -/
theorem rbt_resize_partial (key : α → Nat) (m0 : Mem α) {cap : Nat} (hc : 0 < cap) (h0 : (m0 (cap - 1)).right = none)
    (ds : List α) :
    ∃ s0, Rbt.withCapacity m0 cap = .ok s0 ∧ (AllAdded (trace (Rbt.exec key) s0 (ds.map .add)) →
      ∃ b, History key cap ⟨[], 0⟩ (trace (Rbt.exec key) s0 (ds.map .add)) b ∧
        ∀ (m : Mem α) (cap' : Nat), ds.length < cap' → (m (cap' - 1)).right = none →
          ∃ s1, resize (final (Rbt.exec key) s0 (ds.map .add)) m cap' = .ok s1 ∧ Agrees key cap' s1 b ∧
            ∀ ops, AsSpecified (Rbt.exec key) key cap' s1 b ops) := by
  obtain ⟨st, h1, h2, h3⟩ := init_packed key m0 hc h0
  refine ⟨⟨st, none⟩, by simp [Rbt.withCapacity, h1], fun ha => ?_⟩
  obtain ⟨b, t, h4, h5, h6, h7⟩ := fill (key := key) (cap := cap) (fun t => t.black = true)
    (fun s b t d hp hq => Rbt.add_step hp.inv hq d) ds _ _ _ h2 rfl ha
  refine ⟨b, h4, fun m cap' hc' hm => ?_⟩
  simp only [h3, Nat.zero_add] at h7
  obtain ⟨s1, e1, e2, _⟩ := h5.resize hc m (cap' := cap') (by omega) hm
  refine ⟨s1, e1, e2.inv.agrees, fun ops => ?_⟩
  refine history_of (fun s b => ∃ t fl, Inv key cap' s b t fl ∧ t.black = true) ?_ ?_ ops _ _ ⟨t, _, e2.inv, h6⟩
  · rintro s b ⟨t, fl, h, _⟩; exact h.agrees
  · rintro s b op ⟨t, fl, h, hb⟩ hl
    obtain ⟨b', t', fl', h3, h4, h5⟩ := Rbt.step h hb op hl
    exact ⟨b', h3, t', fl', h4, h5⟩

/-- C47 for the binary search tree, likewise. -/
theorem bst_resize_partial (key : α → Nat) (m0 : Mem α) {cap : Nat} (hc : 0 < cap) (h0 : (m0 (cap - 1)).right = none)
    (ds : List α) :
    ∃ s0, Bst.withCapacity m0 cap = .ok s0 ∧ (AllAdded (trace (Bst.exec key) s0 (ds.map .add)) →
      ∃ b, History key cap ⟨[], 0⟩ (trace (Bst.exec key) s0 (ds.map .add)) b ∧
        ∀ (m : Mem α) (cap' : Nat), ds.length < cap' → (m (cap' - 1)).right = none →
          ∃ s1, resize (final (Bst.exec key) s0 (ds.map .add)) m cap' = .ok s1 ∧ Agrees key cap' s1 b ∧
            ∀ ops, AsSpecified (Bst.exec key) key cap' s1 b ops) := by
  obtain ⟨st, h1, h2, h3⟩ := init_packed key m0 hc h0
  refine ⟨⟨st, none⟩, by simp [Bst.withCapacity, h1], fun ha => ?_⟩
  obtain ⟨b, t, h4, h5, _, h7⟩ := fill (key := key) (cap := cap) (fun _ => True)
    (fun s b t d hp hq => by
      obtain ⟨b', t', g1, g2⟩ := Bst.add_step hp.inv d
      exact ⟨b', t', g1, g2, trivial⟩) ds _ _ _ h2 trivial ha
  refine ⟨b, h4, fun m cap' hc' hm => ?_⟩
  simp only [h3, Nat.zero_add] at h7
  obtain ⟨s1, e1, e2, _⟩ := h5.resize hc m (cap' := cap') (by omega) hm
  refine ⟨s1, e1, e2.inv.agrees, fun ops => ?_⟩
  refine history_of (fun s b => ∃ t fl, Inv key cap' s b t fl) ?_ ?_ ops _ _ ⟨t, _, e2.inv⟩
  · rintro s b ⟨t, fl, h⟩; exact h.agrees
  · rintro s b op ⟨t, fl, h⟩ hl
    obtain ⟨b', t', fl', h3, h4⟩ := Bst.step h op hl
    exact ⟨b', h3, t', fl', h4⟩

/-- A full buffer cannot be exchanged for one of the same size, although the comment promises a panic only
if the new one is smaller. -/
theorem resize_full_panics {s : TreeState α} (h : Packed key cap s b t) (hcap : 0 < cap) (m : Mem α) :
    resize s m s.st.length = .panic := by
  unfold resize Store.resize
  rw [if_neg (by omega), if_neg (by rw [h.inv.hcap]; omega), h.links (Nat.le_refl _), if_neg (by simp),
    if_pos (by rw [h.firstFree]; exact Nat.le_refl _)]

/-- The values of a tree after a history and a resize to eight slots. -/
def valuesMoved (r : Outcome CErr (TreeState Nat)) (ops : List (Op Nat)) : Outcome CErr (List Nat) :=
  r >>= fun s0 => resize (final (Rbt.exec id) s0 ops) blank 8 >>= values

/-- Five values, four slots: three insertions succeed, then the tree moves and keeps all of them. -/
example : valuesMoved (Rbt.withCapacity blank 4) [.add 5, .add 3, .add 9] = .ok [3, 5, 9] := by decide +kernel

/-- After a deletion, moving the tree loses values: 9 is stored before the move and not found after it, and a
traversal of the moved tree does not end. -/
theorem resize_corrupts :
    (Rbt.withCapacity blank 4 >>= fun s0 => get id (final (Rbt.exec id) s0 [.add 5, .add 3, .add 9, .delete 3]) 9) =
      .ok (some 9) ∧
    (Rbt.withCapacity blank 4 >>= fun s0 => resize (final (Rbt.exec id) s0 [.add 5, .add 3, .add 9, .delete 3]) blank 8
      >>= fun s1 => get id s1 9) = .ok none ∧
    valuesMoved (Rbt.withCapacity blank 4) [.add 5, .add 3, .add 9, .delete 3] = .panic := by decide +kernel

end Verif.Collections.Tree
