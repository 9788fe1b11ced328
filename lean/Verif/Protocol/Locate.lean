import Verif.Protocol.Lemmas
/-! Lemmas about the locate functions and the order of handles. -/
namespace Verif.Protocol
open Verif

/-- Ascending in the second component. -/
def Asc (l : List (Nat × Nat)) : Prop := l.Pairwise (fun a b => a.2 < b.2)

theorem mem_insertBy {a x : Nat × Nat} {l : List (Nat × Nat)} : x ∈ insertBy a l ↔ x = a ∨ x ∈ l := by
  induction l with
  | nil => simp [insertBy]
  | cons b l ih =>
    unfold insertBy
    split
    · simp
    · simp only [List.mem_cons, ih]
      constructor
      · rintro (h | h | h)
        · exact Or.inr (Or.inl h)
        · exact Or.inl h
        · exact Or.inr (Or.inr h)
      · rintro (h | h | h)
        · exact Or.inr (Or.inl h)
        · exact Or.inl h
        · exact Or.inr (Or.inr h)

theorem asc_insertBy {a : Nat × Nat} {l : List (Nat × Nat)} (hl : Asc l) (hne : ∀ x ∈ l, x.2 ≠ a.2) : Asc (insertBy a l) := by
  induction l with
  | nil => exact List.pairwise_singleton _ _
  | cons b l ih =>
    obtain ⟨h1, h2⟩ := List.pairwise_cons.1 hl
    unfold insertBy
    split
    · rename_i hab
      refine List.pairwise_cons.2 ⟨?_, hl⟩
      intro x hx
      rcases List.mem_cons.1 hx with h | h
      · subst h; exact hab
      · exact Nat.lt_trans hab (h1 x h)
    · rename_i hab
      refine List.pairwise_cons.2 ⟨?_, ih h2 (fun x hx => hne x (by simp [hx]))⟩
      intro x hx
      have := hne b (by simp)
      rcases mem_insertBy.1 hx with h | h
      · subst h; omega
      · exact h1 x h

theorem sortBy_spec (l : List (Nat × Nat)) (hl : l.Pairwise (fun a b => a.2 ≠ b.2)) :
    Asc (sortBy l) ∧ ∀ x, x ∈ sortBy l ↔ x ∈ l := by
  have gen : ∀ (l acc : List (Nat × Nat)), Asc acc → l.Pairwise (fun a b => a.2 ≠ b.2) →
      (∀ x ∈ acc, ∀ y ∈ l, x.2 ≠ y.2) →
      Asc (l.foldl (fun acc a => insertBy a acc) acc) ∧ ∀ x, x ∈ l.foldl (fun acc a => insertBy a acc) acc ↔ x ∈ acc ∨ x ∈ l := by
    intro l
    induction l with
    | nil => intro acc ha _ _; exact ⟨ha, by simp⟩
    | cons a l ih =>
      intro acc ha hp hd
      obtain ⟨h1, h2⟩ := List.pairwise_cons.1 hp
      have := ih (insertBy a acc) (asc_insertBy ha (fun x hx => hd x hx a (by simp))) h2 (by
        intro x hx y hy
        rcases mem_insertBy.1 hx with h | h
        · subst h; exact h1 y hy
        · exact hd x h y (by simp [hy]))
      refine ⟨this.1, ?_⟩
      intro x
      rw [List.foldl_cons, this.2, mem_insertBy]
      simp only [List.mem_cons]
      constructor
      · rintro ((h | h) | h)
        · exact Or.inr (Or.inl h)
        · exact Or.inl h
        · exact Or.inr (Or.inr h)
      · rintro (h | h | h)
        · exact Or.inl (Or.inr h)
        · exact Or.inl (Or.inl h)
        · exact Or.inr h
  have := gen l [] List.Pairwise.nil hl (fun _ h => by cases h)
  refine ⟨this.1, fun x => ?_⟩
  unfold sortBy
  rw [this.2]; simp

/-- Ascending lists with the same members are equal. -/
theorem asc_ext {l m : List (Nat × Nat)} (hl : Asc l) (hm : Asc m) (h : ∀ x, x ∈ l ↔ x ∈ m) : l = m := by
  induction l generalizing m with
  | nil =>
    cases m with
    | nil => rfl
    | cons b m => exact absurd ((h b).2 (by simp)) (by simp)
  | cons a l ih =>
    cases m with
    | nil => exact absurd ((h a).1 (by simp)) (by simp)
    | cons b m =>
      obtain ⟨h1, h2⟩ := List.pairwise_cons.1 hl
      obtain ⟨h3, h4⟩ := List.pairwise_cons.1 hm
      have hab : a = b := by
        have x1 := (h a).1 (by simp)
        have x2 := (h b).2 (by simp)
        rcases List.mem_cons.1 x1 with e | e
        · exact e
        · rcases List.mem_cons.1 x2 with e' | e'
          · exact e'.symm
          · have := h3 a e; have := h1 b e'; omega
      subst hab
      congr 1
      refine ih h2 h4 ?_
      intro x
      constructor
      · intro hx
        rcases List.mem_cons.1 ((h x).1 (by simp [hx])) with e | e
        · subst e; have := h1 x hx; omega
        · exact e
      · intro hx
        rcases List.mem_cons.1 ((h x).2 (by simp [hx])) with e | e
        · subst e; have := h3 x hx; omega
        · exact e

/-- All handles with their age, oldest first. -/
def aged (db : Db) : List (Nat × Nat) := sortBy (db.handles.map fun (k, hd) => (k, hd.order))

theorem orders_pairwise {db : Db} (hv : Inv db) : db.handles.Pairwise (fun a b => a.2.order ≠ b.2.order) := by
  have : ∀ a ∈ db.handles, ∀ b ∈ db.handles, a.1 < b.1 → a.2.order ≠ b.2.order := by
    intro a ha b hb hlt he
    have := hv.orders a.1 b.1 a.2 b.2 (BMap.get_of_mem hv.sorted ha) (BMap.get_of_mem hv.sorted hb) he
    omega
  exact List.Pairwise.imp_of_mem (fun {a b} ha hb h => this a ha b hb h) hv.sorted

theorem aged_spec {db : Db} (hv : Inv db) : Asc (aged db) ∧
    ∀ k o, (k, o) ∈ aged db ↔ ∃ hd, db.handles.get k = some hd ∧ hd.order = o := by
  have := sortBy_spec (db.handles.map fun (k, hd) => (k, hd.order)) (List.pairwise_map.2 (orders_pairwise hv))
  refine ⟨this.1, ?_⟩
  intro k o
  unfold aged
  rw [this.2, List.mem_map]
  constructor
  · rintro ⟨⟨k', hd⟩, h1, h2⟩
    cases h2
    exact ⟨hd, BMap.get_of_mem hv.sorted h1, rfl⟩
  · rintro ⟨hd, h1, rfl⟩
    exact ⟨(k, hd), BMap.get_some_mem h1, rfl⟩

theorem aged_eq {db : Db} (hv : Inv db) {l : List (Nat × Nat)} (hl : Asc l)
    (h : ∀ k o, (k, o) ∈ l ↔ ∃ hd, db.handles.get k = some hd ∧ hd.order = o) : aged db = l :=
  asc_ext (aged_spec hv).1 hl (fun x => by rw [show x = (x.1, x.2) from rfl, (aged_spec hv).2, h])

/-- Handles that carry `g`. -/
def carries (db : Db) (g k : Nat) : Bool := (db.getInst k g).isSome

theorem has_carries {db : Db} {k g : Nat} {hd : Handle} (h : db.handles.get k = some hd) : hd.protocols.has g = carries db g k := by
  unfold carries BMap.has; rw [getInst_eq h]

theorem locate_all (db : Db) : db.locateHandles none = if aged db = [] then .err .notFound else .ok ((aged db).map (·.1)) := by
  have hfm : (db.handles.filterMap fun (x : Nat × Handle) => match x with | (k, hd) => some (k, hd.order)) =
      db.handles.map fun (k, hd) => (k, hd.order) := by
    rw [← List.filterMap_eq_map]; rfl
  have hnil : aged db = [] ↔ (db.handles.map fun (k, hd) => (k, hd.order)) = [] := by
    unfold aged
    constructor
    · intro h
      cases hl : db.handles with
      | nil => rfl
      | cons x l =>
        exfalso
        rw [hl] at h
        have gen : ∀ (l acc : List (Nat × Nat)), acc ≠ [] → l.foldl (fun acc a => insertBy a acc) acc ≠ [] := by
          intro l
          induction l with
          | nil => exact fun acc h => h
          | cons a l ih =>
            intro acc _
            refine ih _ ?_
            intro hn
            have := mem_insertBy.2 (Or.inl rfl : a = a ∨ a ∈ acc)
            have hn' : insertBy a acc = [] := hn
            rw [hn'] at this; cases this
        exact gen _ [_] (by simp) h
    · intro h; rw [h]; rfl
  unfold Db.locateHandles
  simp only
  rw [hfm]
  by_cases h : aged db = []
  · rw [if_pos h, if_pos (hnil.1 h)]
  · rw [if_neg h, if_neg (fun x => h (hnil.2 x))]; rfl

theorem locate_some {db : Db} (hv : Inv db) (g : Nat) :
    db.locateHandles (some g) = if (aged db).filter (fun x => carries db g x.1) = [] then .err .notFound
      else .ok (((aged db).filter (fun x => carries db g x.1)).map (·.1)) := by
  have hfm : (db.handles.filterMap fun (x : Nat × Handle) => match x with
      | (k, hd) => if hd.protocols.has g then some (k, hd.order) else none) =
      ((db.handles.filter fun x => x.2.protocols.has g).map fun x => (x.1, x.2.order)) := by
    generalize db.handles = l
    induction l with
    | nil => rfl
    | cons x l ih =>
      rw [List.filterMap_cons, ih]
      by_cases h : x.2.protocols.has g = true
      · simp [h]
      · simp [h]
  have hsp := sortBy_spec ((db.handles.filter fun x => x.2.protocols.has g).map fun x => (x.1, x.2.order))
    (List.pairwise_map.2 ((orders_pairwise hv).filter _))
  have heq : sortBy ((db.handles.filter fun x => x.2.protocols.has g).map fun x => (x.1, x.2.order)) =
      (aged db).filter (fun x => carries db g x.1) := by
    refine asc_ext hsp.1 ((aged_spec hv).1.filter _) ?_
    intro x
    rw [hsp.2, List.mem_map, List.mem_filter, show x = (x.1, x.2) from rfl, (aged_spec hv).2]
    constructor
    · rintro ⟨e, h1, h2⟩
      obtain ⟨h3, h4⟩ := List.mem_filter.1 h1
      have hg := BMap.get_of_mem (k := e.1) (v := e.2) hv.sorted h3
      obtain ⟨x1, x2⟩ := x
      have a1 : e.1 = x1 := congrArg Prod.fst h2
      have a2 : e.2.order = x2 := congrArg Prod.snd h2
      subst a1 a2
      exact ⟨⟨e.2, hg, rfl⟩, by rw [← has_carries hg]; exact h4⟩
    · rintro ⟨⟨hd, h1, h2⟩, h3⟩
      refine ⟨(x.1, hd), List.mem_filter.2 ⟨BMap.get_some_mem h1, ?_⟩, by rw [← h2]⟩
      show hd.protocols.has g = true
      rw [has_carries h1]; exact h3
  have hnil : ((db.handles.filter fun x => x.2.protocols.has g).map fun x => (x.1, x.2.order)) = [] ↔
      (aged db).filter (fun x => carries db g x.1) = [] := by
    rw [← heq]
    constructor
    · intro h; rw [h]; rfl
    · intro h
      rw [List.eq_nil_iff_forall_not_mem] at h ⊢
      intro x hx; exact h x ((hsp.2 x).2 hx)
  unfold Db.locateHandles
  simp only
  rw [hfm]
  by_cases h : (aged db).filter (fun x => carries db g x.1) = []
  · rw [if_pos h, if_pos (hnil.2 h)]
  · rw [if_neg h, if_neg (fun x => h (hnil.1 x)), heq]

theorem locateProtocol_spec {db : Db} (hv : Inv db) (g : Nat) :
    (db.locateProtocol g = .err .notFound ∧ ∀ k, db.getInst k g = none) ∨
    ∃ k i, db.getInst k g = some i ∧ db.locateProtocol g = .ok i.interface ∧ ∀ k', db.getInst k' g ≠ none → k ≤ k' := by
  have gen : ∀ l : BMap Handle, BMap.Sorted l →
      ((l.findSome? (fun (x : Nat × Handle) => match x with | (_, hd) => hd.protocols.get g) = none ∧
        ∀ e ∈ l, e.2.protocols.get g = none) ∨
      ∃ e ∈ l, ∃ i, e.2.protocols.get g = some i ∧
        l.findSome? (fun (x : Nat × Handle) => match x with | (_, hd) => hd.protocols.get g) = some i ∧
        ∀ e' ∈ l, e'.2.protocols.get g ≠ none → e.1 ≤ e'.1) := by
    intro l
    induction l with
    | nil => intro _; left; exact ⟨rfl, fun _ h => by cases h⟩
    | cons x l ih =>
      intro hs
      obtain ⟨h1, h2⟩ := List.pairwise_cons.1 hs
      rw [List.findSome?_cons]
      cases hx : x.2.protocols.get g with
      | some i =>
        right
        refine ⟨x, by simp, i, hx, ?_, ?_⟩
        · simp only [hx]
        · intro e' he' _
          rcases List.mem_cons.1 he' with h | h
          · subst h; exact Nat.le_refl _
          · exact Nat.le_of_lt (h1 e' h)
      | none =>
        simp only [hx]
        rcases ih h2 with ⟨a, b⟩ | ⟨e, a, i, b, c, d⟩
        · left
          refine ⟨a, ?_⟩
          intro e he
          rcases List.mem_cons.1 he with h | h
          · subst h; exact hx
          · exact b e h
        · right
          refine ⟨e, by simp [a], i, b, c, ?_⟩
          intro e' he' hne
          rcases List.mem_cons.1 he' with h | h
          · subst h; exact absurd hx hne
          · exact d e' h hne
  unfold Db.locateProtocol
  rcases gen db.handles hv.sorted with ⟨a, b⟩ | ⟨e, a, i, b, c, d⟩
  · left
    refine ⟨by rw [a], ?_⟩
    intro k
    cases hk : db.getInst k g with
    | none => rfl
    | some i =>
      obtain ⟨hd, h1, h2⟩ := getInst_some hk
      have := b (k, hd) (BMap.get_some_mem h1)
      rw [h2] at this; cases this
  · right
    have hg := BMap.get_of_mem (k := e.1) (v := e.2) hv.sorted a
    refine ⟨e.1, i, by rw [getInst_eq hg]; exact b, by rw [c], ?_⟩
    intro k' hk'
    cases hk : db.getInst k' g with
    | none => exact absurd hk hk'
    | some i' =>
      obtain ⟨hd, h1, h2⟩ := getInst_some hk
      exact d (k', hd) (BMap.get_some_mem h1) (by rw [h2]; simp)

theorem sortDedup_spec (l : List Nat) : (sortDedup l).Pairwise (· < ·) ∧ ∀ x, x ∈ sortDedup l ↔ x ∈ l := by
  have gen : ∀ (l : List Nat) (acc : BMap Unit), BMap.Sorted acc →
      BMap.Sorted (l.foldl (fun (acc : BMap Unit) a => acc.insert a ()) acc) ∧
      ∀ x, BMap.has (l.foldl (fun (acc : BMap Unit) a => acc.insert a ()) acc) x = true ↔ acc.has x = true ∨ x ∈ l := by
    intro l
    induction l with
    | nil => intro acc h; exact ⟨h, by simp⟩
    | cons a l ih =>
      intro acc h
      have := ih (acc.insert a ()) (BMap.sorted_insert h _ _)
      refine ⟨this.1, ?_⟩
      intro x
      rw [List.foldl_cons, this.2, BMap.has_insert]
      simp only [Bool.or_eq_true, beq_iff_eq, List.mem_cons]
      constructor
      · rintro ((h | h) | h)
        · exact Or.inr (Or.inl h)
        · exact Or.inl h
        · exact Or.inr (Or.inr h)
      · rintro (h | h | h)
        · exact Or.inl (Or.inr h)
        · exact Or.inl (Or.inl h)
        · exact Or.inr h
  have := gen l [] BMap.Sorted.nil
  refine ⟨BMap.sorted_keys this.1, ?_⟩
  intro x
  unfold sortDedup
  rw [BMap.mem_keys, this.2]
  simp [BMap.has]

end Verif.Protocol
