import Verif.Collections.Heap
/-! The free list of the node storage. -/
namespace Verif.Collections.Tree
variable {α : Type}

/-- The free slots in list order, linked through `right`. -/
def FreeChain (m : Mem α) : Option Nat → List Nat → Prop
  | none, [] => True
  | some n, k :: fl => n = k ∧ FreeChain m (m n).right fl
  | _, _ => False

/-- The free list of the storage is `fl`, and `length` counts the slots not on it. -/
structure FreeInv (s : Store α) (fl : List Nat) : Prop where
  chain : FreeChain s.mem s.available fl
  nodup : fl.Nodup
  bound : ∀ i ∈ fl, i < s.cap
  len : s.length + fl.length = s.cap

theorem FreeChain_congr {m m' : Mem α} {o : Option Nat} {fl : List Nat}
    (h : ∀ i ∈ fl, (m' i).right = (m i).right) (hc : FreeChain m o fl) : FreeChain m' o fl := by
  induction fl generalizing o with
  | nil => cases o <;> exact hc
  | cons k fl ih =>
    cases o with
    | none => exact hc
    | some n =>
      obtain ⟨e, hc⟩ := hc
      refine ⟨e, ?_⟩
      rw [h n (by simp [e])]
      exact ih (fun i hi => h i (by simp [hi])) hc

theorem add_full {s : Store α} (d : α) (h : FreeInv s []) : s.add d = .err .outOfSpace := by
  have hc := h.chain
  unfold Store.add
  cases ha : s.available with
  | none => rfl
  | some n => rw [ha] at hc; exact absurd hc (by simp [FreeChain])

/-- What `Store.add` does when a slot is free. -/
structure Added (s : Store α) (d : α) (n : Nat) (fl : List Nat) (s' : Store α) : Prop where
  free : FreeInv s' fl
  cap : s'.cap = s.cap
  len : s'.length = s.length + 1
  cell : s'.mem n = ⟨d, (s.mem n).black, none, none, none⟩
  other : ∀ j, j ≠ n → s'.mem j = s.mem j

theorem add_free {s : Store α} (d : α) {n : Nat} {fl : List Nat} (h : FreeInv s (n :: fl)) :
    ∃ s', s.add d = .ok (n, s') ∧ Added s d n fl s' := by
  have hc := h.chain
  have hl := h.len
  have hne : s.length ≠ s.cap := by simp at hl; omega
  unfold Store.add
  cases ha : s.available with
  | none => rw [ha] at hc; exact absurd hc (by simp [FreeChain])
  | some k =>
    rw [ha] at hc
    obtain ⟨e, hc⟩ := hc
    subst e
    have hnd := List.nodup_cons.1 h.nodup
    simp only [if_neg hne]
    refine ⟨_, rfl, ⟨?_, hnd.2, fun i hi => h.bound i (by simp [hi]), by simp at hl ⊢; omega⟩, rfl, rfl, ?_, ?_⟩
    · simp only []
      refine FreeChain_congr (fun i hi => ?_) hc
      have : i ≠ k := fun e => hnd.1 (e ▸ hi)
      simp [upd, this]
    · simp [upd]
    · intro j hj; simp [upd, hj]

theorem delete_free {s : Store α} {n : Nat} {fl : List Nat} (h : FreeInv s fl) (hn : n ∉ fl) (hb : n < s.cap)
    (hl : 0 < s.length) : FreeInv (s.delete n) (n :: fl) ∧ (s.delete n).cap = s.cap ∧
    (s.delete n).length + 1 = s.length ∧ ∀ j, j ∉ n :: fl → (s.delete n).mem j = s.mem j := by
  have hc := h.chain
  have hlen := h.len
  unfold Store.delete
  cases ha : s.available with
  | none =>
    rw [ha] at hc
    cases fl with
    | cons k fl => exact absurd hc (by simp [FreeChain])
    | nil =>
      refine ⟨⟨⟨rfl, ?_⟩, by simp, fun i hi => by simp at hi; subst hi; exact hb, ?_⟩, rfl, ?_, ?_⟩
      · simp [setRight_apply, FreeChain]
      · simp at hlen ⊢; omega
      · simp only []; omega
      · intro j hj
        have : n ≠ j := by simp at hj; exact Ne.symm hj
        simp [setRight_apply, setLeft_apply, setParent_apply, this]
  | some r =>
    rw [ha] at hc
    cases fl with
    | nil => exact absurd hc (by simp [FreeChain])
    | cons k fl =>
      obtain ⟨e, hc⟩ := hc
      subst e
      have hrn : r ≠ n := fun e => hn (by simp [e])
      have hsame : ∀ i, i ≠ n → (setLeft (setRight (setLeft (setParent s.mem n none) n none) n (some r)) r
          (some n) i).right = (s.mem i).right := by
        intro i hi
        simp only [setLeft_apply, setRight_apply, setParent_apply, Ne.symm hi, if_false]
        split <;> rfl
      refine ⟨⟨⟨rfl, ?_⟩, List.nodup_cons.2 ⟨hn, h.nodup⟩, fun i hi => ?_, ?_⟩, rfl, ?_, ?_⟩
      · have : (setLeft (setRight (setLeft (setParent s.mem n none) n none) n (some r)) r (some n) n).right =
            some r := by
          simp [setLeft_apply, setRight_apply, setParent_apply, hrn]
        simp only [this]
        refine ⟨rfl, ?_⟩
        rw [hsame r hrn]
        refine FreeChain_congr (fun i hi => hsame i (fun e => hn (by simp [← e, hi]))) hc
      · rcases List.mem_cons.1 hi with e | hi
        · subst e; exact hb
        · exact h.bound i hi
      · simp at hlen ⊢; omega
      · simp only []; omega
      · intro j hj
        simp only [List.mem_cons, not_or] at hj
        simp [setLeft_apply, setRight_apply, setParent_apply, Ne.symm hj.1, Ne.symm hj.2.1]

theorem buildFrom_right (m : Mem α) (i k j : Nat) :
    (buildFrom m i k j).right = if i ≤ j ∧ j < i + k then some (j + 1) else (m j).right := by
  induction k generalizing m i with
  | zero => simp only [buildFrom]; rw [if_neg (by omega)]
  | succ k ih =>
    simp only [buildFrom, ih]
    by_cases h1 : i + 1 ≤ j ∧ j < i + 1 + k
    · rw [if_pos h1, if_pos (by omega)]
    · rw [if_neg h1]
      simp only [setLeft_apply, setRight_apply]
      by_cases h2 : j = i
      · subst h2; simp
      · rw [if_neg (show ¬ i = j from fun e => h2 e.symm)]
        have h3 : ¬ (i ≤ j ∧ j < i + (k + 1)) := by omega
        rw [if_neg h3]
        split <;> rfl

theorem build_chain (m : Mem α) (i k : Nat) (hend : (m (i + k)).right = none) :
    FreeChain (buildFrom m i k) (some i) (List.range' i (k + 1)) := by
  have hgen : ∀ (n j : Nat), j + n = i + k → i ≤ j →
      FreeChain (buildFrom m i k) (some j) (List.range' j (n + 1)) := by
    intro n
    induction n with
    | zero =>
      intro j hj hij
      refine ⟨rfl, ?_⟩
      rw [buildFrom_right, if_neg (by omega)]
      have : j = i + k := by omega
      subst this
      rw [hend]; trivial
    | succ n ih =>
      intro j hj hij
      rw [List.range'_succ]
      refine ⟨rfl, ?_⟩
      rw [buildFrom_right, if_pos (by omega)]
      exact ih (j + 1) (by omega) (by omega)
  exact hgen k i rfl (Nat.le_refl _)

/-- `with_capacity` on memory whose last node has a null `right` link (zeroed memory has). -/
theorem withCapacity_free (m0 : Mem α) {cap : Nat} (hc : 0 < cap) (h0 : (m0 (cap - 1)).right = none) :
    ∃ s, withCapacity m0 cap = .ok s ∧ FreeInv s (List.range' 0 cap) ∧ s.cap = cap ∧ s.length = 0 := by
  unfold withCapacity
  rw [if_neg (by omega)]
  refine ⟨_, rfl, ⟨?_, List.nodup_range', fun i hi => ?_, ?_⟩, rfl, rfl⟩
  · simp only []
    have := build_chain m0 0 (cap - 1) (by rw [Nat.zero_add]; exact h0)
    rwa [show cap - 1 + 1 = cap by omega] at this
  · simp only []; simp [List.mem_range'] at hi; omega
  · simp

end Verif.Collections.Tree
