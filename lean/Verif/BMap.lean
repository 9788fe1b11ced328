/-!
Model of `alloc::collections::BTreeMap<K, V>` with keys read as natural numbers: the list of entries in key order.
`BTreeSet<K>` is `BMap Unit`. Only the documented behaviour of the std types is modelled.
-/
namespace Verif

abbrev BMap (V : Type) := List (Nat × V)

namespace BMap
variable {V : Type}

def get (m : BMap V) (k : Nat) : Option V := (m.find? (fun e => e.1 == k)).map (·.2)

def has (m : BMap V) (k : Nat) : Bool := (m.get k).isSome

def insert : BMap V → Nat → V → BMap V
  | [], k, v => [(k, v)]
  | e :: m, k, v => if k < e.1 then (k, v) :: e :: m else if k = e.1 then (k, v) :: m else e :: insert m k v

def erase (m : BMap V) (k : Nat) : BMap V := m.filter (fun e => !(e.1 == k))

/-- Change the value at `k`, if there is one (`get_mut`). -/
def modify (m : BMap V) (k : Nat) (f : V → V) : BMap V := m.map (fun e => if e.1 = k then (e.1, f e.2) else e)

def keys (m : BMap V) : List Nat := m.map (·.1)

def Sorted (m : BMap V) : Prop := m.Pairwise (fun a b => a.1 < b.1)

theorem Sorted.nil : Sorted ([] : BMap V) := List.Pairwise.nil

@[simp] theorem get_nil (k : Nat) : get ([] : BMap V) k = none := rfl

theorem get_cons (e : Nat × V) (m : BMap V) (k : Nat) : get (e :: m) k = if e.1 = k then some e.2 else get m k := by
  unfold get
  by_cases h : e.1 = k
  · simp [h]
  · simp [h]

theorem get_some_mem {m : BMap V} {k : Nat} {v : V} (h : m.get k = some v) : (k, v) ∈ m := by
  induction m with
  | nil => cases h
  | cons e m ih =>
    rw [get_cons] at h
    split at h
    · rename_i he; cases h; subst he; simp
    · simp [ih h]

theorem get_none_of {m : BMap V} {k : Nat} (h : ∀ e ∈ m, e.1 ≠ k) : m.get k = none := by
  induction m with
  | nil => rfl
  | cons e m ih =>
    rw [get_cons, if_neg (h e (by simp))]
    exact ih (fun x hx => h x (by simp [hx]))

theorem get_of_mem {m : BMap V} (hs : Sorted m) {k : Nat} {v : V} (h : (k, v) ∈ m) : m.get k = some v := by
  induction m with
  | nil => cases h
  | cons e m ih =>
    obtain ⟨h1, h2⟩ := List.pairwise_cons.1 hs
    rcases List.mem_cons.1 h with h | h
    · subst h; rw [get_cons, if_pos rfl]
    · have : e.1 < k := h1 (k, v) h
      rw [get_cons, if_neg (by omega)]
      exact ih h2 h

theorem mem_iff_get {m : BMap V} (hs : Sorted m) {k : Nat} {v : V} : (k, v) ∈ m ↔ m.get k = some v :=
  ⟨get_of_mem hs, get_some_mem⟩

theorem has_iff {m : BMap V} {k : Nat} : m.has k = true ↔ ∃ v, m.get k = some v := by
  unfold has; rw [Option.isSome_iff_exists]

theorem has_false {m : BMap V} {k : Nat} : m.has k = false ↔ m.get k = none := by
  unfold has; cases m.get k <;> simp

theorem mem_keys {m : BMap V} {k : Nat} : k ∈ m.keys ↔ m.has k = true := by
  induction m with
  | nil => simp [keys, has]
  | cons e m ih =>
    unfold keys has at *
    rw [get_cons]
    by_cases h : e.1 = k
    · simp [h]
    · rw [if_neg h, List.map_cons, List.mem_cons, ih]
      constructor
      · rintro (h' | h')
        · exact absurd h'.symm h
        · exact h'
      · exact Or.inr

theorem mem_insert {m : BMap V} {k : Nat} {v : V} {e : Nat × V} (h : e ∈ m.insert k v) : e = (k, v) ∨ e ∈ m := by
  induction m with
  | nil => simpa [insert] using h
  | cons x m ih =>
    unfold insert at h
    split at h
    · rcases List.mem_cons.1 h with h | h
      · exact Or.inl h
      · exact Or.inr h
    · split at h
      · rcases List.mem_cons.1 h with h | h
        · exact Or.inl h
        · exact Or.inr (by simp [h])
      · rcases List.mem_cons.1 h with h | h
        · exact Or.inr (by simp [h])
        · rcases ih h with h | h
          · exact Or.inl h
          · exact Or.inr (by simp [h])

theorem sorted_insert {m : BMap V} (hs : Sorted m) (k : Nat) (v : V) : Sorted (m.insert k v) := by
  induction m with
  | nil => simp [insert, Sorted]
  | cons x m ih =>
    obtain ⟨h1, h2⟩ := List.pairwise_cons.1 hs
    unfold insert
    split
    · rename_i hk
      refine List.pairwise_cons.2 ⟨?_, hs⟩
      intro e he
      rcases List.mem_cons.1 he with he | he
      · subst he; exact hk
      · exact Nat.lt_trans hk (h1 e he)
    · split
      · rename_i hk
        refine List.pairwise_cons.2 ⟨?_, h2⟩
        intro e he
        show k < e.1
        rw [hk]; exact h1 e he
      · rename_i hk hk'
        refine List.pairwise_cons.2 ⟨?_, ih h2⟩
        intro e he
        rcases mem_insert he with he | he
        · subst he; show x.1 < k; omega
        · exact h1 e he

theorem get_insert (m : BMap V) (k : Nat) (v : V) (j : Nat) : (m.insert k v).get j = if j = k then some v else m.get j := by
  induction m with
  | nil =>
    unfold insert
    rw [get_cons]
    by_cases h : j = k
    · subst h; simp
    · simp [h, Ne.symm h]
  | cons x m ih =>
    unfold insert
    split
    · rw [get_cons]
      by_cases h : j = k
      · subst h; simp
      · simp [h, Ne.symm h]
    · split
      · rename_i hk
        rw [get_cons, get_cons]
        by_cases h : j = k
        · subst h; simp
        · rw [if_neg (by exact Ne.symm h), if_neg h, if_neg (by omega)]
      · rename_i hk hk'
        rw [get_cons, ih, get_cons]
        by_cases h : j = k
        · subst h; rw [if_neg (by omega)]; simp
        · by_cases hx : x.1 = j
          · simp [hx, h]
          · simp [hx, h]

theorem sorted_erase {m : BMap V} (hs : Sorted m) (k : Nat) : Sorted (m.erase k) := List.Pairwise.filter _ hs

theorem get_erase (m : BMap V) (k j : Nat) : (m.erase k).get j = if j = k then none else m.get j := by
  induction m with
  | nil => simp [erase]
  | cons x m ih =>
    by_cases hx : x.1 = k
    · have : erase (x :: m) k = erase m k := by simp [erase, hx]
      rw [this, ih, get_cons]
      by_cases h : j = k
      · simp [h]
      · rw [if_neg h, if_neg h, if_neg (by omega)]
    · have : erase (x :: m) k = x :: erase m k := by simp [erase, hx]
      rw [this, get_cons, ih, get_cons]
      by_cases h : j = k
      · subst h; simp [hx]
      · simp [h]

theorem modify_keys (m : BMap V) (k : Nat) (f : V → V) : (m.modify k f).keys = m.keys := by
  unfold modify keys
  rw [List.map_map]
  refine List.map_congr_left ?_
  intro e _
  show (if e.1 = k then (e.1, f e.2) else e).1 = e.1
  split <;> rfl

theorem sorted_modify {m : BMap V} (hs : Sorted m) (k : Nat) (f : V → V) : Sorted (m.modify k f) := by
  unfold Sorted modify
  refine List.pairwise_map.2 (hs.imp ?_)
  intro a b h
  have : ∀ x : Nat × V, (if x.1 = k then (x.1, f x.2) else x).1 = x.1 := fun x => by split <;> rfl
  rw [this, this]; exact h

theorem get_modify (m : BMap V) (k : Nat) (f : V → V) (j : Nat) :
    (m.modify k f).get j = if j = k then (m.get j).map f else m.get j := by
  induction m with
  | nil => simp [modify]
  | cons x m ih =>
    have : modify (x :: m) k f = (if x.1 = k then (x.1, f x.2) else x) :: modify m k f := rfl
    rw [this, get_cons, ih, get_cons]
    by_cases hx : x.1 = k
    · simp only [hx, if_true]
      by_cases h : j = k
      · subst h; simp
      · simp [h, Ne.symm h]
    · simp only [hx, if_false]
      by_cases h : j = k
      · subst h; simp [hx]
      · by_cases hxj : x.1 = j
        · simp [hxj, h]
        · simp [hxj, h]

theorem mem_modify {m : BMap V} {k : Nat} {f : V → V} {e : Nat × V} (h : e ∈ m.modify k f) :
    (e ∈ m ∧ e.1 ≠ k) ∨ ∃ v, (k, v) ∈ m ∧ e = (k, f v) := by
  unfold modify at h
  obtain ⟨x, hx, he⟩ := List.mem_map.1 h
  split at he
  · rename_i hk
    refine Or.inr ⟨x.2, ?_, ?_⟩
    · rw [← hk]; exact hx
    · rw [← hk]; exact he.symm
  · rename_i hk
    subst he
    exact Or.inl ⟨hx, hk⟩

theorem mem_erase {m : BMap V} {k : Nat} {e : Nat × V} : e ∈ m.erase k ↔ e ∈ m ∧ e.1 ≠ k := by
  unfold erase; rw [List.mem_filter]; simp

theorem has_insert (m : BMap V) (k : Nat) (v : V) (j : Nat) : (m.insert k v).has j = (j == k || m.has j) := by
  unfold has; rw [get_insert]
  by_cases h : j = k <;> simp [h]

theorem sorted_keys_nodup {m : BMap V} (hs : Sorted m) : m.keys.Nodup := by
  unfold keys
  refine List.pairwise_map.2 (hs.imp ?_)
  intro a b h; omega

theorem sorted_keys {m : BMap V} (hs : Sorted m) : m.keys.Pairwise (· < ·) := List.pairwise_map.2 hs

end BMap
end Verif
