import Verif.Collections.TreeApi
import Verif.Collections.TreeSpec
import Verif.Collections.Query
import Verif.Collections.RbtItems
import Verif.Collections.StorageLemmas
/-! The invariant relating the nodes in memory to the contents, and every operation keeps it. -/
namespace Verif.Collections.Tree
variable {α : Type}

structure Inv (key : α → Nat) (cap : Nat) (s : TreeState α) (b : Book α) (t : T α) (fl : List Nat) : Prop where
  holds : Holds ⟨s.st.mem, s.root⟩ t
  free : FreeInv s.st fl
  hcap : s.st.cap = cap
  items : t.items = b.items
  asc : Asc key b.items
  disj : ∀ i ∈ t.addrs, i ∉ fl
  bound : ∀ i ∈ t.addrs, i < cap
  count : t.size + b.lost + fl.length = cap

variable {key : α → Nat} {cap : Nat} {s : TreeState α} {b : Book α} {t : T α} {fl : List Nat}

theorem Inv.size_le (h : Inv key cap s b t fl) : t.size ≤ s.st.cap := by
  have := h.count; rw [h.hcap]; omega

theorem Inv.height_le (h : Inv key cap s b t fl) : t.height ≤ s.st.cap :=
  Nat.le_trans (height_le_size t) h.size_le

theorem Inv.slots (h : Inv key cap s b t fl) : t.addrs = b.slots := by
  rw [addrs_eq, h.items]; rfl

theorem Inv.used (h : Inv key cap s b t fl) : s.st.length = b.used := by
  have h1 := h.count
  have h2 := h.free.len
  have h3 := size_eq t
  rw [h.items] at h3
  rw [h.hcap] at h2
  simp only [Book.used]
  omega

theorem Inv.full (h : Inv key cap s b t fl) : fl = [] ↔ b.used = cap := by
  have h1 := h.count
  have h3 := size_eq t
  rw [h.items] at h3
  simp only [Book.used]
  rw [← List.length_eq_zero_iff]
  omega

theorem init_inv (key : α → Nat) (m0 : Mem α) {cap : Nat} (hc : 0 < cap) (h0 : (m0 (cap - 1)).right = none) :
    ∃ st, withCapacity m0 cap = .ok st ∧ Inv key cap ⟨st, none⟩ ⟨[], 0⟩ .nil (List.range' 0 cap) := by
  obtain ⟨st, h1, h2, h3, h4⟩ := withCapacity_free m0 hc h0
  exact ⟨st, h1, ⟨rfl, trivial, by simp [T.addrs]⟩, h2, h3, rfl, List.Pairwise.nil, by simp [T.addrs],
    by simp [T.addrs], by simp [T.size]⟩

/-! ### Deletion -/

theorem filter_ne {A B : List (Nat × α)} {i : Nat} {d : α} (h : ((A ++ (i, d) :: B).map (·.1)).Nodup) :
    (A ++ (i, d) :: B).filter (fun e => e.1 ≠ i) = A ++ B := by
  rw [List.map_append, List.map_cons, List.nodup_append, List.nodup_cons] at h
  have ha : ∀ e ∈ A, e.1 ≠ i := fun e he => h.2.2 e.1 (List.mem_map_of_mem he) i (by simp)
  have hb : ∀ e ∈ B, e.1 ≠ i := fun e he e' => h.2.1.1 (List.mem_map.2 ⟨e, he, e'⟩)
  rw [List.filter_append, List.filter_cons]
  simp only [ne_eq, decide_not, not_true_eq_false, decide_false]
  rw [List.filter_eq_self.2 (by simpa using ha), List.filter_eq_self.2 (by simpa using hb)]
  simp

theorem Inv.delete (h : Inv key cap s b t fl) {i : Nat} {h' : Heap α} {t' : T α}
    (hr : Removed ⟨s.st.mem, s.root⟩ t i h' t') :
    Inv key cap ⟨Store.delete { s.st with mem := h'.mem } i, h'.root⟩ (b.remove i) t' (i :: fl) := by
  obtain ⟨A, B, d, e1, e2⟩ := hr.items
  have hmem := fun j => mem_of_items (j := j) e1 e2
  have hin : i ∈ t.addrs := (hmem i).2 (.inl rfl)
  have hnd := nodup_of_items e1 e2 h.holds.nodup
  have hcnt := h.count
  have hpos : 0 < t.size := by rw [size_addrs]; exact List.length_pos_of_mem hin
  have hlen := h.free.len
  rw [h.hcap] at hlen
  have hf : FreeInv { s.st with mem := h'.mem } fl :=
    ⟨FreeChain_congr (fun j hj => by
        simp only []
        rw [hr.frame j (fun hm => h.disj j hm hj)]) h.free.chain,
      h.free.nodup, h.free.bound, h.free.len⟩
  obtain ⟨d1, d2, d3, d4⟩ := delete_free hf (h.disj i hin) (by simp only []; rw [h.hcap]; exact h.bound i hin)
    (by simp only []; omega)
  refine ⟨⟨hr.holds.root, ?_, hr.holds.nodup⟩, d1, d2.trans h.hcap, ?_, ?_, ?_, ?_, ?_⟩
  · refine Ok_congr (fun j hj => ?_) hr.holds.ok
    refine d4 j ?_
    rw [List.mem_cons, not_or]
    exact ⟨fun e => hnd.2 (e ▸ hj), h.disj j ((hmem j).2 (.inr hj))⟩
  · have hn : ((A ++ (i, d) :: B).map (·.1)).Nodup := by rw [← e1, ← addrs_eq]; exact h.holds.nodup
    simp only [Book.remove]
    rw [← h.items, e1, filter_ne hn, e2]
  · exact List.Pairwise.filter _ h.asc
  · intro j hj
    rw [List.mem_cons, not_or]
    exact ⟨fun e => hnd.2 (e ▸ hj), h.disj j ((hmem j).2 (.inr hj))⟩
  · exact fun j hj => h.bound j ((hmem j).2 (.inr hj))
  · have s1 : t.size = t'.size + 1 := by rw [size_eq, size_eq, e1, e2]; simp; omega
    simp only [Book.remove, List.length_cons]
    omega

/-! ### Insertion -/

theorem insert_items {A B : List (Nat × α)} {k : Nat} (hA : ∀ e ∈ A, key e.2 < k) (hB : ∀ e ∈ B, k < key e.2) :
    (A ++ B).filter (fun e => key e.2 < k) = A ∧ (A ++ B).filter (fun e => k < key e.2) = B := by
  rw [List.filter_append, List.filter_append]
  constructor
  · rw [List.filter_eq_self.2 (by simpa using hA), List.filter_eq_nil_iff.2 (by
      intro e he; have := hB e he; simp; omega)]
    simp
  · rw [List.filter_eq_nil_iff.2 (by intro e he; have := hA e he; simp; omega),
      List.filter_eq_self.2 (by simpa using hB)]
    simp

theorem Asc_insert {A B : List (Nat × α)} {i : Nat} {d : α} (h : Asc key (A ++ B))
    (hA : ∀ e ∈ A, key e.2 < key d) (hB : ∀ e ∈ B, key d < key e.2) : Asc key (A ++ (i, d) :: B) := by
  rw [Asc_append] at h ⊢
  rw [Asc_cons]
  refine ⟨h.1, ⟨hB, h.2.1⟩, fun a ha c hc => ?_⟩
  rcases List.mem_cons.1 hc with rfl | hc
  · exact hA a ha
  · exact h.2.2 a ha c hc

/-- The tree is still there after a slot has been taken. -/
theorem Inv.taken (h : Inv key cap s b t fl) {n : Nat} (hn : n ∉ t.addrs) {m : Mem α}
    (hm : ∀ j, j ≠ n → m j = s.st.mem j) : Holds ⟨m, s.root⟩ t :=
  ⟨h.holds.root, Ok_congr (fun j hj => hm j (fun e => hn (e ▸ hj))) h.holds.ok, h.holds.nodup⟩

/-- The invariant after a new node has been put into the tree. -/
theorem Inv.added (h : Inv key cap s b t fl) {n : Nat} {fl' : List Nat} (hfl : fl = n :: fl')
    {st1 : Store α} {d : α} (ha : Added s.st d n fl' st1) {h' : Heap α} {t' : T α} {A B : List (Nat × α)}
    (hh : Holds h' t') (hfr : ∀ j, j ∉ t'.addrs → h'.mem j = st1.mem j ) (hA : ∀ e ∈ A, key e.2 < key d)
    (hB : ∀ e ∈ B, key d < key e.2) (ht : t.items = A ++ B) (ht' : t'.items = A ++ (n, d) :: B) :
    Inv key cap ⟨{ st1 with mem := h'.mem }, h'.root⟩ (b.insert key n d) t' fl' := by
  subst hfl
  have hmem : ∀ j, j ∈ t'.addrs ↔ j = n ∨ j ∈ t.addrs := by
    intro j; rw [addrs_eq, addrs_eq, ht, ht']; simp; grind
  have hnd := List.nodup_cons.1 h.free.nodup
  refine ⟨hh, ⟨?_, ha.free.nodup, ha.free.bound, ha.free.len⟩, ha.cap.trans h.hcap, ?_, ?_, ?_, ?_, ?_⟩
  · refine FreeChain_congr (fun j hj => ?_) ha.free.chain
    simp only []
    rw [hfr j]
    rw [hmem, not_or]
    exact ⟨fun e => hnd.1 (e ▸ hj), fun hm => h.disj j hm (by simp [hj])⟩
  · simp only [Book.insert]
    rw [← h.items, ht, (insert_items hA hB).1, (insert_items hA hB).2, ht']
  · simp only [Book.insert]
    rw [← h.items, ht, (insert_items hA hB).1, (insert_items hA hB).2]
    refine Asc_insert ?_ hA hB
    rw [← ht, h.items]; exact h.asc
  · intro j hj
    rcases (hmem j).1 hj with e | hj
    · subst e; exact hnd.1
    · exact fun hm => h.disj j hj (by simp [hm])
  · intro j hj
    rcases (hmem j).1 hj with e | hj
    · subst e; have := h.free.bound j (by simp); rw [h.hcap] at this; exact this
    · exact h.bound j hj
  · have hc := h.count
    have s1 : t'.size = t.size + 1 := by rw [size_eq, size_eq, ht, ht']; simp; omega
    simp only [Book.insert, List.length_cons] at hc ⊢
    omega

/-- The invariant after an insertion that failed: the slot stays taken. -/
theorem Inv.lose (h : Inv key cap s b t fl) {n : Nat} {fl' : List Nat} (hfl : fl = n :: fl')
    {st1 : Store α} {d : α} (ha : Added s.st d n fl' st1) {m : Mem α} (hm : ∀ j, j ≠ n → m j = st1.mem j) :
    Inv key cap ⟨{ st1 with mem := m }, s.root⟩ { b with lost := b.lost + 1 } t fl' := by
  subst hfl
  have hnd := List.nodup_cons.1 h.free.nodup
  have hn : n ∉ t.addrs := fun hm => h.disj n hm (by simp)
  refine ⟨h.taken hn (fun j hj => (hm j hj).trans (ha.other j hj)), ⟨?_, ha.free.nodup, ha.free.bound, ha.free.len⟩,
    ha.cap.trans h.hcap, h.items, h.asc, fun j hj hm => h.disj j hj (by simp [hm]), h.bound, ?_⟩
  · refine FreeChain_congr (fun j hj => ?_) ha.free.chain
    simp only []
    rw [hm j (fun e => hnd.1 (e ▸ hj))]
  · have hc := h.count
    simp only [List.length_cons] at hc ⊢
    omega

theorem setData_tree {m : Mem α} {p : Option Nat} {i : Nat} {d : α} {t : T α} (ho : Ok m p t) (hn : t.addrs.Nodup) :
    ∃ t', Ok (upd m i fun c => { c with data := d }) p t' ∧ t'.root = t.root ∧ t'.addrs = t.addrs ∧
      t'.black = t.black ∧ t'.items = t.items.map fun e => if e.1 = i then (i, d) else e := by
  induction t generalizing p with
  | nil => exact ⟨.nil, trivial, rfl, rfl, rfl, rfl⟩
  | node b l j v r ihl ihr =>
    obtain ⟨e, ol, or⟩ := ho
    rw [nodup_node] at hn
    obtain ⟨l', l1, l2, l3, _, l4⟩ := ihl ol hn.1
    obtain ⟨r', r1, r2, r3, _, r4⟩ := ihr or hn.2.1
    refine ⟨.node b l' j (if j = i then d else v) r', ⟨?_, l1, r1⟩, rfl, by simp [T.addrs, l3, r3], rfl, ?_⟩
    · rw [l2, r2]
      by_cases hj : j = i <;> simp [upd, hj, ← e] <;> simp_all
    · simp only [T.items, l4, r4, List.map_append, List.map_cons]
      by_cases hj : j = i <;> simp [hj]

theorem Inv.put (h : Inv key cap s b t fl) {i : Nat} {d d0 : α} (hi : (i, d0) ∈ b.items) (hk : key d = key d0) :
    ∃ t', Inv key cap (putWithIdx s i d) (b.put i d) t' fl ∧ t'.black = t.black := by
  obtain ⟨t', h1, h2, h3, h4, h5⟩ := setData_tree (i := i) (d := d) h.holds.ok h.holds.nodup
  refine ⟨t', ⟨⟨by simpa [putWithIdx, h2] using h.holds.root, h1, by rw [h3]; exact h.holds.nodup⟩,
    ⟨FreeChain_congr (fun j _ => ?_) h.free.chain, h.free.nodup, h.free.bound, h.free.len⟩, h.hcap,
    by rw [h5, h.items]; rfl, ?_, by rw [h3]; exact h.disj, by rw [h3]; exact h.bound, ?_⟩, h4⟩
  · simp only [putWithIdx, upd]; split <;> rfl
  · have hnd : b.slots.Nodup := by rw [← h.slots]; exact h.holds.nodup
    have hkey : ∀ e ∈ b.items, key (if e.1 = i then (i, d) else e).2 = key e.2 := by
      intro e he
      split
      · rename_i hei
        have hnd' := hnd
        obtain ⟨A, B, hAB⟩ := List.append_of_mem hi
        have : e = (i, d0) := by
          simp only [Book.slots, hAB, List.map_append, List.map_cons, List.nodup_append, List.nodup_cons] at hnd'
          rw [hAB] at he
          rcases List.mem_append.1 he with he | he
          · exact absurd hei (hnd'.2.2 e.1 (List.mem_map_of_mem he) i (by simp))
          · rcases List.mem_cons.1 he with he | he
            · exact he
            · exact absurd (List.mem_map_of_mem (f := (·.1)) he) (by rw [hei]; exact hnd'.2.1.1)
        rw [this]; exact hk
      · rfl
    simp only [Book.put, Asc]
    rw [List.pairwise_map]
    refine List.Pairwise.imp_of_mem ?_ h.asc
    intro x y hx hy hxy
    rw [hkey x hx, hkey y hy]; exact hxy
  · have := h.count
    rw [size_addrs, h3, ← size_addrs]; exact this

end Verif.Collections.Tree
