import Verif.Collections.TreeInv
/-! One operation of either tree. -/
namespace Verif.Collections.Tree
variable {α : Type} {key : α → Nat} {cap : Nat} {s : TreeState α} {b : Book α} {t : T α} {fl : List Nat}

/-- A unit result as a number. -/
def zero : Outcome CErr Unit → Outcome CErr Nat
  | .ok _ => .ok 0
  | .err e => .err e
  | .panic => .panic

/-- One operation of the binary search tree. -/
def Bst.exec (key : α → Nat) (s : TreeState α) : Op α → Outcome CErr Nat × TreeState α
  | .add d => Bst.add key s d
  | .delete k => (zero (Bst.delete key s k).1, (Bst.delete key s k).2)
  | .deleteAt i => (zero (Bst.deleteIdx s i).1, (Bst.deleteIdx s i).2)
  | .put i d => (.ok 0, putWithIdx s i d)

/-- One operation of the red-black tree. -/
def Rbt.exec (key : α → Nat) (s : TreeState α) : Op α → Outcome CErr Nat × TreeState α
  | .add d => Rbt.add key s d
  | .delete k => (zero (Rbt.delete key s k).1, (Rbt.delete key s k).2)
  | .deleteAt i => (zero (Rbt.deleteIdx s i).1, (Rbt.deleteIdx s i).2)
  | .put i d => (.ok 0, putWithIdx s i d)

theorem slotOf_some {k i : Nat} {xs : List (Nat × α)} (h : slotOf key k xs = some i) :
    ∃ d, (i, d) ∈ xs ∧ key d = k := by
  simp only [slotOf, Option.map_eq_some_iff] at h
  obtain ⟨e, h1, h2⟩ := h
  have h3 := List.find?_some h1
  have h4 := List.mem_of_find?_eq_some h1
  refine ⟨e.2, ?_, by simpa using h3⟩
  rw [← h2]; exact h4

theorem slotOf_eq_none {k : Nat} {xs : List (Nat × α)} (h : slotOf key k xs = none) :
    ¬ ∃ e ∈ xs, key e.2 = k := by
  simp only [slotOf, Option.map_eq_none_iff, List.find?_eq_none, decide_eq_true_eq] at h
  rintro ⟨e, he, hk⟩
  exact h e he hk

theorem nil_of_root {h : Heap α} {t : T α} (hh : Holds h t) (hr : h.root = none) : t = .nil := by
  have := hh.root
  rw [hr] at this
  exact root_isNone.1 (by rw [← this]; rfl)

theorem mem_slots (h : Inv key cap s b t fl) {i : Nat} {d : α} (hm : (i, d) ∈ b.items) : i ∈ t.addrs := by
  rw [h.slots]; exact List.mem_map.2 ⟨_, hm, rfl⟩

theorem notAlready {n : Nat} {fl' : List Nat} (h : Inv key cap s b t fl) (hfl : fl = n :: fl') :
    b.used < cap ∧ n < cap ∧ n ∉ b.slots ∧ n ∉ t.addrs := by
  subst hfl
  have hn : n ∉ t.addrs := fun hm => h.disj n hm (by simp)
  have hc := h.count
  have h3 := size_eq t
  rw [h.items] at h3
  refine ⟨by simp only [Book.used, List.length_cons] at *; omega, ?_, by rw [← h.slots]; exact hn, hn⟩
  have := h.free.bound n (by simp); rw [h.hcap] at this; exact this

namespace Bst

theorem add_step (h : Inv key cap s b t fl) (d : α) :
    ∃ b' t', Step key cap b (.add d) (add key s d).1 b' ∧ Inv key cap (add key s d).2 b' t' fl.tail := by
  cases fl with
  | nil =>
    unfold add
    rw [add_full d h.free]
    exact ⟨b, t, .full b d (h.full.1 rfl), h⟩
  | cons n fl' =>
    obtain ⟨st1, e1, ha⟩ := add_free d h.free
    obtain ⟨hu, hnc, hns, hn⟩ := notAlready h rfl
    unfold add
    simp only [e1]
    have hold : Holds ⟨st1.mem, s.root⟩ t := h.taken hn (fun j hj => ha.other j hj)
    cases hr : s.root with
    | none =>
      have ht := nil_of_root h.holds hr
      subst ht
      have hb : b.items = [] := h.items.symm
      refine ⟨_, .node (s.st.mem n).black .nil n d .nil, .new b d n hu (by simp [Book.has, hb]) hnc hns,
        h.added rfl ha (h' := ⟨st1.mem, some n⟩) (A := []) (B := []) ⟨rfl, ⟨ha.cell, trivial, trivial⟩, by simp [T.addrs]⟩
          (fun j _ => rfl) (by simp) (by simp) rfl rfl⟩
    | some r =>
      rw [hr] at hold
      have hh : Holds ⟨st1.mem, some r⟩ (plug [] t) := hold
      have hroot : t.root = some r := hold.root.symm
      have hd : (st1.mem n).data = d := by rw [ha.cell]
      have hcell := ha.cell
      have hmain := addNode_ok (key := key) (h := ⟨st1.mem, some r⟩) (n := n) (t := t) (c := [])
        (fuel := s.st.cap + 1) (cur := r) hroot hh (by rw [h.items]; exact h.asc)
        (by have := h.height_le; omega) (by simp [lo]) (by simp [hi])
      simp only [hd] at hmain
      rcases hmain with ⟨⟨e, he, hk⟩, h2⟩ | ⟨h3, f, c', h40, h4, h5, h6, h7⟩
      · simp only [h2]
        refine ⟨_, t, .dup b d hu ⟨e, by rw [← h.items]; exact he, hk⟩, ?_⟩
        have := h.lose rfl ha (m := st1.mem) (fun _ _ => rfl)
        rw [hr] at this
        exact this
      · simp only [h5]
        have ht : t = plug (f :: c') .nil := h4
        obtain ⟨g1, g2⟩ := hang_ok (h := ⟨st1.mem, some r⟩) (n := n) (ht ▸ hold) (ht ▸ hn) hcell
        refine ⟨_, _, .new b d n hu ?_ hnc hns,
          h.added rfl ha (A := lo (f :: c')) (B := hi (f :: c')) g1 g2 h6 h7 ?_ ?_⟩
        · rintro ⟨e, he, hk⟩
          exact h3 e (by rw [h.items]; exact he) hk
        · rw [ht, items_plug]; rfl
        · rw [items_plug]; rfl

theorem deleteNode_ok (h : Inv key cap s b t fl) {i : Nat} (hi : i ∈ t.addrs) :
    ∃ t' fl', (deleteNode s i).1 = .ok () ∧ Inv key cap (deleteNode s i).2 (b.remove i) t' fl' := by
  obtain ⟨c, bb, l, d, r, e⟩ := find_addr hi
  obtain ⟨h', t', h1, h2⟩ := removeNode_ok (fuel := s.st.cap) (e ▸ h.holds) (e ▸ h.size_le)
  unfold deleteNode
  rw [h1]
  exact ⟨t', _, rfl, h.delete (e ▸ h2)⟩

theorem delete_step (h : Inv key cap s b t fl) (k : Nat) :
    ∃ b' t' fl', Step key cap b (.delete k) (zero (delete key s k).1) b' ∧ Inv key cap (delete key s k).2 b' t' fl' := by
  have hg := getNode_ok (k := k) (fuel := s.st.cap) h.holds.ok (by rw [h.items]; exact h.asc) h.height_le
  have hroot : s.root = t.root := h.holds.root
  unfold delete
  rw [hroot, hg, h.items]
  cases hs : slotOf key k b.items with
  | none =>
    exact ⟨b, t, fl, .absent b k (slotOf_eq_none hs), h⟩
  | some i =>
    obtain ⟨d, hm, hk⟩ := slotOf_some hs
    obtain ⟨t', fl', e1, e2⟩ := deleteNode_ok h (mem_slots h hm)
    simp only [e1, zero]
    subst hk
    exact ⟨_, t', fl', .gone b i d hm, e2⟩

theorem deleteIdx_step (h : Inv key cap s b t fl) (i : Nat) (hl : Legal key cap b (.deleteAt i)) :
    ∃ b' t' fl', Step key cap b (.deleteAt i) (zero (deleteIdx s i).1) b' ∧
      Inv key cap (deleteIdx s i).2 b' t' fl' := by
  unfold deleteIdx
  rw [h.hcap]
  rcases hl with hl | hl
  · have hi : i ∈ t.addrs := by rw [h.slots]; exact hl
    rw [if_pos (h.bound i hi)]
    obtain ⟨t', fl', e1, e2⟩ := deleteNode_ok h hi
    simp only [e1, zero]
    exact ⟨_, t', fl', .goneAt b i hl, e2⟩
  · rw [if_neg (by omega)]
    exact ⟨b, t, fl, .noSlot b i hl, h⟩

theorem step (h : Inv key cap s b t fl) (op : Op α) (hl : Legal key cap b op) :
    ∃ b' t' fl', Step key cap b op (exec key s op).1 b' ∧ Inv key cap (exec key s op).2 b' t' fl' := by
  cases op with
  | add d => obtain ⟨b', t', h1, h2⟩ := add_step h d; exact ⟨b', t', _, h1, h2⟩
  | delete k => exact delete_step h k
  | deleteAt i => exact deleteIdx_step h i hl
  | put i d =>
    obtain ⟨d0, h1, h2⟩ := hl
    obtain ⟨t', h3, _⟩ := h.put h1 h2
    exact ⟨_, t', fl, .wrote b i d (List.mem_map.2 ⟨_, h1, rfl⟩), h3⟩

end Bst

namespace Rbt

/-- Adding a value whose key is new: the tree is repaired along the search path. -/
theorem add_new {n : Nat} (h : Inv key cap s b t (n :: fl)) (hblack : t.black = true) (d : α)
    (hnew : ¬ b.has key (key d)) :
    (add key s d).1 = .ok n ∧ ∃ t', fixAdd (pathTo key (key d) t []) (.node false .nil n d .nil) = some t' ∧
      Inv key cap (add key s d).2 (b.insert key n d) t' fl ∧ t'.black = true := by
  obtain ⟨st1, e1, ha⟩ := add_free d h.free
  obtain ⟨hu, hnc, hns, hn⟩ := notAlready h rfl
  unfold add
  simp only [e1]
  have hred : ∀ j, j ≠ n → setBlack st1.mem n false j = st1.mem j := by
    intro j hj; simp [setBlack_apply, Ne.symm hj]
  have hold : Holds ⟨setBlack st1.mem n false, s.root⟩ t :=
    h.taken hn (fun j hj => by rw [hred j hj, ha.other j hj])
  have hcell : setBlack st1.mem n false n = ⟨d, false, none, none, none⟩ := by
    simp [setBlack_apply, ha.cell]
  cases hr : s.root with
  | none =>
    have ht := nil_of_root h.holds hr
    subst ht
    refine ⟨rfl, .node true .nil n d .nil, rfl,
      h.added rfl ha (h' := ⟨setBlack (setBlack st1.mem n false) n true, some n⟩) (A := []) (B := [])
        ⟨rfl, ⟨?_, trivial, trivial⟩, by simp [T.addrs]⟩
        (fun j hj => ?_) (by simp) (by simp) rfl rfl, rfl⟩
    · simp [setBlack_apply, ha.cell]
    · have : n ≠ j := by simp [T.addrs] at hj; exact Ne.symm hj
      simp [setBlack_apply, this]
  | some r =>
    rw [hr] at hold
    have hh : Holds ⟨setBlack st1.mem n false, some r⟩ (plug [] t) := hold
    have hroot : t.root = some r := hold.root.symm
    have hd : (setBlack st1.mem n false n).data = d := by rw [hcell]
    have hmain := addNode_ok (key := key) (h := ⟨setBlack st1.mem n false, some r⟩) (n := n) (t := t) (c := [])
      (fuel := s.st.cap + 1) (cur := r) hroot hh (by rw [h.items]; exact h.asc)
      (by have := h.height_le; omega) (by simp [lo]) (by simp [hi])
    simp only [hd] at hmain
    rcases hmain with ⟨⟨e, he, hk⟩, h2⟩ | ⟨h3, f, c', h40, h4, h5, h6, h7⟩
    · exact absurd ⟨e, by rw [← h.items]; exact he, hk⟩ hnew
    · simp only [h5]
      have ht : t = plug (f :: c') .nil := h4
      obtain ⟨g1, g2⟩ := hang_ok (h := ⟨setBlack st1.mem n false, some r⟩) (n := n) (ht ▸ hold) (ht ▸ hn) hcell
      obtain ⟨t', f1, f2, f3⟩ := fixAdd_spec (f :: c').length (f :: c') (.node false .nil n d .nil) (Nat.le_refl _)
        (by simp) (.inr (by
          rw [← hblack, ht]; simp only [plug]; apply top_same; cases f <;> rfl))
      have hlen : (f :: c').length < s.st.cap + 1 := by
        have := length_le_size (f :: c') (.nil : T α)
        rw [← ht] at this
        have := h.size_le
        simp only [T.size] at *
        omega
      obtain ⟨h', e2, e3⟩ := fixupAdd_ok (s.st.cap + 1) ⟨hang (setBlack st1.mem n false) (f :: c') n, some r⟩
        (f :: c') (.node false .nil n d .nil) n t' rfl g1 hlen f1
      simp only [e2]
      refine ⟨trivial, t', by rw [← h40]; exact f1,
        h.added rfl ha (A := lo (f :: c')) (B := hi (f :: c')) e3.holds (fun j hj => ?_) h6 h7 ?_ ?_, f3⟩
      · have hj2 : j ∉ (plug (f :: c') (.node false .nil n d .nil)).addrs := fun hm => hj ((e3.perm.mem_iff).2 hm)
        rw [e3.frame j hj2]
        simp only []
        rw [g2 j hj2]
        simp only []
        refine hred j (fun e => hj2 ?_)
        rw [mem_plug]; right; simp [T.addrs, e]
      · rw [ht, items_plug]; rfl
      · rw [f2, items_plug]; rfl

/-- Adding a value whose key exists: the slot is lost. -/
theorem add_dup {n : Nat} (h : Inv key cap s b t (n :: fl)) (d : α) (hdup : b.has key (key d)) :
    (add key s d).1 = .err .alreadyExists ∧ Inv key cap (add key s d).2 { b with lost := b.lost + 1 } t fl := by
  obtain ⟨st1, e1, ha⟩ := add_free d h.free
  obtain ⟨hu, hnc, hns, hn⟩ := notAlready h rfl
  unfold add
  simp only [e1]
  have hred : ∀ j, j ≠ n → setBlack st1.mem n false j = st1.mem j := by
    intro j hj; simp [setBlack_apply, Ne.symm hj]
  have hold : Holds ⟨setBlack st1.mem n false, s.root⟩ t :=
    h.taken hn (fun j hj => by rw [hred j hj, ha.other j hj])
  have hcell : setBlack st1.mem n false n = ⟨d, false, none, none, none⟩ := by
    simp [setBlack_apply, ha.cell]
  cases hr : s.root with
  | none =>
    have ht := nil_of_root h.holds hr
    subst ht
    have hb : b.items = [] := h.items.symm
    simp [Book.has, hb] at hdup
  | some r =>
    rw [hr] at hold
    have hh : Holds ⟨setBlack st1.mem n false, some r⟩ (plug [] t) := hold
    have hroot : t.root = some r := hold.root.symm
    have hd : (setBlack st1.mem n false n).data = d := by rw [hcell]
    have hmain := addNode_ok (key := key) (h := ⟨setBlack st1.mem n false, some r⟩) (n := n) (t := t) (c := [])
      (fuel := s.st.cap + 1) (cur := r) hroot hh (by rw [h.items]; exact h.asc)
      (by have := h.height_le; omega) (by simp [lo]) (by simp [hi])
    simp only [hd] at hmain
    rcases hmain with ⟨_, h2⟩ | ⟨h3, _⟩
    · simp only [h2]
      have := h.lose rfl ha (m := setBlack st1.mem n false) hred
      rw [hr] at this
      exact ⟨trivial, this⟩
    · obtain ⟨e, he, hk⟩ := hdup
      exact absurd hk (h3 e (by rw [h.items]; exact he))

theorem add_step (h : Inv key cap s b t fl) (hblack : t.black = true) (d : α) :
    ∃ b' t', Step key cap b (.add d) (add key s d).1 b' ∧ Inv key cap (add key s d).2 b' t' fl.tail ∧
      t'.black = true := by
  cases fl with
  | nil =>
    unfold add
    rw [add_full d h.free]
    exact ⟨b, t, .full b d (h.full.1 rfl), h, hblack⟩
  | cons n fl' =>
    obtain ⟨hu, hnc, hns, hn⟩ := notAlready h rfl
    by_cases hd : b.has key (key d)
    · obtain ⟨h1, h2⟩ := add_dup h d hd
      exact ⟨_, t, by rw [h1]; exact .dup b d hu hd, h2, hblack⟩
    · obtain ⟨h1, t', _, h2, h3⟩ := add_new h hblack d hd
      exact ⟨_, t', by rw [h1]; exact .new b d n hu hd hnc hns, h2, h3⟩

theorem deleteNode_ok (h : Inv key cap s b t fl) (hblack : t.black = true) {i : Nat} (hi : i ∈ t.addrs) :
    ∃ t' fl', (deleteNode s i).1 = .ok () ∧ Inv key cap (deleteNode s i).2 (b.remove i) t' fl' ∧
      t'.black = true := by
  obtain ⟨c, bb, l, d, r, e⟩ := find_addr hi
  obtain ⟨h', t', h1, h2, h3⟩ := removeNode_ok (fuel := s.st.cap) (e ▸ h.holds) (e ▸ h.size_le) (e ▸ hblack)
  unfold deleteNode
  rw [h1]
  exact ⟨t', _, rfl, h.delete (e ▸ h2), h3⟩

theorem delete_step (h : Inv key cap s b t fl) (hblack : t.black = true) (k : Nat) :
    ∃ b' t' fl', Step key cap b (.delete k) (zero (delete key s k).1) b' ∧
      Inv key cap (delete key s k).2 b' t' fl' ∧ t'.black = true := by
  have hg := getNode_ok (k := k) (fuel := s.st.cap) h.holds.ok (by rw [h.items]; exact h.asc) h.height_le
  have hroot : s.root = t.root := h.holds.root
  unfold delete
  rw [hroot, hg, h.items]
  cases hs : slotOf key k b.items with
  | none =>
    exact ⟨b, t, fl, .absent b k (slotOf_eq_none hs), h, hblack⟩
  | some i =>
    obtain ⟨d, hm, hk⟩ := slotOf_some hs
    obtain ⟨t', fl', e1, e2, e3⟩ := deleteNode_ok h hblack (mem_slots h hm)
    simp only [e1, zero]
    subst hk
    exact ⟨_, t', fl', .gone b i d hm, e2, e3⟩

theorem deleteIdx_step (h : Inv key cap s b t fl) (hblack : t.black = true) (i : Nat)
    (hl : Legal key cap b (.deleteAt i)) :
    ∃ b' t' fl', Step key cap b (.deleteAt i) (zero (deleteIdx s i).1) b' ∧
      Inv key cap (deleteIdx s i).2 b' t' fl' ∧ t'.black = true := by
  unfold deleteIdx
  rw [h.hcap]
  rcases hl with hl | hl
  · have hi : i ∈ t.addrs := by rw [h.slots]; exact hl
    rw [if_pos (h.bound i hi)]
    obtain ⟨t', fl', e1, e2, e3⟩ := deleteNode_ok h hblack hi
    simp only [e1, zero]
    exact ⟨_, t', fl', .goneAt b i hl, e2, e3⟩
  · rw [if_neg (by omega)]
    exact ⟨b, t, fl, .noSlot b i hl, h, hblack⟩

theorem step (h : Inv key cap s b t fl) (hblack : t.black = true) (op : Op α) (hl : Legal key cap b op) :
    ∃ b' t' fl', Step key cap b op (exec key s op).1 b' ∧ Inv key cap (exec key s op).2 b' t' fl' ∧
      t'.black = true := by
  cases op with
  | add d => obtain ⟨b', t', h1, h2⟩ := add_step h hblack d; exact ⟨b', t', _, h1, h2⟩
  | delete k => exact delete_step h hblack k
  | deleteAt i => exact deleteIdx_step h hblack i hl
  | put i d =>
    obtain ⟨d0, h1, h2⟩ := hl
    obtain ⟨t', h3, h4⟩ := h.put h1 h2
    exact ⟨_, t', fl, .wrote b i d (List.mem_map.2 ⟨_, h1, rfl⟩), h3, h4.trans hblack⟩

end Rbt
end Verif.Collections.Tree
