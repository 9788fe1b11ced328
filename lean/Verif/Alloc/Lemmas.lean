import Verif.Alloc.Spec
import Verif.Hob.Relocate
import Verif.Gcd.AllocProps
/-!
Words in memory, layouts, and the free lists.
-/
namespace Verif.Alloc
open Verif.Gcd
open Verif.Hob (Mem rd wr)

/-! ### Words -/

theorem wr_out {m : Mem} {p a : Nat} {bs : List UInt8} (h : ¬ (p ≤ a ∧ a < p + bs.length)) : wr m p bs a = m a := by
  unfold wr
  split
  · rw [List.getD_eq_getElem?_getD, List.getElem?_eq_none (by omega), Option.getD_none]
  · rfl

theorem wr_in {m : Mem} {p i : Nat} {bs : List UInt8} (h : i < bs.length) : wr m p bs (p + i) = bs[i] := by
  unfold wr
  rw [if_pos (by omega), List.getD_eq_getElem?_getD, show p + i - p = i by omega, List.getElem?_eq_getElem h, Option.getD_some]

theorem rd_wr {m : Mem} {p : Nat} {bs : List UInt8} : rd (wr m p bs) p bs.length = bs := by
  apply List.ext_getElem?
  intro i
  by_cases hi : i < bs.length
  · rw [Hob.rd_getElem? _ _ _ _ hi, wr_in hi, List.getElem?_eq_getElem hi]
  · rw [List.getElem?_eq_none (by rw [Hob.rd_length]; omega), List.getElem?_eq_none (by omega)]

theorem put64_out {m : Mem} {p v a : Nat} (h : ¬ (p ≤ a ∧ a < p + 8)) : put64 m p v a = m a :=
  wr_out (by simpa using h)

theorem put32_out {m : Mem} {p v a : Nat} (h : ¬ (p ≤ a ∧ a < p + 4)) : put32 m p v a = m a :=
  wr_out (by simpa using h)

theorem get64_put64 {m : Mem} {p v : Nat} (h : v < W) : get64 (put64 m p v) p = v := by
  unfold get64 put64
  have := rd_wr (m := m) (p := p) (bs := leBytes 8 v)
  rw [leBytes_length] at this
  rw [this, leVal_leBytes_of_lt (by unfold W at h; omega)]

theorem get32_put32 {m : Mem} {p v : Nat} (h : v < 2 ^ 32) : get32 (put32 m p v) p = v := by
  unfold get32 put32
  have := rd_wr (m := m) (p := p) (bs := leBytes 4 v)
  rw [leBytes_length] at this
  rw [this, leVal_leBytes_of_lt (by omega)]

theorem get64_congr {m m' : Mem} {p : Nat} (h : ∀ a, p ≤ a → a < p + 8 → m' a = m a) : get64 m' p = get64 m p := by
  unfold get64
  rw [Hob.rd_congr (a := p) (b := p)]
  intro i hi
  exact h _ (by omega) (by omega)

theorem get32_congr {m m' : Mem} {p : Nat} (h : ∀ a, p ≤ a → a < p + 4 → m' a = m a) : get32 m' p = get32 m p := by
  unfold get32
  rw [Hob.rd_congr (a := p) (b := p)]
  intro i hi
  exact h _ (by omega) (by omega)

/-! ### Ranges -/

theorem apart_of {x y : Nat × Layout} (h : x.1 + x.2.size ≤ y.1 ∨ y.1 + y.2.size ≤ x.1) : Apart x y := by
  rintro ⟨a, a1, a2, a3, a4⟩; omega

theorem apart_symm {x y : Nat × Layout} (h : Apart x y) : Apart y x := by
  rintro ⟨a, a1, a2, a3, a4⟩
  exact h ⟨a, a3, a4, a1, a2⟩

theorem overlap_symm {a n b k : Nat} (h : Overlap a n b k) : Overlap b k a n := by
  obtain ⟨x, a1, a2, a3, a4⟩ := h
  exact ⟨x, a3, a4, a1, a2⟩

theorem pairwise_mem {α : Type} {Q : α → α → Prop} (hs : ∀ x y, Q x y → Q y x) : ∀ {l : List α}, l.Pairwise Q → ∀ {x y : α}, x ∈ l → y ∈ l →
    x = y ∨ Q x y
  | [], _, _, _, hx, _ => by cases hx
  | z :: l, h, x, y, hx, hy => by
    obtain ⟨h1, h2⟩ := List.pairwise_cons.1 h
    rcases List.mem_cons.1 hx with rfl | hx'
    · rcases List.mem_cons.1 hy with rfl | hy'
      · exact .inl rfl
      · exact .inr (h1 y hy')
    · rcases List.mem_cons.1 hy with rfl | hy'
      · exact .inr (hs _ _ (h1 x hx'))
      · exact pairwise_mem hs h2 hx' hy'

/-! ### Layouts -/

/-- The layout with which the heap behind the free lists is asked. -/
def heapLayout (l : Layout) : Layout :=
  match listIndex l with
  | some k => ⟨blockSize k, blockSize k⟩
  | none => l

theorem findIdx_some {n : Nat} : ∀ {l : List Nat} {k : Nat}, l.findIdx? (fun s => decide (n ≤ s)) = some k →
    k < l.length ∧ n ≤ l.getD k 0
  | [], k, h => by simp at h
  | x :: l, k, h => by
    rw [List.findIdx?_cons] at h
    split at h
    · rename_i hx
      injection h with h; subst h
      simpa using hx
    · cases hr : l.findIdx? (fun s => decide (n ≤ s)) with
      | none => rw [hr] at h; cases h
      | some j =>
        rw [hr] at h
        injection h with h; subst h
        have := findIdx_some hr
        simpa using this

theorem listIndex_lt {l : Layout} {k : Nat} (h : listIndex l = some k) : k < 10 ∧ l.size ≤ blockSize k ∧ l.align ≤ blockSize k := by
  obtain ⟨h1, h2⟩ := findIdx_some h
  have e : BLOCK_SIZES.length = 10 := rfl
  unfold blockSize
  omega

theorem blockSize_pow {k : Nat} (h : k < 10) : blockSize k = 2 ^ (k + 3) := by
  have : ∀ k < 10, blockSize k = 2 ^ (k + 3) := by decide
  exact this k h

theorem blockSize_bounds {k : Nat} (h : k < 10) : 8 ≤ blockSize k ∧ blockSize k ≤ 4096 := by
  have : ∀ k < 10, 8 ≤ blockSize k ∧ blockSize k ≤ 4096 := by decide
  exact this k h

theorem blockLayout_valid {k : Nat} (h : k < 10) : (⟨blockSize k, blockSize k⟩ : Layout).Valid :=
  ⟨⟨k + 3, blockSize_pow h⟩, by have := (blockSize_bounds h).2; simp only; omega⟩

theorem heapLayout_valid {l : Layout} (h : l.Valid) : (heapLayout l).Valid := by
  unfold heapLayout
  split
  · exact blockLayout_valid (listIndex_lt (by assumption)).1
  · exact h

theorem heapLayout_size (l : Layout) : l.size ≤ (heapLayout l).size := by
  unfold heapLayout
  split
  · exact (listIndex_lt (by assumption)).2.1
  · exact Nat.le_refl _

theorem pow_dvd_of_le {a b : Nat} (h : 2 ^ a ≤ 2 ^ b) : 2 ^ a ∣ 2 ^ b := by
  rcases Nat.lt_or_ge b a with hlt | hge
  · have := Nat.pow_lt_pow_right (a := 2) (by omega) hlt
    omega
  · exact Nat.pow_dvd_pow 2 hge

theorem heapLayout_align {l : Layout} (h : l.Valid) : l.align ∣ (heapLayout l).align := by
  unfold heapLayout
  split
  · rename_i k hk
    obtain ⟨h1, _, h3⟩ := listIndex_lt hk
    obtain ⟨j, hj⟩ := h.1
    rw [hj] at h3 ⊢
    simp only
    rw [blockSize_pow h1] at h3 ⊢
    exact pow_dvd_of_le h3
  · exact Nat.dvd_refl _

/-! ### Free lists -/

/-- The free blocks from `head` on, each pointing to the next. -/
def Chain (m : Mem) : Nat → List Nat → Prop
  | h, [] => h = 0
  | h, p :: l => h = p ∧ p ≠ 0 ∧ Chain m (get64 m p) l

theorem Chain.congr {m m' : Mem} : ∀ {h : Nat} {l : List Nat}, Chain m h l →
    (∀ p ∈ l, ∀ a, p ≤ a → a < p + 8 → m' a = m a) → Chain m' h l
  | _, [], hc, _ => hc
  | _, p :: l, ⟨h1, h2, h3⟩, hm => by
    refine ⟨h1, h2, ?_⟩
    rw [get64_congr (hm p (by simp))]
    exact Chain.congr h3 fun q hq => hm q (by simp [hq])

/-- The free blocks of all sizes. -/
def freeBlocks (free : Nat → List Nat) : List (Nat × Layout) :=
  (List.range 10).flatMap fun k => (free k).map fun p => (p, ⟨blockSize k, blockSize k⟩)

theorem mem_freeBlocks {free : Nat → List Nat} {x : Nat × Layout} :
    x ∈ freeBlocks free ↔ ∃ k, k < 10 ∧ x.1 ∈ free k ∧ x.2 = ⟨blockSize k, blockSize k⟩ := by
  unfold freeBlocks
  simp only [List.mem_flatMap, List.mem_range, List.mem_map]
  constructor
  · rintro ⟨k, hk, p, hp, rfl⟩; exact ⟨k, hk, hp, rfl⟩
  · rintro ⟨k, hk, hp, he⟩; exact ⟨k, hk, x.1, hp, by rw [← he]⟩

/-- One list changed. -/
def setList (free : Nat → List Nat) (k : Nat) (l : List Nat) : Nat → List Nat := fun j => if j = k then l else free j

theorem freeBlocks_pull (free : Nat → List Nat) {k : Nat} (hk : k < 10) :
    (freeBlocks free).Perm ((free k).map (fun p => (p, ⟨blockSize k, blockSize k⟩)) ++
      ((List.range 10).erase k).flatMap fun k => (free k).map fun p => (p, (⟨blockSize k, blockSize k⟩ : Layout))) := by
  have h := List.perm_cons_erase (List.mem_range.2 hk)
  have := h.flatMap_right (fun k => (free k).map fun p => (p, (⟨blockSize k, blockSize k⟩ : Layout)))
  simpa [freeBlocks] using this

theorem flatMap_congr' {α β : Type} {f g : α → List β} : ∀ {l : List α}, (∀ x ∈ l, f x = g x) → l.flatMap f = l.flatMap g
  | [], _ => rfl
  | x :: l, h => by
    rw [List.flatMap_cons, List.flatMap_cons, h x (by simp), flatMap_congr' fun y hy => h y (by simp [hy])]

theorem freeBlocks_push (free : Nat → List Nat) {k : Nat} (hk : k < 10) (p : Nat) :
    (freeBlocks (setList free k (p :: free k))).Perm ((p, ⟨blockSize k, blockSize k⟩) :: freeBlocks free) := by
  refine (freeBlocks_pull _ hk).trans ?_
  have e : ((List.range 10).erase k).flatMap (fun j => (setList free k (p :: free k) j).map fun q => (q, (⟨blockSize j, blockSize j⟩ : Layout))) =
      ((List.range 10).erase k).flatMap (fun j => (free j).map fun q => (q, (⟨blockSize j, blockSize j⟩ : Layout))) := by
    apply flatMap_congr'
    intro j hj
    have : j ≠ k := by
      have hn : (List.range 10).Nodup := List.nodup_range
      exact ((List.Nodup.mem_erase_iff hn).1 hj).1
    simp only [setList, if_neg this]
  rw [e]
  simp only [setList, if_true, List.map_cons, List.cons_append]
  exact (List.Perm.cons _ (freeBlocks_pull free hk).symm)

theorem freeBlocks_setList_self (free : Nat → List Nat) (k : Nat) : setList free k (free k) = free := by
  funext j; unfold setList; split
  · subst_vars; rfl
  · rfl

theorem freeBlocks_pop (free : Nat → List Nat) {k : Nat} (hk : k < 10) {p : Nat} {l : List Nat} (h : free k = p :: l) :
    (freeBlocks free).Perm ((p, ⟨blockSize k, blockSize k⟩) :: freeBlocks (setList free k l)) := by
  have := freeBlocks_push (setList free k l) hk p
  have e : setList (setList free k l) k (p :: setList free k l k) = free := by
    funext j; unfold setList
    by_cases hj : j = k
    · subst hj; simp [h]
    · simp [hj]
  rw [e] at this
  exact this

end Verif.Alloc
