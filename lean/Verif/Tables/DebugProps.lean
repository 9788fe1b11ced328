import Verif.Tables.DebugSpec
namespace Verif.Tables.Debug

/-! ### Lists -/

theorem follow_iff {infos : Nat → Option Info} {ps : List Nat} {l : List Info} : follow infos ps = some l ↔ ps.map infos = l.map some := by
  induction ps generalizing l with
  | nil => cases l <;> simp [follow]
  | cons p ps ih =>
    unfold follow
    cases hp : infos p with
    | none => cases l <;> simp [hp]
    | some i =>
      cases hf : follow infos ps with
      | none =>
        simp only [reduceCtorEq, false_iff]
        intro h
        cases l with
        | nil => simp at h
        | cons x l =>
          rw [List.map_cons, List.map_cons] at h
          injection h with h1 h2
          rw [ih.2 h2] at hf; cases hf
      | some r =>
        have hr := ih.1 hf
        cases l with
        | nil => simp
        | cons x l =>
          simp only [Option.some.injEq, List.cons.injEq, List.map_cons, hp]
          constructor
          · rintro ⟨rfl, rfl⟩; exact ⟨rfl, hr⟩
          · rintro ⟨h1, h2⟩
            refine ⟨h1, ?_⟩
            have := ih.2 h2
            rw [hf] at this; injection this

/-- Element `i` replaced by the last one, and the list made one shorter. -/
def swapRemove {α : Type} (l : List α) (i : Nat) (last : α) : List α := (l.set i last).take (l.length - 1)

theorem swap_perm {α : Type} {l : List α} {i : Nat} {x last : α} (hx : l[i]? = some x) (hl : l[l.length - 1]? = some last) :
    l.Perm (x :: swapRemove l i last) := by
  have hi : i < l.length := by
    rcases Nat.lt_or_ge i l.length with h | h
    · exact h
    · rw [List.getElem?_eq_none h] at hx; cases hx
  obtain ⟨a, b, rfl, rfl⟩ : ∃ a b, l = a ++ x :: b ∧ i = a.length := by
    refine ⟨l.take i, l.drop (i + 1), ?_, ?_⟩
    · have : x = l[i] := by rw [List.getElem?_eq_getElem hi] at hx; injection hx with hx; exact hx.symm
      rw [this, List.getElem_cons_drop, List.take_append_drop]
    · rw [List.length_take]; omega
  unfold swapRemove
  rw [List.set_append_right _ _ (Nat.le_refl _), Nat.sub_self, List.set_cons_zero]
  rcases List.eq_nil_or_concat b with rfl | ⟨c, y, rfl⟩
  · have : (a ++ [x]).length - 1 = a.length := by simp
    rw [this, List.take_append_of_le_length (Nat.le_refl _), List.take_length]
    exact List.perm_append_comm
  · have hy : last = y := by
      have : (a ++ x :: (c.concat y)).length - 1 = a.length + (c.length + 1) := by simp
      rw [this, List.getElem?_append_right (by omega)] at hl
      simp at hl
      exact hl.symm
    subst hy
    have e : (a ++ x :: (c.concat last)).length - 1 = (a ++ last :: c).length := by simp
    rw [e, show a ++ last :: c.concat last = (a ++ last :: c) ++ [last] by simp, List.take_append_of_le_length (Nat.le_refl _), List.take_length]
    have h1 : (a ++ x :: c.concat last).Perm (x :: (a ++ c.concat last)) := List.perm_middle
    refine h1.trans (List.Perm.cons _ ?_)
    rw [List.concat_eq_append]
    exact List.Perm.append_left a List.perm_append_comm

theorem swap_map {α β : Type} (f : α → β) (l : List α) (i : Nat) (x : α) : (swapRemove l i x).map f = swapRemove (l.map f) i (f x) := by
  unfold swapRemove
  rw [List.map_take, List.map_set, List.length_map]

theorem put_same {α : Type} (f : Nat → α) (a : Nat) (v : α) : put f a v a = v := by unfold put; rw [if_pos rfl]
theorem put_other {α : Type} (f : Nat → α) {a x : Nat} (v : α) (h : x ≠ a) : put f a v x = f x := by unfold put; rw [if_neg h]

theorem map_put {α : Type} (f : Nat → α) {a : Nat} (v : α) {l : List Nat} (h : a ∉ l) : l.map (put f a v) = l.map f :=
  List.map_congr_left fun x hx => put_other f v (fun e => h (e ▸ hx))

/-! ### Between two updates -/

/-- The table when no update is in progress: the debugger finds the images `l`. -/
structure Settled (t : Table) (l : List Info) : Prop where
  quiet : t.status % 2 = 0
  same : t.array = t.slice
  fits : t.size ≤ t.capacity
  array : ∃ a, t.arrays t.slice = some a ∧ a.length = t.capacity ∧ (a.take t.size).Nodup ∧ (a.take t.size).map t.infos = l.map some

theorem settled_seen {t : Table} {l : List Info} (h : Settled t l) : t.seen = some l ∧ ¬ Busy t := by
  obtain ⟨a, h1, h2, h3, h4⟩ := h.array
  refine ⟨?_, ?_⟩
  · unfold Table.seen
    have := h.fits
    rw [h.same, h1]
    dsimp only
    rw [if_pos (by omega)]
    exact follow_iff.2 h4
  · unfold Busy; have := h.quiet; omega

theorem initial_settled (a : Nat) : Settled (initial a) [] :=
  ⟨rfl, rfl, Nat.zero_le _, ⟨List.replicate INITIAL 0, put_same (fun _ => none) a (some (List.replicate INITIAL 0)), List.length_replicate .., List.nodup_nil, rfl⟩⟩

theorem settled_size {t : Table} {l : List Info} (h : Settled t l) : l.length = t.size := by
  obtain ⟨a, h1, h2, h3, h4⟩ := h.array
  have := congrArg List.length h4
  have hf := h.fits
  simp only [List.length_map, List.length_take] at this
  omega

/-! ### The status -/

theorem or_one {s : Nat} (h : s % 2 = 0) : (s ||| 1) / 2 * 2 = s := by
  have : s ||| 1 = s + 1 := by
    have e : s = 2 ^ 1 * (s / 2) := by omega
    have := Nat.two_pow_add_eq_or_of_lt (i := 1) (b := 1) (by decide) (s / 2)
    rw [← e] at this; exact this.symm
  rw [this]; omega

theorem or_two_even {s : Nat} (h : s % 2 = 0) : (s ||| 2) % 2 = 0 := by
  have h1 : s.testBit 0 = false := by rw [Nat.testBit_zero]; simp [h]
  have : (s ||| 2).testBit 0 = false := by rw [Nat.testBit_or, h1]; rfl
  rw [Nat.testBit_zero] at this
  have h2 : ¬ (s ||| 2) % 2 = 1 := by simpa using this
  omega

theorem mark_busy (t : Table) : Busy (mark t) := by
  have : (t.status ||| 1).testBit 0 = true := by rw [Nat.testBit_or]; simp
  rw [Nat.testBit_zero] at this
  have : (t.status ||| 1) % 2 = 1 := by simpa using this
  exact this

/-- A write that leaves the status alone. -/
def Calm (f : Table → Table) : Prop := ∀ t, (f t).status = t.status

theorem calm_after {l : List (Table → Table)} (h : ∀ f ∈ l, Calm f) (t : Table) : (after t l).status = t.status := by
  induction l generalizing t with
  | nil => rfl
  | cons f l ih =>
    show (after (f t) l).status = _
    rw [ih (fun g hg => h g (List.mem_cons_of_mem _ hg)), h f (List.mem_cons_self ..)]

/-- At every point of an update but its ends the debugger is told of it. -/
theorem busy_between {m : List (Table → Table)} (h : ∀ f ∈ m, Calm f) (t : Table) {k : Nat} (h0 : 0 < k) (hk : k < (mark :: (m ++ [unmark])).length) :
    Busy (after t ((mark :: (m ++ [unmark])).take k)) := by
  obtain ⟨k, rfl⟩ : ∃ j, k = j + 1 := ⟨k - 1, by omega⟩
  rw [List.take_succ_cons]
  have : k ≤ m.length := by simp at hk; omega
  rw [List.take_append_of_le_length this]
  show Busy (after (mark t) (m.take k))
  unfold Busy
  rw [calm_after (fun f hf => h f (List.mem_of_mem_take hf))]
  exact mark_busy t

def addMiddle (t : Table) (i : Info) (a b : Nat) : List (Table → Table) :=
  growSteps t a ++ [(fun t : Table => { t with infos := put t.infos b (some i) }), (fun t : Table => setSlot t.size b t), (fun t : Table => { t with size := t.size + 1 })]

theorem addSteps_eq (t : Table) (i : Info) (a b : Nat) : addSteps t i a b = mark :: (addMiddle t i a b ++ [unmark]) := by
  unfold addSteps addMiddle
  rw [List.append_assoc]; rfl

theorem addMiddle_calm (t : Table) (i : Info) (a b : Nat) : ∀ f ∈ addMiddle t i a b, Calm f := by
  intro f hf
  unfold addMiddle growSteps at hf
  split at hf <;> simp only [List.nil_append, List.cons_append, List.mem_cons, List.mem_nil_iff, or_false] at hf
  · rcases hf with rfl | rfl | rfl | rfl | rfl | rfl | rfl <;> exact fun _ => rfl
  · rcases hf with rfl | rfl | rfl <;> exact fun _ => rfl

def removeMiddle (t : Table) (h : Nat) : List (Table → Table) := match findSlot t h with | some i => dropSteps t i | none => []

theorem removeMiddle_calm (t : Table) (h : Nat) : ∀ f ∈ removeMiddle t h, Calm f := by
  intro f hf
  unfold removeMiddle at hf
  split at hf
  · unfold dropSteps at hf
    split at hf <;> simp only [List.nil_append, List.cons_append, List.mem_cons, List.mem_nil_iff, or_false] at hf
    · rcases hf with rfl | rfl | rfl | rfl <;> exact fun _ => rfl
    · rcases hf with rfl | rfl | rfl <;> exact fun _ => rfl
  · cases hf

/-- Whenever a debugger looks between the first and the last write of an update, it is told that the update is in progress. -/
theorem update_announced (t : Table) (o : Op) {k : Nat} (h0 : 0 < k) (hk : k < (o.steps t).length) : Busy (after t ((o.steps t).take k)) := by
  cases o with
  | add i a b =>
    have e : Op.steps t (.add i a b) = mark :: (addMiddle t i a b ++ [unmark]) := addSteps_eq t i a b
    rw [e] at hk ⊢
    exact busy_between (addMiddle_calm t i a b) t h0 hk
  | remove h => exact busy_between (removeMiddle_calm t h) t h0 hk

theorem after_append (t : Table) (l m : List (Table → Table)) : after t (l ++ m) = after (after t l) m := List.foldl_append

/-! ### Adding -/

theorem grown {t : Table} {l : List Info} (h : Settled t l) {a : Nat} (ha : t.arrays a = none) :
    ∃ arr, (after (mark t) (growSteps t a)).arrays (after (mark t) (growSteps t a)).slice = some arr
      ∧ arr.length = (after (mark t) (growSteps t a)).capacity ∧ t.size < arr.length ∧ arr.take t.size = t.held.take t.size
      ∧ (after (mark t) (growSteps t a)).array = (after (mark t) (growSteps t a)).slice
      ∧ (after (mark t) (growSteps t a)).size = t.size ∧ (after (mark t) (growSteps t a)).infos = t.infos := by
  obtain ⟨arr, h1, h2, h3, h4⟩ := h.array
  have hh : t.held = arr := by unfold Table.held; rw [h1]; rfl
  have hf := h.fits
  unfold growSteps
  by_cases hc : t.capacity ≤ t.size
  · rw [if_pos hc]
    have hne : a ≠ t.slice := fun e => by rw [e, h1] at ha; cases ha
    refine ⟨t.held.take t.size ++ List.replicate INITIAL 0, ?_, ?_, ?_, ?_, rfl, rfl, rfl⟩
    · show put (put t.arrays a (some (t.held.take t.size ++ List.replicate INITIAL 0))) t.slice none a = _
      rw [put_other _ _ hne, put_same]
    · show _ = t.size + INITIAL
      rw [List.length_append, List.length_take, List.length_replicate, hh, h2]; omega
    · rw [List.length_append, List.length_take, List.length_replicate, hh, h2]
      have : 0 < INITIAL := by decide
      omega
    · have : t.size = (t.held.take t.size).length := by rw [List.length_take, hh, h2]; omega
      rw [List.take_append_of_le_length (by omega), List.take_take, Nat.min_self]
  · rw [if_neg hc]
    exact ⟨arr, h1, h2, by omega, by rw [hh], h.same, rfl, rfl⟩

/-- Loading an image adds it to the images the debugger finds; the others stay. -/
theorem add_image {t : Table} {l : List Info} (h : Settled t l) (i : Info) {a b : Nat} (ha : t.arrays a = none) (hb : t.infos b = none) :
    Settled (t.step (.add i a b)) (l ++ [i]) ∧ Modified (t.step (.add i a b)) := by
  obtain ⟨arr, h1, h2, h3, h4⟩ := h.array
  have hh : t.held = arr := by unfold Table.held; rw [h1]; rfl
  have hf := h.fits
  have hs : (after (mark t) (growSteps t a)).status = t.status ||| 1 :=
    calm_after (t := mark t) (fun f hf => addMiddle_calm t i a b f (List.mem_append_left _ hf))
  obtain ⟨ar, g1, g2, g3, g4, g5, g6, g7⟩ := grown h ha
  have e : t.step (.add i a b) = after (after (mark t) (growSteps t a))
      [(fun t : Table => { t with infos := put t.infos b (some i) }), (fun t : Table => setSlot t.size b t), (fun t : Table => { t with size := t.size + 1 }), unmark] := by
    show after t (addSteps t i a b) = _
    exact after_append (mark t) _ _
  generalize after (mark t) (growSteps t a) = u at *
  have hu : u.held = ar := by unfold Table.held; rw [g1]; rfl
  have hbm : b ∉ arr.take t.size := by
    intro hm
    have : t.infos b ∈ (arr.take t.size).map t.infos := List.mem_map.mpr ⟨b, hm, rfl⟩
    rw [h4, hb] at this
    obtain ⟨x, _, hx⟩ := List.mem_map.1 this
    cases hx
  have et : (ar.set t.size b).take (t.size + 1) = arr.take t.size ++ [b] := by
    rw [List.take_add_one, List.take_set_of_le (Nat.le_refl _), g4, hh, List.getElem?_set_self g3]; rfl
  refine ⟨⟨?_, ?_, ?_, ?_⟩, ?_⟩
  · rw [e]
    show ((u.status / 2 * 2) ||| 2) % 2 = 0
    exact or_two_even (by omega)
  · rw [e]; exact g5
  · rw [e]
    show u.size + 1 ≤ u.capacity
    omega
  · rw [e]
    refine ⟨ar.set t.size b, ?_, ?_, ?_, ?_⟩
    · show put u.arrays u.slice (some (u.held.set u.size b)) u.slice = _
      rw [put_same, hu, g6]
    · rw [List.length_set]; exact g2
    · show ((ar.set t.size b).take (u.size + 1)).Nodup
      rw [g6, et, List.nodup_append]
      refine ⟨h3, by simp, ?_⟩
      intro x hx y hy hxy
      simp at hy
      subst hy; subst hxy; exact hbm hx
    · show ((ar.set t.size b).take (u.size + 1)).map (put u.infos b (some i)) = _
      rw [g6, et, List.map_append, map_put _ _ hbm, g7, h4]
      simp [put_same]
  · rw [e]
    show ((u.status / 2 * 2) ||| 2).testBit 1 = true
    rw [Nat.testBit_or, show Nat.testBit 2 1 = true from by decide, Bool.or_true]

/-! ### Removing -/

theorem findSlot_none {t : Table} {l : List Info} (h : Settled t l) {x : Nat} (hn : findSlot t x = none) : l.filter (fun i => i.handle ≠ x) = l := by
  obtain ⟨arr, h1, h2, h3, h4⟩ := h.array
  have hh : t.held = arr := by unfold Table.held; rw [h1]; rfl
  have hf := h.fits
  unfold findSlot at hn
  rw [List.find?_eq_none] at hn
  rw [List.filter_eq_self]
  intro i hi
  have hi' : some i ∈ (arr.take t.size).map t.infos := by rw [h4]; exact List.mem_map.mpr ⟨i, hi, rfl⟩
  obtain ⟨p, hp, hpi⟩ := List.mem_map.1 hi'
  obtain ⟨k, hk, hkp⟩ := List.getElem_of_mem hp
  have hk' : k < t.size := by rw [List.length_take] at hk; omega
  have := hn k (List.mem_range.2 hk')
  have hg : t.held.getD k 0 = p := by
    rw [hh, List.getD_eq_getElem?_getD, List.getElem?_eq_getElem (by omega)]
    rw [List.getElem_take] at hkp
    exact hkp
  rw [hg, hpi] at this
  simpa using this

theorem findSlot_some {t : Table} {l : List Info} (h : Settled t l) {x k : Nat} (hn : findSlot t x = some k) :
    k < t.size ∧ ∃ i, l[k]? = some i ∧ i.handle = x := by
  obtain ⟨arr, h1, h2, h3, h4⟩ := h.array
  have hh : t.held = arr := by unfold Table.held; rw [h1]; rfl
  have hf := h.fits
  unfold findSlot at hn
  have hk : k < t.size := List.mem_range.1 (List.mem_of_find?_eq_some hn)
  have hx := List.find?_some hn
  refine ⟨hk, ?_⟩
  have e : ((arr.take t.size).map t.infos)[k]? = (l.map some)[k]? := by rw [h4]
  rw [List.getElem?_map, List.getElem?_map, List.getElem?_take_of_lt hk, List.getElem?_eq_getElem (by omega)] at e
  have hg : t.held.getD k 0 = arr[k] := by rw [hh, List.getD_eq_getElem?_getD, List.getElem?_eq_getElem (by omega)]; rfl
  rw [hg] at hx
  cases hl : l[k]? with
  | none => rw [hl] at e; cases e
  | some i =>
    rw [hl] at e
    have e : some (t.infos arr[k]) = some (some i) := e
    injection e with e
    rw [e] at hx
    exact ⟨i, rfl, by simpa using hx⟩

theorem filter_removed {l l' : List Info} {i : Info} (hn : (l.map Info.handle).Nodup) (hp : l.Perm (i :: l')) :
    (l.filter (fun j => j.handle ≠ i.handle)).Perm l' := by
  have h1 := hp.filter (fun j => decide (j.handle ≠ i.handle))
  rw [List.filter_cons_of_neg (by simp)] at h1
  have h2 : l'.filter (fun j => decide (j.handle ≠ i.handle)) = l' := by
    rw [List.filter_eq_self]
    intro j hj
    have h3 := (hp.map Info.handle).nodup_iff.1 hn
    rw [List.map_cons, List.nodup_cons] at h3
    simp only [decide_eq_true_eq]
    intro e
    exact h3.1 (List.mem_map.mpr ⟨j, hj, e⟩)
  rw [h2] at h1
  exact h1

/-- Unloading an image: the debugger finds the other images, each once; in what order is left open. If there is no such image it finds what it
found before. -/
theorem remove_image {t : Table} {l : List Info} (h : Settled t l) (hn : (l.map Info.handle).Nodup) (x : Nat) :
    (∃ l', Settled (t.step (.remove x)) l' ∧ l'.Perm (l.filter fun i => i.handle ≠ x)) ∧ Modified (t.step (.remove x)) := by
  have hm : Modified (t.step (.remove x)) := by
    have e : t.step (.remove x) = unmark (after (mark t) (removeMiddle t x)) := after_append (mark t) _ [unmark]
    rw [e]
    show (((after (mark t) (removeMiddle t x)).status / 2 * 2) ||| 2).testBit 1 = true
    rw [Nat.testBit_or, show Nat.testBit 2 1 = true from by decide, Bool.or_true]
  refine ⟨?_, hm⟩
  obtain ⟨arr, h1, h2, h3, h4⟩ := h.array
  have hh : t.held = arr := by unfold Table.held; rw [h1]; rfl
  have hf := h.fits
  have hsz := settled_size h
  cases hs : findSlot t x with
  | none =>
    refine ⟨l, ?_, by rw [findSlot_none h hs]⟩
    have e : t.step (.remove x) = unmark (mark t) := by
      show after t (removeSteps t x) = _
      unfold removeSteps
      rw [hs]; rfl
    rw [e]
    refine ⟨?_, h.same, h.fits, ⟨arr, h1, h2, h3, h4⟩⟩
    show (((t.status ||| 1) / 2 * 2) ||| 2) % 2 = 0
    exact or_two_even (by omega)
  | some k =>
    obtain ⟨hk, i, hi, rfl⟩ := findSlot_some h hs
    obtain ⟨last, hlast⟩ : ∃ last, l[l.length - 1]? = some last := ⟨_, List.getElem?_eq_getElem (by omega)⟩
    have hperm := swap_perm hi hlast
    refine ⟨swapRemove l k last, ?_, (filter_removed hn hperm).symm⟩
    -- the pointers
    have hpk : (arr.take t.size)[k]? = some (arr.getD k 0) := by
      rw [List.getElem?_take_of_lt hk, List.getD_eq_getElem?_getD, List.getElem?_eq_getElem (by omega)]; rfl
    have hpl : (arr.take t.size)[(arr.take t.size).length - 1]? = some (arr.getD (t.size - 1) 0) := by
      have : (arr.take t.size).length - 1 = t.size - 1 := by rw [List.length_take]; omega
      rw [this, List.getElem?_take_of_lt (by omega), List.getD_eq_getElem?_getD, List.getElem?_eq_getElem (by omega)]; rfl
    have hpp := swap_perm hpk hpl
    have hnd := hpp.nodup_iff.1 h3
    rw [List.nodup_cons] at hnd
    have hil : t.infos (arr.getD (t.size - 1) 0) = some last := by
      have e : ((arr.take t.size).map t.infos)[(arr.take t.size).length - 1]? = (l.map some)[l.length - 1]? := by
        rw [h4]
        have : (arr.take t.size).length - 1 = l.length - 1 := by rw [List.length_take]; omega
        rw [this]
      rw [List.getElem?_map, hpl, List.getElem?_map, hlast] at e
      injection e
    -- the state afterwards
    have key : ∃ u, t.step (.remove i.handle) = unmark u ∧ u.array = t.array ∧ u.slice = t.slice ∧ u.size = t.size - 1 ∧ u.capacity = t.capacity
        ∧ u.infos = put t.infos (arr.getD k 0) none
        ∧ ∃ arr', u.arrays u.slice = some arr' ∧ arr'.length = arr.length ∧ arr'.take (t.size - 1) = swapRemove (arr.take t.size) k (arr.getD (t.size - 1) 0) := by
      refine ⟨after (mark t) (dropSteps t k), ?_, ?_⟩
      · show after t (removeSteps t i.handle) = _
        unfold removeSteps
        rw [hs]
        exact after_append (mark t) _ [unmark]
      · have hlen : (arr.take t.size).length = t.size := by rw [List.length_take]; omega
        unfold dropSteps
        by_cases hkl : k = t.size - 1
        · rw [if_neg (fun hc => hc hkl)]
          refine ⟨rfl, rfl, rfl, rfl, by rw [← hh]; rfl, arr.set (t.size - 1) 0, ?_, List.length_set .., ?_⟩
          · show put t.arrays t.slice (some (t.held.set (t.size - 1) 0)) t.slice = _
            rw [put_same, hh]
          · unfold swapRemove
            rw [List.take_set_of_le (Nat.le_refl _), hlen, hkl, List.take_set_of_le (Nat.le_refl _), List.take_take]
            congr 1; omega
        · rw [if_pos hkl, hh]
          refine ⟨rfl, rfl, rfl, rfl, by rw [← hh]; rfl, (arr.set k (arr.getD (t.size - 1) 0)).set (t.size - 1) 0, ?_, by simp, ?_⟩
          · show put _ t.slice (some (((put t.arrays t.slice (some (t.held.set k (arr.getD (t.size - 1) 0))) t.slice).getD []).set (t.size - 1) 0)) t.slice = _
            rw [put_same, put_same, hh]; rfl
          · unfold swapRemove
            rw [List.take_set_of_le (Nat.le_refl _), hlen, List.take_set, List.take_set, List.take_take]
            congr 2; omega
    obtain ⟨u, e, u1, u2, u3, u4, u5, arr', a1, a2, a3⟩ := key
    rw [e]
    refine ⟨?_, ?_, ?_, ⟨arr', a1, ?_, ?_, ?_⟩⟩
    · show ((u.status / 2 * 2) ||| 2) % 2 = 0
      exact or_two_even (by omega)
    · show u.array = u.slice
      rw [u1, u2]; exact h.same
    · show u.size ≤ u.capacity
      omega
    · show arr'.length = u.capacity
      omega
    · show (arr'.take u.size).Nodup
      rw [u3, a3]; exact hnd.2
    · show (arr'.take u.size).map u.infos = _
      rw [u3, a3, u5, map_put _ _ hnd.1, swap_map, h4, hil, swap_map]

/-! ### Histories -/

theorem filter_nodup {l : List Info} (h : (l.map Info.handle).Nodup) (p : Info → Bool) : ((l.filter p).map Info.handle).Nodup :=
  h.sublist (List.filter_sublist.map _)

theorem run_settled {t : Table} {l m : List Info} (h : Settled t l) (hp : l.Perm m) (hn : (m.map Info.handle).Nodup) {ops : List Op} (ha : Allowed ops t m) :
    ∃ l', Settled (t.run ops) l' ∧ l'.Perm (loaded ops m) := by
  induction ops generalizing t l m with
  | nil => exact ⟨l, h, hp⟩
  | cons o ops ih =>
    cases o with
    | add i a b =>
      obtain ⟨a1, a2, a3, a4⟩ := ha
      refine ih (add_image h i a2 a3).1 (hp.append_right [i]) ?_ a4
      rw [List.map_append, List.nodup_append]
      refine ⟨hn, by simp, ?_⟩
      intro x hx y hy e
      simp at hy
      subst hy; subst e; exact a1 hx
    | remove x =>
      obtain ⟨⟨l', s1, s2⟩, _⟩ := remove_image h ((hp.map Info.handle).nodup_iff.2 hn) x
      exact ih s1 (s2.trans (hp.filter _)) (filter_nodup hn _) ha

/-- After any history of loading and unloading, the debugger finds exactly the images that are loaded, each once, and is told that no update is in
progress. -/
theorem debugger_sees (a : Nat) {ops : List Op} (ha : Allowed ops (initial a) []) :
    ∃ l, ((initial a).run ops).seen = some l ∧ l.Perm (loaded ops []) ∧ ¬ Busy ((initial a).run ops) := by
  obtain ⟨l, h1, h2⟩ := run_settled (initial_settled a) (List.Perm.refl _) List.nodup_nil ha
  exact ⟨l, (settled_seen h1).1, h2, (settled_seen h1).2⟩

/-- And at every point in the middle of the next operation, either the debugger is told of the update, or it finds the images from before it or those
from after it. -/
theorem debugger_interrupts (a : Nat) {ops : List Op} {o : Op} (ha : Allowed (ops ++ [o]) (initial a) []) (k : Nat) :
    let t := (initial a).run ops
    Busy (after t ((o.steps t).take k)) ∨
      ∃ l, (after t ((o.steps t).take k)).seen = some l ∧ (l.Perm (loaded ops []) ∨ l.Perm (loaded (ops ++ [o]) [])) := by
  have hpre : ∀ (ops : List Op) (t : Table) (l : List Info), Allowed (ops ++ [o]) t l → Allowed ops t l := by
    intro ops
    induction ops with
    | nil => exact fun _ _ _ => trivial
    | cons x ops ih =>
      intro t l h
      cases x with
      | add i a b => exact ⟨h.1, h.2.1, h.2.2.1, ih _ _ h.2.2.2⟩
      | remove x => exact ih _ _ h
  intro t
  by_cases h0 : k = 0
  · subst h0
    obtain ⟨l, h1, h2, _⟩ := debugger_sees a (hpre ops _ _ ha)
    exact Or.inr ⟨l, h1, Or.inl h2⟩
  · by_cases hk : k < (o.steps t).length
    · exact Or.inl (update_announced t o (by omega) hk)
    · rw [List.take_of_length_le (by omega)]
      obtain ⟨l, h1, h2, _⟩ := debugger_sees a ha
      refine Or.inr ⟨l, ?_, Or.inr h2⟩
      have : (initial a).run (ops ++ [o]) = after t (o.steps t) := by
        unfold Table.run; rw [List.foldl_append]; rfl
      rw [← this]; exact h1

/-! ### Concrete cases -/

def someInfo (h : Nat) : Info := ⟨1, 0x9000 + h, h⟩

example : Allowed [.add (someInfo 1) 0x2000 0x3000, .add (someInfo 2) 0x2000 0x3018, .remove 1] (initial 0x1000) [] :=
  ⟨by decide, by decide, by decide, by decide, by decide, by decide, trivial⟩

example : ((initial 0x1000).run [.add (someInfo 1) 0x2000 0x3000, .add (someInfo 2) 0x2000 0x3018, .add (someInfo 3) 0x2000 0x3030, .remove 1]).seen
    = some [someInfo 3, someInfo 2] := by decide +kernel

/-- One image more than fits: the array is replaced and all are found. -/
example : (((initial 0x1000).run ((List.range 129).map fun n => .add (someInfo n) 0x20000 (0x3000 + 24 * n))).seen.map List.length) = some 129 := by
  decide +kernel

/-- While the array is being replaced the header leads nowhere: the flag is needed. -/
theorem dangling_while_busy : ∃ ops o k, Allowed (ops ++ [o]) (initial 0x1000) [] ∧
    (after ((initial 0x1000).run ops) ((o.steps ((initial 0x1000).run ops)).take k)).seen = none :=
  ⟨[.add (someInfo 1) 0x2000 0x3000], .remove 1, 2, ⟨by decide, by decide, by decide, trivial⟩, by decide +kernel⟩

end Verif.Tables.Debug
