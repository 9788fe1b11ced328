import Verif.Pages.Spec
/-!
C90: the pages a component allocates have one owner, who frees them once.
-/
namespace Verif.Pages
variable {σ : Type} {M : Manager σ} {inv : σ → Prop} {owned : σ → List Range}

/-! ### Lists -/

theorem held_take {vals : List (Option Val)} {i : Nat} {v : Val} (h : vals[i]?.join = some v) : (held vals).Perm (v.range :: held (vals.set i none)) := by
  induction vals generalizing i with
  | nil => simp at h
  | cons x l ih =>
    cases i with
    | zero =>
      simp only [List.getElem?_cons_zero, Option.join_some] at h
      subst h
      simp [held]
    | succ i =>
      simp only [List.getElem?_cons_succ] at h
      have := ih h
      cases x with
      | none => simpa [held] using this
      | some y =>
        have e1 : held (some y :: l) = y.range :: held l := by simp [held]
        have e2 : held ((some y :: l).set (i + 1) none) = y.range :: held (l.set i none) := by simp [held]
        rw [e1, e2]
        exact (List.Perm.cons _ this).trans (.swap ..)

theorem held_put {vals : List (Option Val)} {i : Nat} {v : Val} (h : i < vals.length) :
    (held (vals.set i (some v))).Perm (v.range :: held (vals.set i none)) := by
  induction vals generalizing i with
  | nil => simp at h
  | cons x l ih =>
    cases i with
    | zero => simp [held]
    | succ i =>
      have := ih (i := i) (by simpa using h)
      cases x with
      | none => simpa [held] using this
      | some y =>
        have e1 : held ((some y :: l).set (i + 1) (some v)) = y.range :: held (l.set i (some v)) := by simp [held]
        have e2 : held ((some y :: l).set (i + 1) none) = y.range :: held (l.set i none) := by simp [held]
        rw [e1, e2]
        exact (List.Perm.cons _ this).trans (.swap ..)

theorem get_lt {w : World σ} {i : Nat} {v : Val} (h : w.get i = some v) : i < w.vals.length := by
  unfold World.get at h
  rcases hx : w.vals[i]? with _ | x
  · rw [hx] at h; simp at h
  · exact (List.getElem?_eq_some_iff.1 hx).1

theorem get_mem {w : World σ} {i : Nat} {v : Val} (h : w.get i = some v) : some v ∈ w.vals := by
  unfold World.get at h
  rcases hx : w.vals[i]? with _ | x
  · rw [hx] at h; simp at h
  · rw [hx] at h
    simp only [Option.join_some] at h
    subst h
    exact List.mem_of_getElem? hx

theorem mem_held {w : World σ} {i : Nat} {v : Val} (h : w.get i = some v) : v.range ∈ held w.vals :=
  List.mem_filterMap.2 ⟨some v, get_mem h, rfl⟩

theorem get_set_ne {w : World σ} {i j : Nat} {x : Option Val} (h : i ≠ j) : (w.set i x).get j = w.get j := by
  unfold World.get World.set
  simp only
  rw [List.getElem?_set_ne h]

theorem get_set_self {w : World σ} {i : Nat} {x : Option Val} (h : i < w.vals.length) : (w.set i x).get i = x := by
  unfold World.get World.set
  simp only
  rw [List.getElem?_set_self h]
  simp

theorem owner_mem {w : World σ} {rest : List Range} (h : Owner inv owned w rest) {i : Nat} {v : Val} (hg : w.get i = some v) : v.range ∈ owned w.s :=
  h.exactly.mem_iff.2 (List.mem_append_left _ (mem_held hg))

/-- Two values of a component never share a byte, nor does a value with a range nobody can free. -/
theorem held_apart (hC : Contract M inv owned) {w : World σ} {rest : List Range} (h : Owner inv owned w rest) {i j : Nat} {v u : Val}
    (hi : w.get i = some v) (hj : w.get j = some u) (hne : i ≠ j) : Apart v.range u.range := by
  have hp := hC.apart _ h.inv
  have hsym : ∀ {a b : Range}, Apart a b → Apart b a := fun h => h.symm
  have hp2 : (held w.vals ++ rest).Pairwise Apart := (List.Perm.pairwise_iff hsym h.exactly).1 hp
  have hp3 := (List.pairwise_append.1 hp2).1
  have h1 := held_take (i := i) hi
  have hp4 := (List.Perm.pairwise_iff hsym h1).1 hp3
  refine (List.pairwise_cons.1 hp4).1 _ ?_
  have : (w.set i none).get j = some u := by rw [get_set_ne hne]; exact hj
  exact mem_held this

/-! ### Freeing -/

theorem free_owned (hC : Contract M inv owned) {w : World σ} {rest : List Range} (h : Owner inv owned w rest) {i : Nat} {v : Val}
    (hg : w.get i = some v) (dbg : Bool) : ∃ s m, M.free w.s w.m v.range.addr v.range.pages = (true, s, m) ∧
      freePages M dbg w v.range = (.ok (), ⟨s, m, w.vals⟩) ∧ Owner inv owned (⟨s, m, w.vals.set i none⟩ : World σ) rest ∧
      (∀ j u, j ≠ i → w.get j = some u → ∀ a, u.range.addr ≤ a → a < u.range.addr + u.range.len → m a = w.m a) := by
  obtain ⟨s, m, h1, h2, h3, h4⟩ := hC.freed w.s w.m v.range h.inv (owner_mem h hg)
  refine ⟨s, m, h1, ?_, ⟨h2, ?_, ?_⟩, ?_⟩
  · unfold freePages; rw [h1]; simp
  · have hp : (owned w.s).Perm (v.range :: (held (w.vals.set i none) ++ rest)) := h.exactly.trans ((held_take hg).append_right rest)
    have := hp.erase v.range
    rw [List.erase_cons_head] at this
    exact h3.trans this
  · intro u hu
    rcases List.mem_or_eq_of_mem_set hu with hu | hu
    · exact h.inside u hu
    · cases hu
  · intro j u hne hj a h5 h6
    have hmem : u.range ∈ (owned w.s).erase v.range := by
      have hp : (owned w.s).Perm (v.range :: (held (w.vals.set i none) ++ rest)) := h.exactly.trans ((held_take hg).append_right rest)
      have := hp.erase v.range
      rw [List.erase_cons_head] at this
      refine this.mem_iff.2 (List.mem_append_left _ ?_)
      have hs : (w.set i none).get j = some u := by rw [get_set_ne (fun e => hne e.symm)]; exact hj
      exact mem_held hs
    exact h4 _ hmem a h5 h6

/-- A value becomes another one of the same range, and memory changes inside the range only. -/
theorem owner_become (hC : Contract M inv owned) {w : World σ} {rest : List Range} (h : Owner inv owned w rest) {i : Nat} {v v' : Val}
    (hg : w.get i = some v) (hr : v'.range = v.range) (hb : v'.bytes ≤ v'.range.len) (m : Mem) :
    Owner inv owned (⟨w.s, m, w.vals.set i (some v')⟩ : World σ) rest := by
  refine ⟨h.inv, ?_, ?_⟩
  · have h1 := held_take hg
    have h2 := held_put (v := v') (get_lt hg)
    rw [hr] at h2
    exact h.exactly.trans ((h1.trans h2.symm).append_right rest)
  · intro u hu
    rcases List.mem_or_eq_of_mem_set hu with hu | hu
    · exact h.inside u hu
    · injection hu with hu; subst hu; exact hb

/-! ### Writing -/

theorem write_outside {m : Mem} {a : Nat} {l : List UInt8} {x : Nat} (h : x < a ∨ a + l.length ≤ x) : write m a l x = m x := by
  unfold write; rw [if_neg (by omega)]

theorem write_holds (m : Mem) (a : Nat) (l : List UInt8) : Holds (write m a l) a l := by
  intro k hk
  unfold write
  rw [if_pos (by omega), show a + k - a = k by omega, List.getD_eq_getElem?_getD, List.getElem?_eq_getElem hk]
  rfl

theorem fill_outside {m : Mem} {a size : Nat} {gen : Nat → List UInt8} (hl : ∀ k, (gen k).length = size) {x : Nat} :
    ∀ n, (x < a ∨ a + n * size ≤ x) → fill m a size gen n x = m x
  | 0, _ => rfl
  | n + 1, h => by
    unfold fill
    rw [Nat.add_mul, Nat.one_mul] at h
    rw [write_outside (by rw [hl]; omega), fill_outside hl n (by omega)]

theorem fill_holds (m : Mem) (a size : Nat) {gen : Nat → List UInt8} (hl : ∀ k, (gen k).length = size) :
    ∀ n k, k < n → Holds (fill m a size gen n) (a + k * size) (gen k)
  | n + 1, k, hk => by
    unfold fill
    by_cases e : k = n
    · subst e; exact write_holds _ _ _
    · intro x hx
      have hle : (k + 1) * size ≤ n * size := Nat.mul_le_mul_right _ (by omega)
      rw [Nat.add_mul, Nat.one_mul] at hle
      rw [hl] at hx
      rw [write_outside (by omega)]
      exact fill_holds m a size hl n k (by omega) x (by rw [hl]; exact hx)

/-! ### One operation -/

/-- The bytes of slices have the size of the elements. -/
def Op.Typed : Op → Prop
  | .intoBoxedSlice _ size gen | .leakAsSlice _ size gen => ∀ k, (gen k).length = size
  | _ => True

theorem apart_keeps {r q : Range} (h : Apart r q) {b n a : Nat} (h1 : r.addr ≤ b) (h2 : b + n ≤ r.addr + r.len) (h3 : q.addr ≤ a) (h4 : a < q.addr + q.len) :
    a < b ∨ b + n ≤ a := by
  unfold Apart at h; omega

/-- What an operation leaves alone: the values it does not use, and their bytes. -/
def Others (w w' : World σ) (op : Op) : Prop :=
  ∀ j u, op.uses ≠ some j → w.get j = some u → w'.get j = some u ∧ ∀ a, u.range.addr ≤ a → a < u.range.addr + u.range.len → w'.m a = w.m a

theorem others_refl (w : World σ) (op : Op) : Others w w op := fun _ _ _ h => ⟨h, fun _ _ _ => rfl⟩

theorem others_freed {w w' : World σ} {op : Op} {i : Nat} (hu : op.uses = some i) {s : σ} {m : Mem} {x : Option Val} (hw : w' = ⟨s, m, w.vals.set i x⟩)
    (h : ∀ j u, j ≠ i → w.get j = some u → ∀ a, u.range.addr ≤ a → a < u.range.addr + u.range.len → m a = w.m a) : Others w w' op := by
  intro j u hj hg
  rw [hu] at hj
  have hne : i ≠ j := fun e => hj (by rw [e])
  subst hw
  refine ⟨?_, h j u (fun e => hne e.symm) hg⟩
  have := get_set_ne (w := w) (x := x) hne
  unfold World.get World.set at this
  unfold World.get at hg ⊢
  exact this.trans hg

theorem others_inside (hC : Contract M inv owned) {w w' : World σ} {rest : List Range} (h : Owner inv owned w rest) {op : Op} {i : Nat} {v : Val}
    (hu : op.uses = some i) (hg : w.get i = some v) {m : Mem} {x : Option Val} (hw : w' = ⟨w.s, m, w.vals.set i x⟩)
    (hm : ∀ a, (a < v.range.addr ∨ v.range.addr + v.range.len ≤ a) → m a = w.m a) : Others w w' op := by
  refine others_freed hu hw fun j u hne hj a h1 h2 => hm a ?_
  have := held_apart hC h hg hj (fun e => hne e.symm)
  unfold Apart at this
  omega

theorem count_le {r : Range} {size n : Nat} (h : sliceCount r size = .ok n) : 0 < size ∧ n = r.len / size ∧ n * size ≤ r.len := by
  unfold sliceCount at h
  split at h
  · cases h
  · injection h with h
    exact ⟨by omega, h.symm, by rw [← h]; exact Nat.div_mul_le_self _ _⟩

theorem place_fits {w : World σ} {r : Range} {value : List UInt8} {dbg : Bool} (h : value.length ≤ r.len) :
    place M dbg w r value = (.ok (some r.addr), { w with m := write w.m r.addr value }) := by
  unfold place intoRawPtr
  rw [if_neg (by omega)]

theorem place_large {w : World σ} {r : Range} {value : List UInt8} {dbg : Bool} (h : r.len < value.length) {w' : World σ}
    (hf : freePages M dbg w r = (.ok (), w')) : place M dbg w r value = (.ok none, w') := by
  unfold place intoRawPtr
  rw [if_pos h, hf]

/-- C90, one operation: every range stays with one owner, except those that are given up without being freed (`lost`). The other values and
their bytes are left alone. -/
theorem step_owner (hC : Contract M inv owned) {w : World σ} {rest : List Range} (h : Owner inv owned w rest) (dbg : Bool) (op : Op) (ht : op.Typed) :
    Owner inv owned (step M dbg w op).2 (lost w op ++ rest) ∧ Others w (step M dbg w op).2 op := by
  have hout : ∀ {r : Range} {value : List UInt8}, value.length ≤ r.len → ∀ a, (a < r.addr ∨ r.addr + r.len ≤ a) → write w.m r.addr value a = w.m a :=
    fun hle a ha => write_outside (by omega)
  have hput : ∀ (i : Nat) (r : Range) (value : List UInt8) (v' : Val), w.get i = some (.alloc r) → v'.range = r → v'.bytes = value.length →
      (op = .intoBox i value ∨ op = .leakAs i value) → (∀ o, o = op → lost w o = []) →
      Owner inv owned (become w i (fun _ => v') (place M dbg w r value)).2 (lost w op ++ rest) ∧
        Others w (become w i (fun _ => v') (place M dbg w r value)).2 op := by
    intro i r value v' hg hr hb ho hl
    have hu : op.uses = some i := by rcases ho with rfl | rfl <;> rfl
    rw [hl op rfl, List.nil_append]
    by_cases hle : value.length ≤ r.len
    · rw [place_fits hle]
      refine ⟨owner_become hC h hg hr (by rw [hb, hr]; exact hle) _, others_inside hC h hu hg rfl (hout hle)⟩
    · obtain ⟨s, m, h1, h2, h3, h4⟩ := free_owned hC h hg dbg
      have h2' : freePages M dbg w r = (.ok (), ⟨s, m, w.vals⟩) := h2
      rw [place_large (show r.len < value.length by omega) h2']
      exact ⟨h3, others_freed hu rfl h4⟩
  have hslice : ∀ (i size : Nat) (gen : Nat → List UInt8) (r : Range) (v' : Nat → Val) (n : Nat), w.get i = some (.alloc r) → (∀ n, (v' n).range = r) →
      (∀ n, (v' n).bytes = n * size) → op.uses = some i → (∀ k, (gen k).length = size) → sliceCount r size = .ok n → lost w op = [] →
      Owner inv owned (({ w with m := fill w.m r.addr size gen n } : World σ).set i (some (v' n))) (lost w op ++ rest) ∧
        Others w (({ w with m := fill w.m r.addr size gen n } : World σ).set i (some (v' n))) op := by
    intro i size gen r v' n hg hr hb hu hgen hn hl
    rw [hl, List.nil_append]
    have hc := count_le hn
    refine ⟨owner_become hC h hg (hr n) (by rw [hb, hr]; exact hc.2.2) _, others_inside hC h hu hg rfl (fun a ha => ?_)⟩
    have : (Val.alloc r).range = r := rfl
    rw [this] at ha
    exact fill_outside hgen n (by omega)
  have hsame : lost w op = [] → Owner inv owned w (lost w op ++ rest) ∧ Others w w op := fun hl => by rw [hl]; exact ⟨h, others_refl w op⟩
  have halloc : ∀ (n : Nat) (o : Options) (z : Bool), lost w op = [] → op.uses = none →
      Owner inv owned (allocate M w n o z).2 (lost w op ++ rest) ∧ Others w (allocate M w n o z).2 op := by
    intro n o z hl hu
    rw [hl, List.nil_append]
    unfold allocate
    rcases hx : M.allocate w.s w.m n o with ⟨x, s', m'⟩
    have hno : (∀ r, x ≠ .ok r) → Owner inv owned (⟨s', m', w.vals⟩ : World σ) rest ∧ Others w (⟨s', m', w.vals⟩ : World σ) op := by
      intro hne
      obtain ⟨h1, h2, h3⟩ := hC.refused _ _ _ _ _ _ _ h.inv hx hne
      exact ⟨⟨h1, h2.trans h.exactly, h.inside⟩, fun j u _ hj => ⟨hj, fun a ha hb => h3 _ (owner_mem h hj) a ha hb⟩⟩
    cases x with
    | err e => exact hno (by intro r; simp)
    | panic => exact hno (by intro r; simp)
    | ok r =>
      obtain ⟨h1, h2, h3, h4⟩ := hC.allocated _ _ _ _ _ _ _ h.inv hx
      have hall : (r :: owned w.s).Pairwise Apart := (List.Perm.pairwise_iff (fun h => h.symm) h2).1 (hC.apart _ h1)
      refine ⟨⟨h1, ?_, ?_⟩, fun j u _ hj => ⟨?_, fun a ha hb => ?_⟩⟩
      · show (owned s').Perm (held (w.vals ++ [some (.alloc r)]) ++ rest)
        have e : held (w.vals ++ [some (.alloc r)]) = held w.vals ++ [r] := by simp [held, Val.range]
        rw [e]
        refine h2.trans ((List.Perm.cons r h.exactly).trans ?_)
        rw [List.append_assoc]
        exact (List.perm_middle (l₁ := held w.vals) (l₂ := rest) (a := r)).symm
      · intro v hv
        simp only [World.push, List.mem_append, List.mem_singleton, Option.some.injEq] at hv
        rcases hv with hv | rfl
        · exact h.inside v hv
        · exact Nat.zero_le _
      · have hlt := get_lt hj
        unfold World.get World.push at *
        simp only
        rw [List.getElem?_append_left hlt]
        exact hj
      · have hap := (List.pairwise_cons.1 hall).1 u.range (owner_mem h hj)
        have hk := h4 _ (owner_mem h hj) a ha hb
        simp only [World.push]
        split
        · unfold zero
          unfold Apart at hap
          rw [if_neg (by omega)]
          exact hk
        · exact hk
  cases op with
  | allocate n o => exact halloc n o false rfl rfl
  | allocateZero n o => exact halloc n o true rfl rfl
  | drop i =>
    unfold step lost
    simp only
    rcases hg : w.get i with _ | v
    · exact ⟨h, others_refl w _⟩
    · have hgive : Owner inv owned (w.set i none) ([v.range] ++ rest) := by
        refine ⟨h.inv, ?_, ?_⟩
        · refine h.exactly.trans (((held_take hg).append_right rest).trans ?_)
          exact (List.perm_middle (l₁ := held (w.vals.set i none)) (l₂ := rest) (a := v.range)).symm
        · intro u hu
          rcases List.mem_or_eq_of_mem_set hu with hu | hu
          · exact h.inside u hu
          · cases hu
      have hoth : Others w (w.set i none) (.drop i) := others_freed rfl rfl (fun _ _ _ _ _ _ _ => rfl)
      obtain ⟨s, m, h1, h2, h3, h4⟩ := free_owned hC h hg dbg
      cases v with
      | alloc r =>
        have e : (dropAlloc M dbg w r).2 = ⟨s, m, w.vals⟩ := by
          unfold dropAlloc
          have h2' : freePages M dbg w r = (.ok (), ⟨s, m, w.vals⟩) := h2
          rw [h2']
        simp only [List.nil_append]
        rw [e]
        exact ⟨h3, others_freed rfl rfl h4⟩
      | box r n =>
        simp only
        by_cases hn : n = 0
        · rw [if_pos hn]
          have e : dropBox M dbg w r n = (.ok (), w) := by unfold dropBox; rw [if_neg (by simpa using hn)]
          rw [e]
          exact ⟨hgive, hoth⟩
        · rw [if_neg hn]
          have e : dropBox M dbg w r n = (.ok (), ⟨s, m, w.vals⟩) := by unfold dropBox; rw [if_pos hn]; exact h2
          rw [e]
          exact ⟨h3, others_freed rfl rfl h4⟩
      | raw r => exact ⟨hgive, hoth⟩
      | leaked r n => exact ⟨hgive, hoth⟩
  | intoRawPtr i size =>
    unfold step
    simp only
    split
    · rename_i r hg
      unfold intoRawPtr
      by_cases hle : r.len < size
      · obtain ⟨s, m, h1, h2, h3, h4⟩ := free_owned hC h hg dbg
        have h2' : freePages M dbg w r = (.ok (), ⟨s, m, w.vals⟩) := h2
        rw [if_pos hle, h2']
        exact ⟨h3, others_freed rfl rfl h4⟩
      · rw [if_neg hle]
        exact ⟨owner_become hC h hg (v' := .raw r) rfl (Nat.zero_le _) _, others_inside hC h rfl hg rfl (fun _ _ => rfl)⟩
    · exact hsame rfl
  | intoRawSlice i size =>
    unfold step
    simp only
    split
    · rename_i r hg
      split
      · exact ⟨owner_become hC h hg (v' := .raw r) rfl (Nat.zero_le _) _, others_inside hC h rfl hg rfl (fun _ _ => rfl)⟩
      · exact hsame rfl
      · exact hsame rfl
    · exact hsame rfl
  | intoBox i value =>
    unfold step
    simp only
    split
    · rename_i r hg
      exact hput i r value (.box r value.length) hg rfl rfl (.inl rfl) (by rintro _ rfl; rfl)
    · exact hsame rfl
  | leakAs i value =>
    unfold step
    simp only
    split
    · rename_i r hg
      exact hput i r value (.leaked r value.length) hg rfl rfl (.inr rfl) (by rintro _ rfl; rfl)
    · exact hsame rfl
  | intoBoxedSlice i size gen =>
    unfold step placeSlice
    simp only
    split
    · rename_i r hg
      rcases hc : sliceCount r size with n | e | _
      · exact hslice i size gen r (fun n => .box r (n * size)) n hg (fun _ => rfl) (fun _ => rfl) rfl ht hc rfl
      · exact hsame rfl
      · exact hsame rfl
    · exact hsame rfl
  | leakAsSlice i size gen =>
    unfold step placeSlice
    simp only
    split
    · rename_i r hg
      rcases hc : sliceCount r size with n | e | _
      · exact hslice i size gen r (fun n => .leaked r (n * size)) n hg (fun _ => rfl) (fun _ => rfl) rfl ht hc rfl
      · exact hsame rfl
      · exact hsame rfl
    · exact hsame rfl
  | freeRaw i =>
    unfold step
    simp only
    split
    · rename_i r hg
      obtain ⟨s, m, h1, h2, h3, h4⟩ := free_owned hC h hg dbg
      have h1' : M.free w.s w.m r.addr r.pages = (true, s, m) := h1
      have e1 : (M.free w.s w.m r.addr r.pages).2 = (s, m) := by rw [h1']
      have e2 : ∀ (w' : World σ), w' = ⟨s, m, w.vals.set i none⟩ → Owner inv owned w' (lost w (.freeRaw i) ++ rest) ∧ Others w w' (.freeRaw i) := by
        rintro _ rfl
        exact ⟨h3, others_freed rfl rfl h4⟩
      refine e2 _ ?_
      show (⟨(M.free w.s w.m r.addr r.pages).2.1, (M.free w.s w.m r.addr r.pages).2.2, w.vals.set i none⟩ : World σ) = _
      rw [e1]
    · exact hsame rfl
  | store i off bytes =>
    have hst : ∀ (v : Val) (n : Nat), w.get i = some v → v.bytes = n → off + bytes.length ≤ n →
        Owner inv owned ({ w with m := write w.m (v.range.addr + off) bytes } : World σ) rest ∧
          Others w ({ w with m := write w.m (v.range.addr + off) bytes } : World σ) (.store i off bytes) := by
      intro v n hg hb hle
      have hin := h.inside v (get_mem hg)
      refine ⟨⟨h.inv, h.exactly, h.inside⟩, fun j u hj hgj => ⟨hgj, fun a h1 h2 => ?_⟩⟩
      have hne : i ≠ j := fun e => hj (by rw [← e]; rfl)
      have hap := held_apart hC h hg hgj hne
      unfold Apart at hap
      exact write_outside (by omega)
    unfold step
    simp only
    split
    · rename_i r n hg
      split
      · rename_i hle; exact hst _ n hg rfl hle
      · exact hsame rfl
    · rename_i r n hg
      split
      · rename_i hle; exact hst _ n hg rfl hle
      · exact hsame rfl
    · exact hsame rfl

/-! ### Histories -/

/-- The ranges a run gives up without freeing them. -/
def lostIn (M : Manager σ) (dbg : Bool) : World σ → List Op → List Range
  | _, [] => []
  | w, o :: os => match step M dbg w o with
    | (.panic, _) => lost w o
    | (_, w') => lostIn M dbg w' os ++ lost w o

/-- C90: after any operations every allocated range has one owner, apart from what was given up without being freed. So no range is freed
twice, freed while a value still has it, or forgotten otherwise. -/
theorem run_owner (hC : Contract M inv owned) (dbg : Bool) (ops : List Op) (ht : ∀ o ∈ ops, o.Typed) : ∀ {w : World σ} {rest : List Range},
    Owner inv owned w rest → Owner inv owned (run M dbg w ops) (lostIn M dbg w ops ++ rest) := by
  induction ops with
  | nil => exact fun h => h
  | cons o os ih =>
    intro w rest h
    have h1 := (step_owner hC h dbg o (ht o (by simp))).1
    have h2 := ih (fun o ho => ht o (by simp [ho])) h1
    unfold run lostIn
    rcases hx : step M dbg w o with ⟨x, w'⟩
    rw [hx] at h1 h2
    cases x with
    | ok _ => simp only; rw [List.append_assoc]; exact h2
    | err e => simp only; rw [List.append_assoc]; exact h2
    | panic => exact h1

/-- Starting with nothing held, the values of a component are allocated ranges, and no two of them share a byte. -/
theorem run_apart (hC : Contract M inv owned) (dbg : Bool) (ops : List Op) (ht : ∀ o ∈ ops, o.Typed) {s : σ} (hs : inv s) (m : Mem)
    {i j : Nat} {v u : Val} (hi : (run M dbg ⟨s, m, []⟩ ops).get i = some v) (hj : (run M dbg ⟨s, m, []⟩ ops).get j = some u) (hne : i ≠ j) :
    v.range ∈ owned (run M dbg ⟨s, m, []⟩ ops).s ∧ Apart v.range u.range ∧ v.bytes ≤ v.range.len := by
  have h := run_owner hC dbg ops ht (w := ⟨s, m, []⟩) (rest := owned s) ⟨hs, .refl _, by simp⟩
  exact ⟨owner_mem h hi, held_apart hC h hi hj hne, h.inside _ (get_mem hi)⟩

/-- C90: an operation gives up no range, unless it drops a raw pointer, a leaked reference or a box without bytes. -/
theorem lost_iff {w : World σ} {op : Op} {r : Range} : r ∈ lost w op ↔
    ∃ i, op = .drop i ∧ (w.get i = some (.raw r) ∨ (∃ n, w.get i = some (.leaked r n)) ∨ w.get i = some (.box r 0)) := by
  unfold lost
  cases op with
  | drop i =>
    simp only [Op.drop.injEq, exists_eq_left']
    rcases w.get i with _ | v
    · simp
    · cases v with
      | box q n =>
        by_cases hn : n = 0
        · simp [hn, eq_comm]
        · simp [hn]
      | _ => simp [eq_comm]
  | _ => simp

/-- C90: when nothing is given up and no value is left, the allocated ranges are those there were before. -/
theorem run_no_leak (hC : Contract M inv owned) (dbg : Bool) (ops : List Op) (ht : ∀ o ∈ ops, o.Typed) {s : σ} (hs : inv s) (m : Mem)
    (hl : lostIn M dbg ⟨s, m, []⟩ ops = []) (hd : ∀ i, (run M dbg ⟨s, m, []⟩ ops).get i = none) :
    (owned (run M dbg ⟨s, m, []⟩ ops).s).Perm (owned s) := by
  have h := run_owner hC dbg ops ht (w := ⟨s, m, []⟩) (rest := owned s) ⟨hs, .refl _, by simp⟩
  rw [hl, List.nil_append] at h
  have e : held (run M dbg ⟨s, m, []⟩ ops).vals = [] := by
    unfold held
    rw [List.filterMap_eq_nil_iff]
    intro x hx
    obtain ⟨i, hi⟩ := List.mem_iff_getElem?.1 hx
    have := hd i
    unfold World.get at this
    rw [hi] at this
    simp only [Option.join_some] at this
    rw [this]; rfl
  have := h.exactly
  rw [e] at this
  exact this

/-- C90: a value and its bytes stay as they are, whatever operations are done with other values. -/
theorem run_keeps (hC : Contract M inv owned) (dbg : Bool) (ops : List Op) (ht : ∀ o ∈ ops, o.Typed) : ∀ {w : World σ} {rest : List Range},
    Owner inv owned w rest → ∀ {j : Nat} {u : Val}, (∀ o ∈ ops, o.uses ≠ some j) → w.get j = some u →
    (run M dbg w ops).get j = some u ∧ ∀ a, u.range.addr ≤ a → a < u.range.addr + u.range.len → (run M dbg w ops).m a = w.m a := by
  induction ops with
  | nil => exact fun _ _ _ _ h => ⟨h, fun _ _ _ => rfl⟩
  | cons o os ih =>
    intro w rest h j u ho hj
    obtain ⟨h1, h2⟩ := step_owner hC h dbg o (ht o (by simp))
    obtain ⟨h3, h4⟩ := h2 j u (ho o (by simp)) hj
    have h5 := ih (fun o ho => ht o (by simp [ho])) h1 (fun o hh => ho o (by simp [hh])) h3
    unfold run
    rcases hx : step M dbg w o with ⟨x, w'⟩
    rw [hx] at h3 h4 h5
    cases x with
    | panic => exact ⟨h3, h4⟩
    | ok _ => exact ⟨h5.1, fun a ha hb => (h5.2 a ha hb).trans (h4 a ha hb)⟩
    | err e => exact ⟨h5.1, fun a ha hb => (h5.2 a ha hb).trans (h4 a ha hb)⟩

/-! ### What the conversions give -/

/-- C90, `allocate_pages` and `allocate_zero_pages`: the new value is the range, which was not allocated before; it is page aligned and not
zero, has as many pages as were asked for, and zeroed pages have bytes 0. -/
theorem allocate_gives (hC : Contract M inv owned) {w : World σ} {rest : List Range} (h : Owner inv owned w rest) {n : Nat} {o : Options}
    {zeroed : Bool} {w' : World σ} (hx : allocate M w n o zeroed = (.ok (), w')) :
    ∃ r, w'.get w.vals.length = some (.alloc r) ∧ r.pages = n ∧ 0 < n ∧ r.addr ≠ 0 ∧ r.addr % 4096 = 0 ∧ (∀ q ∈ owned w.s, Apart r q) ∧
      (zeroed = true → ∀ a, r.addr ≤ a → a < r.addr + 4096 * n → w'.m a = 0) := by
  unfold allocate at hx
  rcases hy : M.allocate w.s w.m n o with ⟨x, s', m'⟩
  rw [hy] at hx
  cases x with
  | err e => simp at hx
  | panic => simp at hx
  | ok r =>
    simp only [Prod.mk.injEq, true_and] at hx
    subst hx
    obtain ⟨h1, h2, h3, h4⟩ := hC.allocated _ _ _ _ _ _ _ h.inv hy
    have hmem : r ∈ owned s' := h2.mem_iff.2 (by simp)
    obtain ⟨p1, p2, p3⟩ := hC.proper _ h1 r hmem
    have hall : (r :: owned w.s).Pairwise Apart := (List.Perm.pairwise_iff (fun h => h.symm) h2).1 (hC.apart _ h1)
    refine ⟨r, ?_, h3, by omega, p1, p2, (List.pairwise_cons.1 hall).1, ?_⟩
    · simp [World.get, World.push]
    · rintro rfl a ha hb
      simp only [World.push, if_pos, zero]
      rw [if_pos ⟨ha, by unfold Range.len; omega⟩]

/-- C90, `into_box` and `leak_as`: if the value fits, the box holds it from the first byte of the range on; otherwise the pages are freed and
nothing is returned. -/
theorem into_box (hC : Contract M inv owned) {w : World σ} {rest : List Range} (h : Owner inv owned w rest) (dbg : Bool) {i : Nat} {r : Range}
    (hg : w.get i = some (.alloc r)) (value : List UInt8) (leak : Bool) :
    let x := step M dbg w (if leak then .leakAs i value else .intoBox i value)
    x.1 = .ok () ∧
      (value.length ≤ 4096 * r.pages → x.2.get i = some (if leak then .leaked r value.length else .box r value.length) ∧ Holds x.2.m r.addr value ∧
        x.2.s = w.s) ∧
      (4096 * r.pages < value.length → x.2.get i = none ∧ M.free w.s w.m r.addr r.pages = (true, x.2.s, x.2.m) ∧ r ∉ held x.2.vals) := by
  have hlen : r.len = 4096 * r.pages := by unfold Range.len; omega
  have key : ∀ v' : Val, v'.range = r →
      (become w i (fun _ => v') (place M dbg w r value)).1 = .ok () ∧
      (value.length ≤ 4096 * r.pages → (become w i (fun _ => v') (place M dbg w r value)).2.get i = some v' ∧
        Holds (become w i (fun _ => v') (place M dbg w r value)).2.m r.addr value ∧ (become w i (fun _ => v') (place M dbg w r value)).2.s = w.s) ∧
      (4096 * r.pages < value.length → (become w i (fun _ => v') (place M dbg w r value)).2.get i = none ∧
        M.free w.s w.m r.addr r.pages = (true, (become w i (fun _ => v') (place M dbg w r value)).2.s, (become w i (fun _ => v') (place M dbg w r value)).2.m) ∧
        r ∉ held (become w i (fun _ => v') (place M dbg w r value)).2.vals) := by
    intro v' hr
    by_cases hle : value.length ≤ r.len
    · rw [place_fits hle]
      refine ⟨rfl, fun _ => ⟨?_, write_holds _ _ _, rfl⟩, fun hh => absurd hh (by omega)⟩
      exact get_set_self (w := { w with m := write w.m r.addr value }) (get_lt (w := w) hg)
    · obtain ⟨s, m, h1, h2, h3, h4⟩ := free_owned hC h hg dbg
      have h2' : freePages M dbg w r = (.ok (), ⟨s, m, w.vals⟩) := h2
      rw [place_large (show r.len < value.length by omega) h2']
      refine ⟨rfl, fun hh => absurd hh (by omega), fun _ => ⟨?_, h1, ?_⟩⟩
      · exact get_set_self (w := ⟨s, m, w.vals⟩) (get_lt (w := w) hg)
      · intro hin
        have hp2 : (r :: held (w.vals.set i none)).Pairwise Apart := by
          have hp := hC.apart _ h.inv
          have hsym : ∀ {a b : Range}, Apart a b → Apart b a := fun h => h.symm
          have := (List.pairwise_append.1 ((List.Perm.pairwise_iff hsym h.exactly).1 hp)).1
          exact (List.Perm.pairwise_iff hsym (held_take hg)).1 this
        have hap := (List.pairwise_cons.1 hp2).1 r hin
        have hpos := (hC.proper _ h.inv r (owner_mem h hg)).2.2
        unfold Apart at hap
        omega
  intro x
  have hx : x = become w i (fun _ => if leak then .leaked r value.length else .box r value.length) (place M dbg w r value) := by
    show step M dbg w _ = _
    cases leak
    · simp only [Bool.false_eq_true, if_false]
      unfold step
      simp only [hg]
    · simp only [if_true]
      unfold step
      simp only [hg]
  rw [hx]
  exact key _ (by cases leak <;> rfl)

/-- C90, `into_boxed_slice` and `leak_as_slice`: as many elements as fit into the pages, element `k` at its place; a slice of elements without
bytes panics. -/
theorem into_boxed_slice {w : World σ} (dbg : Bool) {i : Nat} {r : Range} (hg : w.get i = some (.alloc r)) {size : Nat} {gen : Nat → List UInt8}
    (hgen : ∀ k, (gen k).length = size) (leak : Bool) :
    let x := step M dbg w (if leak then .leakAsSlice i size gen else .intoBoxedSlice i size gen)
    (size = 0 → x = (.panic, w)) ∧
    (0 < size → x.1 = .ok () ∧ x.2.s = w.s ∧ ∃ n, n * size ≤ 4096 * r.pages ∧ 4096 * r.pages < (n + 1) * size ∧
      x.2.get i = some (if leak then .leaked r (n * size) else .box r (n * size)) ∧
      ∀ k, k < n → Holds x.2.m (r.addr + k * size) (gen k)) := by
  have hlen : r.len = 4096 * r.pages := by unfold Range.len; omega
  intro x
  by_cases h0 : size = 0
  · refine ⟨fun _ => ?_, fun h => absurd h0 (by omega)⟩
    show step M dbg w _ = _
    cases leak <;> simp [step, hg, placeSlice, sliceCount, h0]
  · refine ⟨fun h => absurd h h0, fun hpos => ?_⟩
    have hx : x = (.ok (), ({ w with m := fill w.m r.addr size gen (r.len / size) } : World σ).set i
        (some (if leak then .leaked r (r.len / size * size) else .box r (r.len / size * size)))) := by
      show step M dbg w _ = _
      cases leak <;> simp [step, hg, placeSlice, sliceCount, h0]
    rw [hx]
    refine ⟨rfl, rfl, r.len / size, by rw [← hlen]; exact Nat.div_mul_le_self _ _, ?_, get_set_self (w := { w with m := _ }) (get_lt (w := w) hg),
      fun k hk => fill_holds w.m r.addr size hgen _ k hk⟩
    rw [← hlen, Nat.mul_comm]
    exact Nat.lt_mul_div_succ _ hpos

/-- C90, `into_raw_ptr`: the pointer is the range's address if the type fits; otherwise the pages are freed. -/
theorem into_raw_ptr (hC : Contract M inv owned) {w : World σ} {rest : List Range} (h : Owner inv owned w rest) (dbg : Bool) {i : Nat} {r : Range}
    (hg : w.get i = some (.alloc r)) (size : Nat) :
    (size ≤ 4096 * r.pages → intoRawPtr M dbg w r size = (.ok (some r.addr), w) ∧ step M dbg w (.intoRawPtr i size) = (.ok (), w.set i (some (.raw r)))) ∧
    (4096 * r.pages < size → ∃ s m, M.free w.s w.m r.addr r.pages = (true, s, m) ∧
      step M dbg w (.intoRawPtr i size) = (.ok (), ⟨s, m, w.vals.set i none⟩)) := by
  have hlen : r.len = 4096 * r.pages := by unfold Range.len; omega
  refine ⟨fun hle => ?_, fun hlt => ?_⟩
  · have e : intoRawPtr M dbg w r size = (.ok (some r.addr), w) := by unfold intoRawPtr; rw [if_neg (by omega)]
    refine ⟨e, ?_⟩
    unfold step; simp only [hg, e]; rfl
  · obtain ⟨s, m, h1, h2, h3, h4⟩ := free_owned hC h hg dbg
    have h2' : freePages M dbg w r = (.ok (), ⟨s, m, w.vals⟩) := h2
    refine ⟨s, m, h1, ?_⟩
    unfold step; simp only [hg]
    unfold intoRawPtr
    rw [if_pos (by omega), h2']
    rfl

/-- A page aligned address is aligned for every type whose alignment divides the page size. -/
theorem pointer_aligned (hC : Contract M inv owned) {w : World σ} {rest : List Range} (h : Owner inv owned w rest) {i : Nat} {v : Val}
    (hg : w.get i = some v) {align : Nat} (ha : align ∣ 4096) : v.range.addr ≠ 0 ∧ align ∣ v.range.addr := by
  obtain ⟨h1, h2, _⟩ := hC.proper _ h.inv _ (owner_mem h hg)
  exact ⟨h1, Nat.dvd_trans ha (Nat.dvd_of_mod_eq_zero h2)⟩

/-- C90: should the memory services refuse to take the pages back, a release build goes on; only a debug build panics. -/
theorem free_refused {w : World σ} {r : Range} {s : σ} {m : Nat → UInt8} (h : M.free w.s w.m r.addr r.pages = (false, s, m)) (dbg : Bool) :
    freePages M dbg w r = (if dbg then .panic else .ok (), { w with s := s, m := m }) ∧
    dropAlloc M dbg w r = (if dbg then .panic else .ok (), { w with s := s, m := m }) := by
  unfold dropAlloc freePages
  rw [h]
  cases dbg <;> exact ⟨rfl, rfl⟩

/-- C90: dropping an allocation, or a box with bytes, frees its range, once. A debug build panics after it has freed an allocation that was
never used. -/
theorem drop_frees (hC : Contract M inv owned) {w : World σ} {rest : List Range} (h : Owner inv owned w rest) (dbg : Bool) {i : Nat} {r : Range} {v : Val}
    (hg : w.get i = some v) (hv : v = .alloc r ∨ ∃ n, 0 < n ∧ v = .box r n) :
    ∃ s m, M.free w.s w.m r.addr r.pages = (true, s, m) ∧
      step M dbg w (.drop i) = (if dbg = true ∧ v = .alloc r then .panic else .ok (), ⟨s, m, w.vals.set i none⟩) := by
  obtain ⟨s, m, h1, h2, h3, h4⟩ := free_owned hC h hg dbg
  rcases hv with rfl | ⟨n, hn, rfl⟩
  · have h2' : freePages M dbg w r = (.ok (), ⟨s, m, w.vals⟩) := h2
    refine ⟨s, m, h1, ?_⟩
    unfold step; simp only [hg]
    unfold dropAlloc
    rw [h2']
    cases dbg <;> rfl
  · have h2' : freePages M dbg w r = (.ok (), ⟨s, m, w.vals⟩) := h2
    refine ⟨s, m, h1, ?_⟩
    unfold step; simp only [hg]
    unfold dropBox
    rw [if_pos (by omega), h2', if_neg (by rintro ⟨_, h⟩; cases h)]
    rfl

/-- C90: what panics. A release build: only a slice of elements without bytes, or a store past the end. -/
theorem step_panic (hC : Contract M inv owned) {w : World σ} {rest : List Range} (h : Owner inv owned w rest) {dbg : Bool} {op : Op}
    (hx : (step M dbg w op).1 = .panic) :
    (∃ n o, (op = .allocate n o ∨ op = .allocateZero n o) ∧ (M.allocate w.s w.m n o).1 = .panic) ∨
    (dbg = true ∧ ∃ i r, op = .drop i ∧ w.get i = some (.alloc r)) ∨
    (∃ i, op = .intoRawSlice i 0) ∨ (∃ i gen, op = .intoBoxedSlice i 0 gen ∨ op = .leakAsSlice i 0 gen) ∨
    (∃ i off bytes v, op = .store i off bytes ∧ w.get i = some v ∧ v.bytes < off + bytes.length) := by
  have halloc : ∀ n o z, (allocate M w n o z).1 = .panic → (M.allocate w.s w.m n o).1 = .panic := by
    intro n o z hx
    unfold allocate at hx
    split at hx
    · cases hx
    · cases hx
    · rename_i hh; rw [hh]
  cases op with
  | allocate n o => exact .inl ⟨n, o, .inl rfl, halloc n o false hx⟩
  | allocateZero n o => exact .inl ⟨n, o, .inr rfl, halloc n o true hx⟩
  | drop i =>
    rcases hg : w.get i with _ | v
    · simp [step, hg] at hx
    · cases v with
      | alloc r =>
        obtain ⟨s, m, _, h2⟩ := drop_frees hC h dbg hg (.inl rfl)
        rw [h2] at hx
        refine .inr (.inl ⟨?_, i, r, rfl, hg⟩)
        simp only at hx
        split at hx
        · rename_i hd; exact hd.1
        · cases hx
      | box r n =>
        by_cases hn : n = 0
        · simp [step, hg, dropBox, hn] at hx
        · obtain ⟨s, m, _, h2⟩ := drop_frees hC h dbg hg (.inr ⟨n, by omega, rfl⟩)
          rw [h2] at hx
          simp at hx
      | raw r => simp [step, hg] at hx
      | leaked r n => simp [step, hg] at hx
  | intoRawPtr i size =>
    rcases hg : w.get i with _ | v
    · simp [step, hg] at hx
    · cases v with
      | alloc r =>
        have hlen : r.len = 4096 * r.pages := by unfold Range.len; omega
        obtain ⟨h1, h2⟩ := into_raw_ptr hC h dbg hg size
        by_cases hs : size ≤ 4096 * r.pages
        · rw [(h1 hs).2] at hx; cases hx
        · obtain ⟨s, m, _, h3⟩ := h2 (by omega)
          rw [h3] at hx; cases hx
      | _ => simp [step, hg] at hx
  | intoRawSlice i size =>
    rcases hg : w.get i with _ | v
    · simp [step, hg] at hx
    · cases v with
      | alloc r =>
        by_cases h0 : size = 0
        · subst h0; exact .inr (.inr (.inl ⟨i, rfl⟩))
        · simp [step, hg, sliceCount, h0] at hx
      | _ => simp [step, hg] at hx
  | intoBox i value =>
    rcases hg : w.get i with _ | v
    · simp [step, hg] at hx
    · cases v with
      | alloc r =>
        have := (into_box hC h dbg hg value false).1
        simp only [Bool.false_eq_true, if_false] at this
        rw [this] at hx; cases hx
      | _ => simp [step, hg] at hx
  | leakAs i value =>
    rcases hg : w.get i with _ | v
    · simp [step, hg] at hx
    · cases v with
      | alloc r =>
        have := (into_box hC h dbg hg value true).1
        simp only [if_true] at this
        rw [this] at hx; cases hx
      | _ => simp [step, hg] at hx
  | intoBoxedSlice i size gen =>
    rcases hg : w.get i with _ | v
    · simp [step, hg] at hx
    · cases v with
      | alloc r =>
        by_cases h0 : size = 0
        · subst h0; exact .inr (.inr (.inr (.inl ⟨i, gen, .inl rfl⟩)))
        · simp [step, hg, placeSlice, sliceCount, h0] at hx
      | _ => simp [step, hg] at hx
  | leakAsSlice i size gen =>
    rcases hg : w.get i with _ | v
    · simp [step, hg] at hx
    · cases v with
      | alloc r =>
        by_cases h0 : size = 0
        · subst h0; exact .inr (.inr (.inr (.inl ⟨i, gen, .inr rfl⟩)))
        · simp [step, hg, placeSlice, sliceCount, h0] at hx
      | _ => simp [step, hg] at hx
  | freeRaw i =>
    rcases hg : w.get i with _ | v
    · simp [step, hg] at hx
    · cases v <;> simp [step, hg] at hx
  | store i off bytes =>
    rcases hg : w.get i with _ | v
    · simp [step, hg] at hx
    · refine .inr (.inr (.inr (.inr ⟨i, off, bytes, v, rfl, hg, ?_⟩)))
      cases v with
      | alloc r => simp [step, hg] at hx
      | raw r => simp [step, hg] at hx
      | box r n =>
        simp only [step, hg] at hx
        split at hx
        · cases hx
        · simp only [Val.bytes]; omega
      | leaked r n =>
        simp only [step, hg] at hx
        split at hx
        · cases hx
        · simp only [Val.bytes]; omega

end Verif.Pages
