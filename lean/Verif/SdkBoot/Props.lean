import Verif.SdkBoot.Model
/-!
Boxes and protocol interfaces: who owns what, over all histories.
-/
namespace Verif.SdkBoot

/-! ### Boxes -/

/-- What a driver means by its boxes: the values in them and behind its raw pointers. -/
structure Values where
  boxes : List Nat
  raws : List Nat
deriving DecidableEq, Repr

def Values.step (s : Values) : BoxOp → Values
  | .new _ v => { s with boxes := s.boxes ++ [v] }
  | .write i v => { s with boxes := s.boxes.set i v }
  | .drop i => { s with boxes := s.boxes.eraseIdx i }
  | .leak i | .intoRaw i => match s.boxes[i]? with
    | some v => ⟨s.boxes.eraseIdx i, s.raws ++ [v]⟩
    | none => s
  | .fromRaw i => match s.raws[i]? with
    | some v => ⟨s.boxes ++ [v], s.raws.eraseIdx i⟩
    | none => s

/-- Every box and raw pointer has memory of its own, and nothing else does; nothing was freed that was not allocated. -/
structure Boxes.Inv (w : Boxes) : Prop where
  owns : (w.pool.live.map Prod.fst).Perm (w.boxes ++ w.raws)
  once : (w.boxes ++ w.raws).Nodup
  good : w.pool.badFrees = []

def BoxOp.isIntoRaw : BoxOp → Bool
  | .intoRaw _ => true
  | _ => false

theorem perm_eraseIdx {l : List Nat} {i a : Nat} (h : l[i]? = some a) : l.Perm (a :: l.eraseIdx i) := by
  induction l generalizing i with
  | nil => simp at h
  | cons b l ih =>
    cases i with
    | zero => simp at h; subst h; exact List.Perm.refl _
    | succ i =>
      simp only [List.getElem?_cons_succ] at h
      simp only [List.eraseIdx_cons_succ]
      exact ((ih h).cons b).trans (List.Perm.swap ..)

theorem map_eraseIdx (f : Nat → Nat) : ∀ (l : List Nat) (i : Nat), (l.eraseIdx i).map f = (l.map f).eraseIdx i
  | [], _ => rfl
  | _ :: _, 0 => rfl
  | a :: l, i + 1 => by simp only [List.eraseIdx_cons_succ, List.map_cons, map_eraseIdx f l i]

theorem map_filter_fst (l : List (Nat × Nat)) (a : Nat) : (l.filter fun x => x.1 != a).map Prod.fst = (l.map Prod.fst).filter fun x => x != a := by
  rw [List.filter_map]
  rfl

theorem filter_ne_of_not_mem {l : List Nat} {a : Nat} (h : a ∉ l) : l.filter (fun x => x != a) = l := by
  rw [List.filter_eq_self]
  intro x hx
  simp only [bne_iff_ne, ne_eq]
  rintro rfl
  exact h hx

theorem free_owns {p : Pool} {a : Nat} {l : List Nat} (ho : (p.live.map Prod.fst).Perm (a :: l)) (hn : (a :: l).Nodup) :
    ((p.free a).live.map Prod.fst).Perm l ∧ (p.free a).badFrees = p.badFrees := by
  have hm : a ∈ p.live.map Prod.fst := ho.mem_iff.2 (List.mem_cons_self ..)
  unfold Pool.free
  rw [if_pos hm]
  refine ⟨?_, rfl⟩
  simp only [map_filter_fst]
  have := ho.filter fun x => x != a
  rw [List.filter_cons_of_neg (by simp), filter_ne_of_not_mem (List.nodup_cons.1 hn).1] at this
  exact this

/-- One operation other than `into_raw` keeps the invariant and does what it means. -/
theorem box_step {A : Allocator} (hA : A.Ok) {w w' : Boxes} {o : BoxOp} (hi : w.Inv) (ho : o.isIntoRaw = false) (hs : w.step A o = .ok w') :
    w'.Inv ∧ (⟨w'.boxes.map w'.value, w'.raws.map w'.value⟩ : Values) = Values.step ⟨w.boxes.map w.value, w.raws.map w.value⟩ o := by
  cases o with
  | new size v =>
    simp only [Boxes.step, Pool.alloc] at hs
    cases ha : A w.pool size with
    | none => rw [ha] at hs; cases hs
    | some a =>
      rw [ha] at hs
      simp only [Option.map_some, Outcome.ok.injEq] at hs
      subst hs
      have hf := hA _ _ _ ha
      have hf' : a ∉ w.boxes ++ w.raws := fun hc => hf (hi.owns.mem_iff.2 hc)
      simp only [List.mem_append, not_or] at hf'
      refine ⟨⟨?_, ?_, hi.good⟩, ?_⟩
      · simp only [List.map_cons, List.append_assoc, List.singleton_append]
        exact (hi.owns.cons a).trans List.perm_middle.symm
      · simp only [List.append_assoc, List.singleton_append]
        exact List.perm_middle.nodup_iff.2 (List.nodup_cons.2 ⟨by simpa using hf', hi.once⟩)
      · simp only [Values.step, List.map_append, List.map_cons, List.map_nil, if_true, Values.mk.injEq]
        constructor
        · congr 1
          exact List.map_congr_left fun x hx => if_neg fun (hc : x = a) => hf'.1 (hc ▸ hx)
        · exact List.map_congr_left fun x hx => if_neg fun (hc : x = a) => hf'.2 (hc ▸ hx)
  | write i v =>
    simp only [Boxes.step] at hs
    cases hb : w.boxes[i]? with
    | none =>
      rw [hb] at hs
      simp only [Outcome.ok.injEq] at hs
      subst hs
      refine ⟨hi, ?_⟩
      have : w.boxes.length ≤ i := List.getElem?_eq_none_iff.1 hb
      simp only [Values.step, Values.mk.injEq, and_true]
      rw [List.set_eq_of_length_le (by simpa using this)]
    | some a =>
      rw [hb] at hs
      simp only [Outcome.ok.injEq] at hs
      subst hs
      refine ⟨⟨hi.owns, hi.once, hi.good⟩, ?_⟩
      obtain ⟨hl, he⟩ := List.getElem?_eq_some_iff.1 hb
      have hn := List.nodup_append.1 hi.once
      simp only [Values.step, Values.mk.injEq]
      constructor
      · apply List.ext_getElem
        · simp
        · intro j h1 h2
          simp only [List.length_map, List.length_set] at h1 h2
          simp only [List.getElem_map, List.getElem_set]
          by_cases hj : i = j
          · subst hj
            simp [he]
          · rw [if_neg hj, if_neg]
            intro hc
            apply hj
            exact (List.getElem_inj hn.1).1 (he.trans hc.symm)
      · refine List.map_congr_left fun x hx => if_neg fun hc => ?_
        exact hn.2.2 a (List.mem_of_getElem? hb) x hx hc.symm
  | drop i =>
    simp only [Boxes.step] at hs
    cases hb : w.boxes[i]? with
    | none =>
      rw [hb] at hs
      simp only [Outcome.ok.injEq] at hs
      subst hs
      refine ⟨hi, ?_⟩
      have : w.boxes.length ≤ i := List.getElem?_eq_none_iff.1 hb
      simp only [Values.step, Values.mk.injEq, and_true]
      rw [List.eraseIdx_of_length_le (by simpa using this)]
    | some a =>
      rw [hb] at hs
      simp only [Outcome.ok.injEq] at hs
      subst hs
      have hp : (w.boxes ++ w.raws).Perm (a :: (w.boxes.eraseIdx i ++ w.raws)) := (perm_eraseIdx hb).append_right _
      have hn := hp.nodup_iff.1 hi.once
      obtain ⟨h1, h2⟩ := free_owns (hi.owns.trans hp) hn
      refine ⟨⟨h1, (List.nodup_cons.1 hn).2, h2.trans hi.good⟩, ?_⟩
      simp [Values.step, map_eraseIdx]
  | leak i =>
    simp only [Boxes.step] at hs
    cases hb : w.boxes[i]? with
    | none =>
      rw [hb] at hs
      simp only [Outcome.ok.injEq] at hs
      subst hs
      exact ⟨hi, by simp [Values.step, hb]⟩
    | some a =>
      rw [hb] at hs
      simp only [Outcome.ok.injEq] at hs
      subst hs
      have hp : (w.boxes ++ w.raws).Perm (w.boxes.eraseIdx i ++ (w.raws ++ [a])) := by
        refine ((perm_eraseIdx hb).append_right _).trans ?_
        rw [← List.append_assoc]
        exact (List.perm_append_singleton a _).symm
      refine ⟨⟨hi.owns.trans hp, hp.nodup_iff.1 hi.once, hi.good⟩, ?_⟩
      simp [Values.step, hb, map_eraseIdx]
  | intoRaw i => cases ho
  | fromRaw i =>
    simp only [Boxes.step] at hs
    cases hb : w.raws[i]? with
    | none =>
      rw [hb] at hs
      simp only [Outcome.ok.injEq] at hs
      subst hs
      exact ⟨hi, by simp [Values.step, hb]⟩
    | some a =>
      rw [hb] at hs
      simp only [Outcome.ok.injEq] at hs
      subst hs
      have hp : (w.boxes ++ w.raws).Perm (w.boxes ++ [a] ++ w.raws.eraseIdx i) := by
        rw [List.append_assoc, List.singleton_append]
        exact (perm_eraseIdx hb).append_left _
      refine ⟨⟨hi.owns.trans hp, hp.nodup_iff.1 hi.once, hi.good⟩, ?_⟩
      simp [Values.step, hb, map_eraseIdx]

/-- C104: over every history of boxes made, written, dropped, leaked and taken back, each box and each leaked pointer has memory of its own that is allocated, with the value last put in; nothing else stays
allocated, and nothing is freed twice. What is missing: `into_raw`, see `into_raw_frees`. -/
theorem boxes_own_partial {A : Allocator} (hA : A.Ok) : ∀ (os : List BoxOp) {w w' : Boxes}, w.Inv → (∀ o ∈ os, o.isIntoRaw = false) → w.run A os = .ok w' →
    w'.Inv ∧ (⟨w'.boxes.map w'.value, w'.raws.map w'.value⟩ : Values) = os.foldl Values.step ⟨w.boxes.map w.value, w.raws.map w.value⟩
  | [], w, w', hi, _, h => by
    cases h
    exact ⟨hi, rfl⟩
  | o :: os, w, w', hi, ho, h => by
    unfold Boxes.run at h
    cases hs : w.step A o with
    | ok w1 =>
      rw [hs] at h
      obtain ⟨h1, h2⟩ := box_step hA hi (ho o (List.mem_cons_self ..)) hs
      obtain ⟨h3, h4⟩ := boxes_own_partial hA os h1 (fun x hx => ho x (List.mem_cons_of_mem _ hx)) h
      exact ⟨h3, by rw [h4, h2]; rfl⟩
    | err e => rw [hs] at h; cases h
    | panic => rw [hs] at h; cases h

/-- C104: such a history only panics if the pool has no memory for a new box. -/
theorem boxes_panic_iff {A : Allocator} {w : Boxes} {o : BoxOp} : w.step A o = .panic ↔ ∃ size v, o = .new size v ∧ A w.pool size = none := by
  constructor
  · intro h
    cases o with
    | new size v =>
      refine ⟨size, v, rfl, ?_⟩
      simp only [Boxes.step, Pool.alloc] at h
      cases ha : A w.pool size with
      | none => rfl
      | some a => rw [ha] at h; cases h
    | write i v => simp only [Boxes.step] at h; split at h <;> cases h
    | drop i => simp only [Boxes.step] at h; split at h <;> cases h
    | leak i => simp only [Boxes.step] at h; split at h <;> cases h
    | intoRaw i => simp only [Boxes.step] at h; split at h <;> cases h
    | fromRaw i => simp only [Boxes.step] at h; split at h <;> cases h
  · rintro ⟨size, v, rfl, ha⟩
    simp [Boxes.step, Pool.alloc, ha]

/-- The code does not meet the full property: the pointer that `into_raw` returns is to memory that is no longer allocated, for every box in every state. -/
theorem into_raw_frees {A : Allocator} {w w' : Boxes} {i a : Nat} (hi : w.Inv) (hb : w.boxes[i]? = some a) (hs : w.step A (.intoRaw i) = .ok w') :
    a ∈ w'.raws ∧ a ∉ w'.pool.live.map Prod.fst := by
  simp only [Boxes.step, hb, Outcome.ok.injEq] at hs
  subst hs
  refine ⟨by simp, ?_⟩
  have hm : a ∈ w.pool.live.map Prod.fst := hi.owns.mem_iff.2 (List.mem_append_left _ (List.mem_of_getElem? hb))
  simp only [Pool.free, if_pos hm, map_filter_fst, List.mem_filter, bne_self_eq_false, Bool.false_eq_true, and_false, not_false_eq_true]

/-- The code does not meet the full property: a box made again from what `into_raw` returned frees its memory a second time when it is dropped. -/
theorem into_raw_double_free {A : Allocator} {w w' : Boxes} {i a : Nat} (hi : w.Inv) (hb : w.boxes[i]? = some a) (hr : w.raws = [])
    (hs : w.run A [.intoRaw i, .fromRaw 0, .drop (w.boxes.length - 1)] = .ok w') : a ∈ w'.pool.badFrees := by
  have hm : a ∈ w.pool.live.map Prod.fst := hi.owns.mem_iff.2 (List.mem_append_left _ (List.mem_of_getElem? hb))
  obtain ⟨hl, _⟩ := List.getElem?_eq_some_iff.1 hb
  have hlen : (w.boxes.eraseIdx i).length = w.boxes.length - 1 := by rw [List.length_eraseIdx]; simp [hl]
  have hx : (w.boxes.eraseIdx i ++ [a])[w.boxes.length - 1]? = some a := by rw [← hlen]; simp
  have h1 : a ∉ (w.pool.free a).live.map Prod.fst := by
    simp only [Pool.free, if_pos hm, map_filter_fst, List.mem_filter, bne_self_eq_false, Bool.false_eq_true, and_false, not_false_eq_true]
  simp only [Boxes.run, Boxes.step, hb, hr, List.nil_append, List.getElem?_cons_zero, hx, Outcome.ok.injEq] at hs
  subst hs
  generalize w.pool.free a = p at h1
  unfold Pool.free
  rw [if_neg h1]
  exact List.mem_cons_self ..

/-! ### Interfaces -/

/-- Everything that was ever there, wherever it is now. -/
def Faces.all (w : Faces) : List Nat := w.driver ++ w.installed.map Prod.snd ++ w.dropped ++ w.lost

def FaceOp.sized : FaceOp → Bool
  | .install _ _ zst _ => !zst
  | _ => true

theorem erase_perm_cons {l : List Nat} {a : Nat} (h : a ∈ l) : l.Perm (a :: l.erase a) := List.perm_cons_erase h

theorem snd_erase {l : List (Nat × Nat)} {h a : Nat} (hc : l.contains (h, a) = true) : (l.map Prod.snd).Perm (a :: (l.erase (h, a)).map Prod.snd) :=
  (List.perm_cons_erase (List.contains_iff_mem.1 hc)).map Prod.snd

theorem count_perm {l m : List Nat} (h : ∀ x, l.count x = m.count x) : l.Perm m := List.perm_iff_count.2 h

theorem face_step {w : Faces} {o : FaceOp} (ho : o.sized = true) : (w.step o).all.Perm w.all := by
  have key : ∀ {l m : List Nat} {a : Nat}, l.Perm (a :: m) → ∀ x, l.count x = (if a = x then 1 else 0) + m.count x := by
    intro l m a h x
    rw [h.count_eq, List.count_cons]
    by_cases hx : a = x <;> simp [hx, Nat.add_comm]
  have cc : ∀ (a : Nat) (l : List Nat) (x : Nat), (a :: l).count x = (if a = x then 1 else 0) + l.count x := by
    intro a l x
    rw [List.count_cons]
    by_cases hx : a = x <;> simp [hx, Nat.add_comm]
  apply count_perm
  intro x
  cases o with
  | install h obj zst fw =>
    cases zst with
    | true => cases ho
    | false =>
      unfold Faces.step
      by_cases hd : obj ∈ w.driver
      · simp only [if_pos hd]
        have := key (erase_perm_cons hd) x
        cases fw <;> simp only [Faces.all, List.map_cons, List.count_append, cc] <;> omega
      · simp only [if_neg hd]
  | uninstall h k fw =>
    unfold Faces.step
    by_cases hc : (fw && w.installed.contains (h, k)) = true
    · simp only [if_pos hc]
      simp only [Bool.and_eq_true] at hc
      have := key (snd_erase hc.2) x
      simp only [Faces.all, List.count_append, cc]
      omega
    · simp only [if_neg hc]
  | reinstall h k obj fw =>
    unfold Faces.step
    by_cases hd : obj ∈ w.driver
    · simp only [if_pos hd]
      have h1 := key (erase_perm_cons hd) x
      by_cases hc : (fw && w.installed.contains (h, k)) = true
      · simp only [if_pos hc]
        simp only [Bool.and_eq_true] at hc
        have := key (snd_erase hc.2) x
        simp only [Faces.all, List.map_cons, List.count_append, cc]
        omega
      · simp only [if_neg hc]
        simp only [Faces.all, List.count_append, cc]
        omega
    · simp only [if_neg hd]
  | drop obj =>
    unfold Faces.step
    by_cases hd : obj ∈ w.driver
    · simp only [if_pos hd]
      have := key (erase_perm_cons hd) x
      simp only [Faces.all, List.count_append, cc]
      omega
    · simp only [if_neg hd]

/-- C105: over every history of installing, uninstalling, reinstalling and dropping interfaces (of types with a size), with any failures of the firmware, every object is in exactly one place: with the driver,
with the firmware, or dropped (once), or lost. -/
theorem one_owner_partial (os : List FaceOp) (ho : ∀ o ∈ os, o.sized = true) (w : Faces) : (os.foldl Faces.step w).all.Perm w.all := by
  induction os generalizing w with
  | nil => exact List.Perm.refl _
  | cons o os ih =>
    exact (ih (fun x hx => ho x (List.mem_cons_of_mem _ hx)) _).trans (face_step (ho o (List.mem_cons_self ..)))

/-- C105: so an interface that is installed has not been dropped, is not in the hands of the driver, and is installed once. -/
theorem installed_valid_partial {os : List FaceOp} (ho : ∀ o ∈ os, o.sized = true) {w : Faces} (hw : w.all.Nodup) {h a : Nat} (hi : (h, a) ∈ (os.foldl Faces.step w).installed) :
    a ∉ (os.foldl Faces.step w).dropped ∧ a ∉ (os.foldl Faces.step w).driver ∧ a ∉ (os.foldl Faces.step w).lost ∧ (∀ h', (h', a) ∈ (os.foldl Faces.step w).installed → h' = h) := by
  have hn := (one_owner_partial os ho w).nodup_iff.2 hw
  generalize os.foldl Faces.step w = v at hn hi
  have ha : a ∈ v.installed.map Prod.snd := List.mem_map.2 ⟨(h, a), hi, rfl⟩
  unfold Faces.all at hn
  rw [List.nodup_append] at hn
  obtain ⟨h1, _, h2⟩ := hn
  rw [List.nodup_append] at h1
  obtain ⟨h3, _, h4⟩ := h1
  rw [List.nodup_append] at h3
  obtain ⟨_, h5, h6⟩ := h3
  refine ⟨fun hc => h4 a (List.mem_append_right _ ha) a hc rfl, fun hc => h6 a hc a ha rfl, fun hc => h2 a (List.mem_append_left _ (List.mem_append_right _ ha)) a hc rfl, ?_⟩
  intro h' hi'
  have : ∀ (l : List (Nat × Nat)), (l.map Prod.snd).Nodup → (h, a) ∈ l → (h', a) ∈ l → h' = h := by
    intro l
    induction l with
    | nil => intro _ hx; cases hx
    | cons p l ih =>
      intro hn hx hy
      simp only [List.map_cons, List.nodup_cons] at hn
      rcases List.mem_cons.1 hx with hx | hx <;> rcases List.mem_cons.1 hy with hy | hy
      · rw [← hx] at hy
        exact congrArg Prod.fst hy
      · exact absurd (List.mem_map.2 ⟨(h', a), hy, by rw [← hx]⟩) hn.1
      · exact absurd (List.mem_map.2 ⟨(h, a), hx, by rw [← hy]⟩) hn.1
      · exact ih hn.2 hx hy
  exact this _ h5 hi hi'

/-- C105: what installing, uninstalling and reinstalling do. -/
theorem face_effects {w : Faces} {h a b : Nat} (ha : a ∈ w.driver) (hb : (h, b) ∈ w.installed) :
    (w.step (.install h a false true)).installed = (h, a) :: w.installed ∧ (w.step (.install h a false true)).driver = w.driver.erase a ∧
    (w.step (.install h a false false)).dropped = a :: w.dropped ∧ (w.step (.install h a false false)).installed = w.installed ∧
    (w.step (.uninstall h b true)).driver = b :: w.driver ∧ (w.step (.uninstall h b true)).installed = w.installed.erase (h, b) ∧
    w.step (.uninstall h b false) = w ∧
    (w.step (.reinstall h b a true)).driver = b :: w.driver.erase a ∧ (w.step (.reinstall h b a true)).installed = (h, a) :: w.installed.erase (h, b) ∧
    (w.step (.reinstall h b a false)).installed = w.installed := by
  simp [Faces.step, ha, hb]

/-- The code does not meet the full property: if the firmware does not carry out a reinstallation, the new interface is lost: nobody has it and its memory is never freed. -/
theorem reinstall_error_loses {w : Faces} {h k a : Nat} (ha : a ∈ w.driver) : (w.step (.reinstall h k a false)).lost = a :: w.lost := by
  simp [Faces.step, ha]

/-- The code does not meet the full property: an interface of a type of size zero is dropped when it is installed, and twice if that fails. -/
theorem zero_size_dropped {w : Faces} {h a : Nat} (ha : a ∈ w.driver) :
    (w.step (.install h a true true)).dropped = a :: w.dropped ∧ (w.step (.install h a true false)).dropped = a :: a :: w.dropped := by
  simp [Faces.step, ha]

/-- C105: the reference to an interface is the interface if there is one and the type has a size, and to something of size zero if there is none and it has none; otherwise a release build returns an error and a
debug build panics. -/
theorem typed_reference {dbg : Bool} {unit size i : Nat} :
    (i ≠ 0 → 0 < size → typed dbg unit size i = .ok i) ∧ (i = 0 → size = 0 → typed dbg unit size i = .ok unit) ∧
    ((i = 0 ↔ 0 < size) → typed dbg unit size i = if dbg then .panic else .err .invalidParameter) := by
  refine ⟨fun h1 h2 => ?_, fun h1 h2 => ?_, fun h => ?_⟩
  · unfold typed; rw [if_pos h1, if_neg (by omega)]
  · unfold typed; rw [if_neg (by omega), if_neg (by omega)]
  · unfold typed
    by_cases hi : i = 0
    · rw [if_neg (by omega), if_pos (h.1 hi)]
    · rw [if_pos hi, if_pos (by have := fun hc => hi (h.2 hc); omega)]

/-! ### Examples -/

def exampleAllocator : Allocator := fun p n => if n ≤ 64 then some ((p.live.map Prod.fst).foldl max 0 + 64) else none

theorem le_foldl_max (l : List Nat) : ∀ (m : Nat), m ≤ l.foldl max m ∧ ∀ x ∈ l, x ≤ l.foldl max m := by
  induction l with
  | nil => intro m; simp
  | cons a l ih =>
    intro m
    simp only [List.foldl_cons, List.mem_cons, forall_eq_or_imp]
    have := ih (max m a)
    exact ⟨by omega, by omega, this.2⟩

theorem exampleAllocator_ok : exampleAllocator.Ok := by
  intro p n a h hm
  unfold exampleAllocator at h
  split at h
  · injection h with h
    have := (le_foldl_max (p.live.map Prod.fst) 0).2 a hm
    omega
  · cases h

example : ∃ w', Boxes.run exampleAllocator ⟨⟨[], []⟩, [], [], fun _ => 0⟩ [.new 8 5, .new 4 6, .write 0 7, .leak 0, .new 4 9, .drop 0, .fromRaw 0] = .ok w' ∧ w'.boxes.map w'.value = [9, 7] :=
  ⟨_, rfl, by decide⟩

example : (⟨⟨[], []⟩, [], [], fun _ => 0⟩ : Boxes).Inv := ⟨by simp, by simp, rfl⟩

example : ([FaceOp.install 1 10 false true, .reinstall 1 10 11 true, .uninstall 1 11 true].foldl Faces.step ⟨[10, 11], [], [], []⟩) = ⟨[11, 10], [], [], []⟩ := by decide

end Verif.SdkBoot
