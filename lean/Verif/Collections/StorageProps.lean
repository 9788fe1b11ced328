import Verif.Collections.StorageLemmas
/-!
C26: histories of the node storage. Specification first: the slots in use, each with its node.
-/
namespace Verif.Collections.Tree
variable {α : Type}

/-- The operations of the storage and the writes of its users. -/
inductive SOp (α : Type) where
  /-- `Storage::add` -/
  | add (d : α)
  /-- `Storage::delete` of the node in a slot -/
  | delete (i : Nat)
  /-- any write to the node in a slot -/
  | write (i : Nat) (f : Cell α → Cell α)

/-- The user only touches slots in use. -/
def SLegal (live : List (Nat × Cell α)) : SOp α → Prop
  | .add _ => True
  | .delete i => i ∈ live.map (·.1)
  | .write i _ => i ∈ live.map (·.1)

/-- What an operation may answer and the slots in use afterwards. A new node holds the data and no
links; its colour is not specified. -/
inductive SStep (cap : Nat) : List (Nat × Cell α) → SOp α → Outcome CErr Nat → List (Nat × Cell α) → Prop
  | full (live d) : live.length = cap → SStep cap live (.add d) (.err .outOfSpace) live
  | new (live d i col) : live.length < cap → i < cap → i ∉ live.map (·.1) →
      SStep cap live (.add d) (.ok i) ((i, ⟨d, col, none, none, none⟩) :: live)
  | gone (live i) : SStep cap live (.delete i) (.ok 0) (live.filter fun e => e.1 ≠ i)
  | wrote (live i f) : SStep cap live (.write i f) (.ok 0) (live.map fun e => if e.1 = i then (e.1, f e.2) else e)

inductive SHistory (cap : Nat) : List (Nat × Cell α) → List (SOp α × Outcome CErr Nat) → List (Nat × Cell α) → Prop
  | nil (l) : SHistory cap l [] l
  | cons (l op r l' rest l'') : SStep cap l op r l' → SHistory cap l' rest l'' → SHistory cap l ((op, r) :: rest) l''

/-- The result of `Storage::add` beside the storage afterwards. -/
def addResult (s : Store α) : Outcome CErr (Nat × Store α) → Outcome CErr Nat × Store α
  | .ok (i, s') => (.ok i, s')
  | .err e => (.err e, s)
  | .panic => (.panic, s)

/-- One operation of the storage. -/
def sexec (s : Store α) : SOp α → Outcome CErr Nat × Store α
  | .add d => addResult s (s.add d)
  | .delete i => (.ok 0, s.delete i)
  | .write i f => (.ok 0, { s with mem := upd s.mem i f })

def strace : Store α → List (SOp α) → List (SOp α × Outcome CErr Nat)
  | _, [] => []
  | s, op :: ops => (op, (sexec s op).1) :: strace (sexec s op).2 ops

def sfinal : Store α → List (SOp α) → Store α
  | s, [] => s
  | s, op :: ops => sfinal (sexec s op).2 ops

/-- The storage agrees with the slots in use. -/
structure SAgrees (cap : Nat) (s : Store α) (live : List (Nat × Cell α)) : Prop where
  distinct : (live.map (·.1)).Nodup
  inRange : ∀ e ∈ live, e.1 < cap
  len : s.length = live.length
  capacity : s.cap = cap
  get : ∀ e ∈ live, s.get e.1 = some e.2
  outside : ∀ i, s.get i = none ↔ cap ≤ i

/-- The invariant: the slots in use and the free list partition the buffer. -/
structure SInv (cap : Nat) (s : Store α) (live : List (Nat × Cell α)) (fl : List Nat) : Prop where
  free : FreeInv s fl
  hcap : s.cap = cap
  nodup : (live.map (·.1)).Nodup
  bound : ∀ e ∈ live, e.1 < cap
  disj : ∀ e ∈ live, e.1 ∉ fl
  cells : ∀ e ∈ live, s.mem e.1 = e.2
  count : live.length + fl.length = cap

theorem SInv.agrees {cap : Nat} {s : Store α} {live : List (Nat × Cell α)} {fl : List Nat} (h : SInv cap s live fl) :
    SAgrees cap s live := by
  refine ⟨h.nodup, h.bound, ?_, h.hcap, fun e he => ?_, fun i => ?_⟩
  · have := h.free.len; have := h.count; rw [h.hcap] at *; omega
  · simp only [Store.get, h.hcap, if_pos (h.bound e he), h.cells e he]
  · simp only [Store.get, h.hcap]
    by_cases hi : i < cap <;> simp [hi] <;> omega

theorem sstep {cap : Nat} {s : Store α} {live : List (Nat × Cell α)} {fl : List Nat} (h : SInv cap s live fl)
    (op : SOp α) (hl : SLegal live op) :
    ∃ live' fl', SStep cap live op (sexec s op).1 live' ∧ SInv cap (sexec s op).2 live' fl' := by
  cases op with
  | add d =>
    cases fl with
    | nil =>
      have : live.length = cap := by have := h.count; simpa using this
      simp only [sexec, add_full d h.free, addResult]
      exact ⟨live, [], .full live d this, h⟩
    | cons n fl =>
      obtain ⟨s', e, ha⟩ := add_free d h.free
      have hnd := List.nodup_cons.1 h.free.nodup
      have hn : n ∉ live.map (·.1) := by
        intro hm
        obtain ⟨e, he, e1⟩ := List.mem_map.1 hm
        exact h.disj e he (by rw [e1]; simp)
      have hc := h.count
      simp only [sexec, e, addResult]
      have hb : n < cap := by have := h.free.bound n (by simp); rw [h.hcap] at this; exact this
      refine ⟨_, fl, .new live d n (s.mem n).black (by simp at hc; omega) hb hn, ha.free, ha.cap.trans h.hcap,
        by rw [List.map_cons]; exact List.nodup_cons.2 ⟨hn, h.nodup⟩, ?_, ?_, ?_, ?_⟩
      · intro e he
        rcases List.mem_cons.1 he with rfl | he
        · exact hb
        · exact h.bound e he
      · intro e he
        rcases List.mem_cons.1 he with rfl | he
        · exact hnd.1
        · exact fun hm => h.disj e he (by simp [hm])
      · intro e he
        rcases List.mem_cons.1 he with rfl | he
        · exact ha.cell
        · rw [ha.other e.1 (fun e1 => hn (List.mem_map.2 ⟨e, he, e1⟩))]; exact h.cells e he
      · simp at hc ⊢; omega
  | delete i =>
    obtain ⟨e, he, e1⟩ := List.mem_map.1 hl
    subst e1
    have hlen := h.free.len
    have hc := h.count
    rw [h.hcap] at hlen
    have hpos : 0 < live.length := List.length_pos_of_mem he
    obtain ⟨d1, d2, d3, d4⟩ := delete_free h.free (h.disj e he) (by rw [h.hcap]; exact h.bound e he) (by omega)
    refine ⟨_, e.1 :: fl, .gone live e.1, d1, d2.trans h.hcap, (List.filter_sublist.map _).nodup h.nodup, ?_, ?_, ?_, ?_⟩
    · intro x hx; exact h.bound x (List.mem_filter.1 hx).1
    · intro x hx
      have hx := List.mem_filter.1 hx
      rw [List.mem_cons, not_or]
      exact ⟨by simpa using hx.2, h.disj x hx.1⟩
    · intro x hx
      have hx := List.mem_filter.1 hx
      simp only [sexec]
      rw [d4 x.1 (by rw [List.mem_cons, not_or]; exact ⟨by simpa using hx.2, h.disj x hx.1⟩)]
      exact h.cells x hx.1
    · obtain ⟨A, B, hAB⟩ := List.append_of_mem he
      have hnd := h.nodup
      rw [hAB, List.map_append, List.map_cons, List.nodup_append, List.nodup_cons] at hnd
      have hf : live.filter (fun x => x.1 ≠ e.1) = A ++ B := by
        rw [hAB, List.filter_append, List.filter_cons]
        rw [List.filter_eq_self.2 (by
          intro x hx; simp; exact hnd.2.2 x.1 (List.mem_map_of_mem hx) e.1 (by simp)),
          List.filter_eq_self.2 (by
          intro x hx; simp; exact fun e2 => hnd.2.1.1 (List.mem_map.2 ⟨x, hx, e2⟩))]
        simp
      rw [hf]
      rw [hAB] at hc
      simp at hc ⊢; omega
  | write i f =>
    have hkeys : (live.map fun e => if e.1 = i then (e.1, f e.2) else e).map (·.1) = live.map (·.1) := by
      rw [List.map_map]; apply List.map_congr_left; intro x _; simp only [Function.comp_apply]; split <;> rfl
    have hmem : ∀ x ∈ live.map (fun e => if e.1 = i then (e.1, f e.2) else e), ∃ e ∈ live, x.1 = e.1 ∧
        x.2 = if e.1 = i then f e.2 else e.2 := by
      intro x hx
      obtain ⟨e, he, rfl⟩ := List.mem_map.1 hx
      refine ⟨e, he, ?_⟩
      split <;> simp
    have hi : i ∉ fl := by
      obtain ⟨e, he, e1⟩ := List.mem_map.1 hl
      rw [← e1]; exact h.disj e he
    refine ⟨_, fl, .wrote live i f, ⟨?_, h.free.nodup, h.free.bound, h.free.len⟩, h.hcap, by rw [hkeys]; exact h.nodup,
      ?_, ?_, ?_, by simpa using h.count⟩
    · refine FreeChain_congr (fun j hj => ?_) h.free.chain
      have : j ≠ i := fun e => hi (e ▸ hj)
      simp [sexec, upd, this]
    · intro x hx
      obtain ⟨e, he, h1, _⟩ := hmem x hx
      rw [h1]; exact h.bound e he
    · intro x hx
      obtain ⟨e, he, h1, _⟩ := hmem x hx
      rw [h1]; exact h.disj e he
    · intro x hx
      obtain ⟨e, he, h1, h2⟩ := hmem x hx
      rw [h1, h2]
      simp only [sexec, upd]
      split
      · rw [h.cells e he]
      · exact h.cells e he

/-- C26. On memory whose last node has a null `right` link: every history goes as specified, up to the
point (if any) where the user touches a slot not in use. -/
theorem storage_history (m0 : Mem α) {cap : Nat} (hc : 0 < cap) (h0 : (m0 (cap - 1)).right = none)
    (ops : List (SOp α)) :
    ∃ s0, withCapacity m0 cap = .ok s0 ∧
      ((∃ live, SHistory cap [] (strace s0 ops) live ∧ SAgrees cap (sfinal s0 ops) live) ∨
      ∃ pre op post live, ops = pre ++ op :: post ∧ SHistory cap [] (strace s0 pre) live ∧
        SAgrees cap (sfinal s0 pre) live ∧ ¬ SLegal live op) := by
  obtain ⟨s0, h1, h2, h3, h4⟩ := withCapacity_free m0 hc h0
  refine ⟨s0, h1, ?_⟩
  have hinit : SInv cap s0 [] (List.range' 0 cap) :=
    ⟨h2, h3, List.nodup_nil, by simp, by simp, by simp, by simp⟩
  suffices H : ∀ (s : Store α) (live : List (Nat × Cell α)) (fl : List Nat), SInv cap s live fl →
      (∃ live', SHistory cap live (strace s ops) live' ∧ SAgrees cap (sfinal s ops) live') ∨
      ∃ pre op post live', ops = pre ++ op :: post ∧ SHistory cap live (strace s pre) live' ∧
        SAgrees cap (sfinal s pre) live' ∧ ¬ SLegal live' op from H s0 [] _ hinit
  induction ops with
  | nil => intro s live fl h; exact .inl ⟨live, .nil live, h.agrees⟩
  | cons op ops ih =>
    intro s live fl h
    by_cases hl : SLegal live op
    · obtain ⟨live', fl', h1, h2⟩ := sstep h op hl
      rcases ih _ _ _ h2 with ⟨b2, h3, h4⟩ | ⟨pre, op2, post, b2, h3, h4, h5, h6⟩
      · exact .inl ⟨b2, .cons _ _ _ _ _ _ h1 h3, h4⟩
      · exact .inr ⟨op :: pre, op2, post, b2, by rw [h3]; rfl, .cons _ _ _ _ _ _ h1 h4, h5, h6⟩
    · exact .inr ⟨[], op, ops, live, rfl, .nil live, h.agrees, hl⟩

/-- All links null. -/
def zeroed : Mem Nat := fun _ => ⟨0, false, none, none, none⟩

/-- Three slots, four insertions, one deletion and another insertion. -/
example : ∃ s0, withCapacity zeroed 3 = .ok s0 ∧
    (strace s0 [.add 7, .add 8, .add 9, .add 1, .delete 1, .add 5]).map (·.2) =
      [.ok 0, .ok 1, .ok 2, .err .outOfSpace, .ok 0, .ok 1] := by
  refine ⟨_, rfl, ?_⟩
  decide +kernel

/-- Memory that is not zeroed: the last node's `right` link points to slot 0. -/
def dirty : Mem Nat := fun i => if i = 1 then ⟨0, false, none, none, some 0⟩ else ⟨0, false, none, none, none⟩

/-- Without the condition on the memory C26 fails: after filling the buffer, freeing slot 1 overwrites a
link of the node in slot 0, which is in use. -/
theorem dirty_memory_corrupts : ∃ s0, withCapacity dirty 2 = .ok s0 ∧
    ((sfinal s0 [.add 7, .add 8]).get 0).map Cell.left = some none ∧
    ((sfinal s0 [.add 7, .add 8, .delete 1]).get 0).map Cell.left = some (some 1) := by
  refine ⟨_, rfl, ?_, ?_⟩ <;> decide +kernel

end Verif.Collections.Tree
