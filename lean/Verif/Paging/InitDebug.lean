import Verif.Paging.InitProps
namespace Verif.Paging
open Verif.Gcd

/-! A debug build that gets through has logged nothing. -/

variable {fs : Nat → Faults}

theorem refill_refusals {f : Faults} {m m' : Mem} {base : Nat} (h : m.refill f base = some m') : m'.refusals = m.refusals := by
  unfold Mem.refill at h
  split at h
  · split at h
    · injection h with h; subst h; rfl
    · cases h
  · injection h with h; subst h; rfl

theorem unmap_refusals {f : Faults} {m : Mem} {t : Table} {base len : Nat} : (m.unmap f t base len).2.refusals = m.refusals := by
  unfold Mem.unmap
  cases hr : m.refill f base with
  | none => rfl
  | some m1 =>
    have e := refill_refusals hr
    dsimp only
    split
    · exact e
    · split <;> exact e

theorem map_refusals {f : Faults} {m : Mem} {t : Table} {base len attrs : Nat} : (m.map f t base len attrs).2.refusals = m.refusals := by
  unfold Mem.map
  cases hr : m.refill f base with
  | none => rfl
  | some m1 =>
    have e := refill_refusals hr
    dsimp only
    split
    · exact e
    · split <;> exact e

theorem applyPaging_refusals {dbg : Bool} {f : Faults} {m : Mem} {t : Table} {base len want : Nat} {old : Option Nat} :
    (m.applyPaging dbg f t base len want old).2.refusals = m.refusals := by
  unfold Mem.applyPaging
  split
  · cases old with
    | none => rfl
    | some b =>
      have := unmap_refusals (f := f) (m := m) (t := t) (base := base) (len := len)
      dsimp only
      split <;> (rename_i k; rw [k] at this; exact this)
  · have := map_refusals (f := f) (m := m) (t := t) (base := base) (len := len) (attrs := want)
    split <;> (rename_i k; rw [k] at this; exact this)

theorem setPaging_refusals {dbg : Bool} {f : Faults} {m : Mem} {base len attrs : Nat} : (m.setPaging dbg f base len attrs).2.refusals = m.refusals := by
  unfold Mem.setPaging
  split
  · rfl
  · split
    · rfl
    · split
      · rfl
      · exact applyPaging_refusals
    · exact applyPaging_refusals

theorem setPiece_silent {f : Faults} {m m' : Mem} {r : Outcome EfiError Unit} {old base len attrs : Nat}
    (h : m.setPiece true f old base len attrs = (r, m')) (hp : r ≠ .panic) : m'.refusals = m.refusals := by
  unfold Mem.setPiece at h
  split at h
  · injection h with h; exact absurd h.symm hp
  · rename_i hn
    have hg : (m.setGcd base len attrs).refusals = m.refusals := by
      simp only [true_and, Decidable.not_not] at hn
      exact hn
    unfold Mem.setTable at h
    split at h
    · injection h with _ h; subst h; exact hg
    · have := setPaging_refusals (dbg := true) (f := f) (m := m.setGcd base len attrs) (base := base) (len := len) (attrs := attrs)
      split at h <;> rename_i k <;> rw [k] at this <;> injection h with h1 h2
      · subst h2; exact this.trans hg
      · subst h2; exact this.trans hg
      · exact absurd h1.symm hp
      · exact absurd h1.symm hp

theorem setLoop_silent {f : Faults} {attrs stop : Nat} {n : Nat} : ∀ {m m' : Mem} {cur : Nat} {res r : Outcome EfiError Unit},
    Mem.setLoop true f attrs stop n m cur res = some (r, m') → r ≠ .panic → m'.refusals = m.refusals := by
  induction n with
  | zero => intro m m' cur res r h; cases h
  | succ n ih =>
    intro m m' cur res r h hp
    unfold Mem.setLoop at h
    split at h
    · split at h
      · split at h <;> rename_i k
        · exact (ih h hp).trans (setPiece_silent k (by simp))
        · exact (ih h hp).trans (setPiece_silent k (by simp))
        · injection h with h; injection h with h1 h2
          subst h1; subst h2
          exact setPiece_silent k hp
      · injection h with h; injection h with _ h; subst h; rfl
      · injection h with h; injection h with _ h; subst h; rfl
    · injection h with h; injection h with _ h; subst h; rfl

/-- Nothing was logged on the way from `s` to the end of `p`. -/
def Silent (s : Init) (p : Progress) : Prop := ∀ s', p = .at s' → s'.failed = s.failed ∧ s'.mem.refusals = s.mem.refusals

theorem Silent.then {s : Init} {p : Progress} {k : Init → Progress} (h : Silent s p) (hk : ∀ s1, Silent s1 (k s1)) : Silent s (p.then k) := by
  intro s' e
  obtain ⟨s1, e1, e2⟩ := then_at e
  obtain ⟨a, b⟩ := h s1 e1
  obtain ⟨a', b'⟩ := hk s1 s' e2
  exact ⟨a'.trans a, b'.trans b⟩

theorem silent_panics (s : Init) : Silent s .panics := by intro s' e; cases e

theorem silent_at (s : Init) : Silent s (.at s) := by intro s' e; injection e with e; subst e; exact ⟨rfl, rfl⟩

theorem call_silent {s : Init} {c : SetCall} {onErr : Init → Progress} (he : ∀ s, onErr s = .panics) : Silent s (s.call true fs c onErr) := by
  intro s' h
  unfold Init.call at h
  split at h
  · cases h
  · rename_i k
    injection h with h; subst h
    refine ⟨rfl, ?_⟩
    unfold Mem.setAttributes at k
    split at k
    · injection k with k; injection k with k _; cases k
    · exact setLoop_silent k (by simp)
  · rw [he] at h; cases h
  · cases h

theorem attempt_silent (s : Init) (c : SetCall) : Silent s (s.attempt true fs c) := call_silent fun _ => rfl

theorem must_silent (s : Init) (c : SetCall) : Silent s (s.must true fs c) := call_silent fun _ => rfl

theorem attemptAll_silent (l : List SetCall) : ∀ s, Silent s (Init.attemptAll true fs s l) := by
  induction l with
  | nil => exact silent_at
  | cons c l ih => intro s; exact (attempt_silent s c).then ih

theorem mmio_silent (l : List (Block Cell)) : ∀ s, Silent s (Init.mmio true fs s l) := by
  induction l with
  | nil => exact silent_at
  | cons b l ih =>
    intro s
    simp only [Init.mmio]
    split
    · exact silent_panics s
    · exact (attempt_silent s _).then ih

theorem sections_silent (image alignment : Nat) (l : List CoreSection) : ∀ s, Silent s (Init.sections true fs image alignment s l) := by
  induction l with
  | nil => exact silent_at
  | cons c l ih =>
    intro s
    simp only [Init.sections]
    refine Silent.then ?_ ih
    unfold Init.section
    split
    · exact silent_panics s
    · split
      · split
        · exact must_silent s _
        · exact silent_panics s
      · exact silent_panics s

/-- C108: a debug build either sets paging up with everything on the way there having worked, or does not get through. -/
theorem debug_build_set_up {parse : Nat → Nat → Option CorePe} {modules : List (Nat × Nat)} {m : Mem} {s : Init}
    (h : initPaging true fs parse modules m = .at s) : s.failed = 0 ∧ s.mem.refusals = m.refusals := by
  unfold initPaging at h
  split at h
  · cases h
  · have : Silent ⟨{ m with table := some fun _ => none }, 0, []⟩ (.at s) := by
      rw [← h]
      refine (attemptAll_silent _ _).then fun s => ?_
      split
      · exact silent_panics s
      · split
        · exact silent_panics s
        · refine Silent.then ?_ fun s => (mmio_silent _ s).then fun s => ?_
          · unfold Init.image
            split
            · exact (must_silent s _).then fun s => sections_silent _ _ _ s
            · exact silent_panics s
          · unfold Init.zero
            split
            · split
              · exact attempt_silent s _
              · exact silent_at s
            · exact silent_at s
    exact this s rfl

end Verif.Paging
