import Verif.Paging.Init
import Verif.Paging.TableLemmas
namespace Verif.Paging
open Verif.Gcd

/-! What can be said of the page table without any assumption: a page is only ever mapped with attributes that were asked for. -/

/-- Every page is mapped with attributes that satisfy `P`. -/
def AllMapped (P : Nat → Prop) (m : Mem) : Prop := ∀ t p a, m.table = some t → t p = some a → P a

theorem AllMapped.same {P : Nat → Prop} {m m' : Mem} (h : AllMapped P m) (e : m'.table = m.table) : AllMapped P m' := by
  intro t p a ht; rw [e] at ht; exact h t p a ht

theorem refill_table {f : Faults} {m m' : Mem} {base : Nat} (h : m.refill f base = some m') : m'.table = m.table := by
  unfold Mem.refill at h
  split at h
  · split at h
    · injection h with h; subst h; rfl
    · cases h
  · injection h with h; subst h; rfl

theorem allMapped_set {P : Nat → Prop} {m : Mem} {t : Table} {base len : Nat} {x : Option Nat} (h : AllMapped P m) (ht : m.table = some t)
    (hx : ∀ a, x = some a → P a) : AllMapped P { m with table := some (t.set base len x) } := by
  intro t' p a e hp
  injection e with e; subst e
  unfold Table.set at hp
  split at hp
  · exact hx a hp
  · exact h t p a ht hp

theorem unmap_all {P : Nat → Prop} {f : Faults} {m : Mem} {t : Table} {base len : Nat} (h : AllMapped P m) (ht : m.table = some t) :
    AllMapped P (m.unmap f t base len).2 := by
  unfold Mem.unmap
  cases hr : m.refill f base with
  | none => exact h
  | some m1 =>
    have e := refill_table hr
    dsimp only
    split
    · exact h.same e
    · split
      · exact h.same e
      · exact allMapped_set (h.same e) (by rw [e]; exact ht) (by intro a ha; cases ha)

theorem map_all {P : Nat → Prop} {f : Faults} {m : Mem} {t : Table} {base len attrs : Nat} (h : AllMapped P m) (ht : m.table = some t)
    (ha : P attrs) : AllMapped P (m.map f t base len attrs).2 := by
  unfold Mem.map
  cases hr : m.refill f base with
  | none => exact h
  | some m1 =>
    have e := refill_table hr
    dsimp only
    split
    · exact h.same e
    · split
      · exact h.same e
      · exact allMapped_set (h.same e) (by rw [e]; exact ht) (by intro a hx; injection hx with hx; subst hx; exact ha)

theorem applyPaging_all {P : Nat → Prop} {dbg : Bool} {f : Faults} {m : Mem} {t : Table} {base len want : Nat} {old : Option Nat}
    (h : AllMapped P m) (ht : m.table = some t) (hw : ¬ want &&& MEMORY_RP = MEMORY_RP → P want) :
    AllMapped P (m.applyPaging dbg f t base len want old).2 := by
  unfold Mem.applyPaging
  split
  · cases old with
    | none => exact h
    | some b =>
      have := unmap_all (f := f) (base := base) (len := len) h ht
      dsimp only
      split <;> (rename_i k; rw [k] at this; exact this)
  · rename_i hn
    have := map_all (f := f) (base := base) (len := len) h ht (hw hn)
    split <;> rename_i k <;> rw [k] at this
    · exact this.same rfl
    · exact this
    · exact this

theorem setPaging_all {P : Nat → Prop} {dbg : Bool} {f : Faults} {m : Mem} {base len attrs : Nat}
    (h : AllMapped P m) (hw : ¬ attrs.testBit 13 = true → P (attrs &&& PT_MASK)) :
    AllMapped P (m.setPaging dbg f base len attrs).2 := by
  have hw' : ¬ (attrs &&& PT_MASK) &&& MEMORY_RP = MEMORY_RP → P (attrs &&& PT_MASK) := fun k => hw (fun k2 => k ((rp_want attrs).2 k2))
  unfold Mem.setPaging
  cases ht : m.table with
  | none => exact h
  | some t =>
    dsimp only
    split
    · exact h
    · split
      · exact h
      · exact applyPaging_all h ht hw'
    · exact applyPaging_all h ht hw'

theorem setGcd_table (m : Mem) (base len attrs : Nat) : (m.setGcd base len attrs).table = m.table := by
  unfold Mem.setGcd; split <;> rfl

theorem setPiece_all {P : Nat → Prop} {dbg : Bool} {f : Faults} {m : Mem} {old base len attrs : Nat}
    (h : AllMapped P m) (hw : ¬ attrs.testBit 13 = true → P (attrs &&& PT_MASK)) :
    AllMapped P (m.setPiece dbg f old base len attrs).2 := by
  unfold Mem.setPiece
  split
  · exact h
  · have h1 : AllMapped P (m.setGcd base len attrs) := h.same (setGcd_table _ _ _ _)
    unfold Mem.setTable
    split
    · exact h1
    · have := setPaging_all (dbg := dbg) (f := f) (base := base) (len := len) h1 hw
      split <;> rename_i k <;> rw [k] at this
      · exact this
      · exact this
      · exact AllMapped.same this (setGcd_table _ _ _ _)
      · exact this

theorem setLoop_all {P : Nat → Prop} {dbg : Bool} {f : Faults} {attrs stop : Nat} (hw : ¬ attrs.testBit 13 = true → P (attrs &&& PT_MASK))
    {n : Nat} : ∀ {m m' : Mem} {cur : Nat} {res r : Outcome EfiError Unit}, AllMapped P m →
    Mem.setLoop dbg f attrs stop n m cur res = some (r, m') → AllMapped P m' := by
  induction n with
  | zero => intro m m' cur res r _ h; cases h
  | succ n ih =>
    intro m m' cur res r hm h
    unfold Mem.setLoop at h
    split at h
    · split at h
      · rename_i d _
        have := setPiece_all (dbg := dbg) (f := f) (old := d.st.attrs) (base := cur) (len := subw (min (addw d.base d.len) stop) cur) hm hw
        split at h <;> rename_i k <;> rw [k] at this
        · exact ih this h
        · exact ih this h
        · injection h with h; injection h with _ h; subst h; exact this
      · injection h with h; injection h with _ h; subst h; exact hm
      · injection h with h; injection h with _ h; subst h; exact hm
    · injection h with h; injection h with _ h; subst h; exact hm

theorem setAttributes_all {P : Nat → Prop} {dbg : Bool} {f : Faults} {base len attrs rounds : Nat} {m m' : Mem} {r : Outcome EfiError Unit}
    (hw : ¬ attrs.testBit 13 = true → P (attrs &&& PT_MASK)) (hm : AllMapped P m)
    (h : m.setAttributes dbg f rounds base len attrs = some (r, m')) : AllMapped P m' := by
  unfold Mem.setAttributes at h
  split at h
  · injection h with h; injection h with _ h; subst h; exact hm
  · exact setLoop_all hw hm h

/-- `p` came to `s'`, and the page table still satisfies `P`. -/
def Keeps (P : Nat → Prop) (p : Progress) : Prop := ∀ s, p = .at s → AllMapped P s.mem

theorem Keeps.then {P : Nat → Prop} {p : Progress} {k : Init → Progress} (h : Keeps P p) (hk : ∀ s, AllMapped P s.mem → Keeps P (k s)) :
    Keeps P (p.then k) := by
  cases p with
  | hangs => intro s e; cases e
  | panics => intro s e; cases e
  | «at» s => exact hk s (h s rfl)

theorem keeps_panics (P : Nat → Prop) : Keeps P .panics := by intro s e; cases e

theorem keeps_at {P : Nat → Prop} {s : Init} (h : AllMapped P s.mem) : Keeps P (.at s) := by
  intro s' e; injection e with e; subst e; exact h

theorem call_keeps {P : Nat → Prop} {dbg : Bool} {fs : Nat → Faults} {s : Init} {c : SetCall} {onErr : Init → Progress} (h : AllMapped P s.mem)
    (hw : ¬ c.attrs.testBit 13 = true → P (c.attrs &&& PT_MASK)) (he : ∀ s, AllMapped P s.mem → Keeps P (onErr s)) :
    Keeps P (s.call dbg fs c onErr) := by
  unfold Init.call
  split
  · intro s e; cases e
  · rename_i k; exact keeps_at (setAttributes_all hw h k)
  · rename_i k; exact he _ (setAttributes_all hw h k)
  · exact keeps_panics P

theorem attempt_keeps {P : Nat → Prop} {dbg : Bool} {fs : Nat → Faults} {s : Init} {c : SetCall} (h : AllMapped P s.mem)
    (hw : ¬ c.attrs.testBit 13 = true → P (c.attrs &&& PT_MASK)) : Keeps P (s.attempt dbg fs c) :=
  call_keeps h hw fun s hs => by
    split
    · exact keeps_panics P
    · exact keeps_at hs

theorem must_keeps {P : Nat → Prop} {dbg : Bool} {fs : Nat → Faults} {s : Init} {c : SetCall} (h : AllMapped P s.mem)
    (hw : ¬ c.attrs.testBit 13 = true → P (c.attrs &&& PT_MASK)) : Keeps P (s.must dbg fs c) :=
  call_keeps h hw fun _ _ => keeps_panics P

end Verif.Paging
