import Verif.Entry.A64Spec
namespace Verif.Entry.A64

theorem exec_append (a b : List Instr) (c : Cpu) : exec (a ++ b) c = match exec a c with | some c' => exec b c' | none => none := by
  induction a generalizing c with
  | nil => rfl
  | cons i is ih =>
    show (match step c i with | some c' => exec (is ++ b) c' | none => none) = match (match step c i with | some c' => exec is c' | none => none) with | some c' => exec b c' | none => none
    cases step c i with
    | none => rfl
    | some c' => exact ih c'

theorem below31 {P : Nat → Prop} (h : P 0 ∧ P 1 ∧ P 2 ∧ P 3 ∧ P 4 ∧ P 5 ∧ P 6 ∧ P 7 ∧ P 8 ∧ P 9 ∧ P 10 ∧ P 11 ∧ P 12 ∧ P 13 ∧ P 14 ∧ P 15 ∧ P 16 ∧ P 17 ∧ P 18 ∧ P 19 ∧ P 20 ∧ P 21 ∧ P 22 ∧ P 23 ∧ P 24 ∧ P 25 ∧ P 26 ∧ P 27 ∧ P 28 ∧ P 29 ∧ P 30) : ∀ i, i < 31 → P i := by
  intro i hi
  have h' : i = 0 ∨ i = 1 ∨ i = 2 ∨ i = 3 ∨ i = 4 ∨ i = 5 ∨ i = 6 ∨ i = 7 ∨ i = 8 ∨ i = 9 ∨ i = 10 ∨ i = 11 ∨ i = 12 ∨ i = 13 ∨ i = 14 ∨ i = 15 ∨ i = 16 ∨ i = 17 ∨ i = 18 ∨ i = 19 ∨ i = 20 ∨ i = 21 ∨ i = 22 ∨ i = 23 ∨ i = 24 ∨ i = 25 ∨ i = 26 ∨ i = 27 ∨ i = 28 ∨ i = 29 ∨ i = 30 := by omega
  rcases h' with rfl | rfl | rfl | rfl | rfl | rfl | rfl | rfl | rfl | rfl | rfl | rfl | rfl | rfl | rfl | rfl | rfl | rfl | rfl | rfl | rfl | rfl | rfl | rfl | rfl | rfl | rfl | rfl | rfl | rfl | rfl
  all_goals simp only [h]

theorem below32 {P : Nat → Prop} (h : P 0 ∧ P 1 ∧ P 2 ∧ P 3 ∧ P 4 ∧ P 5 ∧ P 6 ∧ P 7 ∧ P 8 ∧ P 9 ∧ P 10 ∧ P 11 ∧ P 12 ∧ P 13 ∧ P 14 ∧ P 15 ∧ P 16 ∧ P 17 ∧ P 18 ∧ P 19 ∧ P 20 ∧ P 21 ∧ P 22 ∧ P 23 ∧ P 24 ∧ P 25 ∧ P 26 ∧ P 27 ∧ P 28 ∧ P 29 ∧ P 30 ∧ P 31) : ∀ i, i < 32 → P i := by
  intro i hi
  have h' : i = 0 ∨ i = 1 ∨ i = 2 ∨ i = 3 ∨ i = 4 ∨ i = 5 ∨ i = 6 ∨ i = 7 ∨ i = 8 ∨ i = 9 ∨ i = 10 ∨ i = 11 ∨ i = 12 ∨ i = 13 ∨ i = 14 ∨ i = 15 ∨ i = 16 ∨ i = 17 ∨ i = 18 ∨ i = 19 ∨ i = 20 ∨ i = 21 ∨ i = 22 ∨ i = 23 ∨ i = 24 ∨ i = 25 ∨ i = 26 ∨ i = 27 ∨ i = 28 ∨ i = 29 ∨ i = 30 ∨ i = 31 := by omega
  rcases h' with rfl | rfl | rfl | rfl | rfl | rfl | rfl | rfl | rfl | rfl | rfl | rfl | rfl | rfl | rfl | rfl | rfl | rfl | rfl | rfl | rfl | rfl | rfl | rfl | rfl | rfl | rfl | rfl | rfl | rfl | rfl | rfl
  all_goals simp only [h]

/-- After the entry: the general registers are in the context. -/
structure Entered (c : Cpu) (y : Syndrome) (val k : Nat) (c' : Cpu) : Prop where
  x0 : c'.x 0 = .num val
  x28 : c'.x 28 = .ptr k 0
  sel : c'.sel = k
  sp0 : c'.sp 0 = if k = 0 then 102 else 0
  sp1 : c'.sp 1 = if k = 0 then 0 else 102
  xs : ∀ i, i < 31 → c'.mem k (102 - i) = c.x i
  spf : c'.mem k 71 = .ptr 1 0
  q : c'.q = c.q
  sys : c'.sys = (take c y).sys
  top : c'.mem k 0 = c.mem k 0
  other : c'.mem (1 - k) = c.mem (1 - k)
  mask : c'.masked = true

set_option maxRecDepth 20000 in
theorem entry_spec1 (c : Cpu) (y : Syndrome) (val : Nat) : ∃ c', exec (entry val false) (take c y) = some c' ∧ Entered c y val 1 c' := by
  obtain ⟨x, q, sys, sp, sel, mem, m⟩ := c
  refine ⟨_, rfl, rfl, rfl, rfl, rfl, rfl, ?_, rfl, rfl, rfl, rfl, rfl, rfl⟩
  exact below31 ⟨rfl, rfl, rfl, rfl, rfl, rfl, rfl, rfl, rfl, rfl, rfl, rfl, rfl, rfl, rfl, rfl, rfl, rfl, rfl, rfl, rfl, rfl, rfl, rfl, rfl, rfl, rfl, rfl, rfl, rfl, rfl⟩

set_option maxRecDepth 20000 in
theorem entry_spec0 (c : Cpu) (y : Syndrome) (val : Nat) : ∃ c', exec (entry val true) (take c y) = some c' ∧ Entered c y val 0 c' := by
  obtain ⟨x, q, sys, sp, sel, mem, m⟩ := c
  refine ⟨_, rfl, rfl, rfl, rfl, rfl, rfl, ?_, rfl, rfl, rfl, rfl, rfl, rfl⟩
  exact below31 ⟨rfl, rfl, rfl, rfl, rfl, rfl, rfl, rfl, rfl, rfl, rfl, rfl, rfl, rfl, rfl, rfl, rfl, rfl, rfl, rfl, rfl, rfl, rfl, rfl, rfl, rfl, rfl, rfl, rfl, rfl, rfl⟩

set_option maxRecDepth 20000 in
theorem save_spec1 (c : Cpu) (hs : c.sel = 1) (h28 : c.x 28 = .ptr 1 0) (hsp : c.sp 1 = 102) :
    ∃ c', exec save c = some c' ∧ c'.x 0 = c.x 0 ∧ c'.x 1 = .ptr 1 102 ∧ c'.x 28 = .ptr 1 70 ∧ c'.sel = 1 ∧ c'.sp = c.sp ∧ c'.masked = c.masked ∧ c'.sys = c.sys ∧
      c'.mem 0 = c.mem 0 ∧ c'.mem 1 0 = c.mem 1 0 ∧
      (∀ i, i < 31 → c'.mem 1 (102 - i) = c.mem 1 (102 - i)) ∧ c'.mem 1 71 = c.mem 1 71 ∧
      (∀ i, i < 32 → c'.mem 1 (70 - 2 * i) = c.q i 0) ∧ (∀ i, i < 32 → c'.mem 1 (69 - 2 * i) = c.q i 1) ∧
      c'.mem 1 6 = c.sys .elr ∧ c'.mem 1 5 = c.sys .spsr ∧ c'.mem 1 4 = c.sys .fpsr ∧ c'.mem 1 3 = c.sys .esr ∧ c'.mem 1 2 = c.sys .far := by
  obtain ⟨x, q, sys, sp, mem, m, rfl⟩ : ∃ (x : Nat → Val) (q : Nat → Nat → Val) (sys : Sys → Val) (sp : Nat → Nat) (mem : Nat → Nat → Val) (m : Bool),
      c = ⟨fun i => if i = 28 then .ptr 1 0 else x i, q, sys, fun j => if j = 1 then 102 else sp j, 1, mem, m⟩ := by
    obtain ⟨x, q, sys, sp, sel, mem, m⟩ := c
    simp only at hs h28 hsp
    subst hs
    refine ⟨x, q, sys, sp, mem, m, ?_⟩
    congr 1
    · funext i
      by_cases h : i = 28
      · rw [if_pos h, h, h28]
      · rw [if_neg h]
    · funext i
      by_cases h : i = 1
      · rw [if_pos h, h, hsp]
      · rw [if_neg h]
  refine ⟨_, rfl, rfl, rfl, rfl, rfl, rfl, rfl, rfl, rfl, rfl, ?_, rfl, ?_, ?_, rfl, rfl, rfl, rfl, rfl⟩
  · exact below31 ⟨rfl, rfl, rfl, rfl, rfl, rfl, rfl, rfl, rfl, rfl, rfl, rfl, rfl, rfl, rfl, rfl, rfl, rfl, rfl, rfl, rfl, rfl, rfl, rfl, rfl, rfl, rfl, rfl, rfl, rfl, rfl⟩
  · exact below32 ⟨rfl, rfl, rfl, rfl, rfl, rfl, rfl, rfl, rfl, rfl, rfl, rfl, rfl, rfl, rfl, rfl, rfl, rfl, rfl, rfl, rfl, rfl, rfl, rfl, rfl, rfl, rfl, rfl, rfl, rfl, rfl, rfl⟩
  · exact below32 ⟨rfl, rfl, rfl, rfl, rfl, rfl, rfl, rfl, rfl, rfl, rfl, rfl, rfl, rfl, rfl, rfl, rfl, rfl, rfl, rfl, rfl, rfl, rfl, rfl, rfl, rfl, rfl, rfl, rfl, rfl, rfl, rfl⟩

set_option maxRecDepth 20000 in
theorem save_spec0 (c : Cpu) (hs : c.sel = 0) (h28 : c.x 28 = .ptr 0 0) (hsp : c.sp 0 = 102) :
    ∃ c', exec save c = some c' ∧ c'.x 0 = c.x 0 ∧ c'.x 1 = .ptr 0 102 ∧ c'.x 28 = .ptr 0 70 ∧ c'.sel = 0 ∧ c'.sp = c.sp ∧ c'.masked = c.masked ∧ c'.sys = c.sys ∧
      c'.mem 1 = c.mem 1 ∧ c'.mem 0 0 = c.mem 0 0 ∧
      (∀ i, i < 31 → c'.mem 0 (102 - i) = c.mem 0 (102 - i)) ∧ c'.mem 0 71 = c.mem 0 71 ∧
      (∀ i, i < 32 → c'.mem 0 (70 - 2 * i) = c.q i 0) ∧ (∀ i, i < 32 → c'.mem 0 (69 - 2 * i) = c.q i 1) ∧
      c'.mem 0 6 = c.sys .elr ∧ c'.mem 0 5 = c.sys .spsr ∧ c'.mem 0 4 = c.sys .fpsr ∧ c'.mem 0 3 = c.sys .esr ∧ c'.mem 0 2 = c.sys .far := by
  obtain ⟨x, q, sys, sp, mem, m, rfl⟩ : ∃ (x : Nat → Val) (q : Nat → Nat → Val) (sys : Sys → Val) (sp : Nat → Nat) (mem : Nat → Nat → Val) (m : Bool),
      c = ⟨fun i => if i = 28 then .ptr 0 0 else x i, q, sys, fun j => if j = 0 then 102 else sp j, 0, mem, m⟩ := by
    obtain ⟨x, q, sys, sp, sel, mem, m⟩ := c
    simp only at hs h28 hsp
    subst hs
    refine ⟨x, q, sys, sp, mem, m, ?_⟩
    congr 1
    · funext i
      by_cases h : i = 28
      · rw [if_pos h, h, h28]
      · rw [if_neg h]
    · funext i
      by_cases h : i = 0
      · rw [if_pos h, h, hsp]
      · rw [if_neg h]
  refine ⟨_, rfl, rfl, rfl, rfl, rfl, rfl, rfl, rfl, rfl, rfl, ?_, rfl, ?_, ?_, rfl, rfl, rfl, rfl, rfl⟩
  · exact below31 ⟨rfl, rfl, rfl, rfl, rfl, rfl, rfl, rfl, rfl, rfl, rfl, rfl, rfl, rfl, rfl, rfl, rfl, rfl, rfl, rfl, rfl, rfl, rfl, rfl, rfl, rfl, rfl, rfl, rfl, rfl, rfl⟩
  · exact below32 ⟨rfl, rfl, rfl, rfl, rfl, rfl, rfl, rfl, rfl, rfl, rfl, rfl, rfl, rfl, rfl, rfl, rfl, rfl, rfl, rfl, rfl, rfl, rfl, rfl, rfl, rfl, rfl, rfl, rfl, rfl, rfl, rfl⟩
  · exact below32 ⟨rfl, rfl, rfl, rfl, rfl, rfl, rfl, rfl, rfl, rfl, rfl, rfl, rfl, rfl, rfl, rfl, rfl, rfl, rfl, rfl, rfl, rfl, rfl, rfl, rfl, rfl, rfl, rfl, rfl, rfl, rfl, rfl⟩

set_option maxRecDepth 20000 in
theorem restore_spec1 (c : Cpu) (hs : c.sel = 1) (h28 : c.x 28 = .ptr 1 70) (hsp : c.sp 1 = 102) :
    ∃ c', exec restore c = some c' ∧ (∀ i, i < 31 → c'.x i = c.mem 1 (102 - i)) ∧
      (∀ i, i < 32 → c'.q i 0 = c.mem 1 (70 - 2 * i)) ∧ (∀ i, i < 32 → c'.q i 1 = c.mem 1 (69 - 2 * i)) ∧
      c'.sys .elr = c.mem 1 6 ∧ c'.sys .spsr = c.mem 1 5 ∧ c'.sys .fpsr = c.mem 1 4 ∧
      c'.sp 1 = 0 ∧ c'.sp 0 = c.sp 0 ∧ c'.mem = c.mem := by
  obtain ⟨x, q, sys, sp, mem, m, rfl⟩ : ∃ (x : Nat → Val) (q : Nat → Nat → Val) (sys : Sys → Val) (sp : Nat → Nat) (mem : Nat → Nat → Val) (m : Bool),
      c = ⟨fun i => if i = 28 then .ptr 1 70 else x i, q, sys, fun j => if j = 1 then 102 else sp j, 1, mem, m⟩ := by
    obtain ⟨x, q, sys, sp, sel, mem, m⟩ := c
    simp only at hs h28 hsp
    subst hs
    refine ⟨x, q, sys, sp, mem, m, ?_⟩
    congr 1
    · funext i
      by_cases h : i = 28
      · rw [if_pos h, h, h28]
      · rw [if_neg h]
    · funext i
      by_cases h : i = 1
      · rw [if_pos h, h, hsp]
      · rw [if_neg h]
  refine ⟨_, rfl, ?_, ?_, ?_, rfl, rfl, rfl, rfl, rfl, rfl⟩
  · exact below31 ⟨rfl, rfl, rfl, rfl, rfl, rfl, rfl, rfl, rfl, rfl, rfl, rfl, rfl, rfl, rfl, rfl, rfl, rfl, rfl, rfl, rfl, rfl, rfl, rfl, rfl, rfl, rfl, rfl, rfl, rfl, rfl⟩
  · exact below32 ⟨rfl, rfl, rfl, rfl, rfl, rfl, rfl, rfl, rfl, rfl, rfl, rfl, rfl, rfl, rfl, rfl, rfl, rfl, rfl, rfl, rfl, rfl, rfl, rfl, rfl, rfl, rfl, rfl, rfl, rfl, rfl, rfl⟩
  · exact below32 ⟨rfl, rfl, rfl, rfl, rfl, rfl, rfl, rfl, rfl, rfl, rfl, rfl, rfl, rfl, rfl, rfl, rfl, rfl, rfl, rfl, rfl, rfl, rfl, rfl, rfl, rfl, rfl, rfl, rfl, rfl, rfl, rfl⟩

set_option maxRecDepth 20000 in
theorem restore_spec0 (c : Cpu) (hs : c.sel = 0) (h28 : c.x 28 = .ptr 0 70) (hsp : c.sp 0 = 102) :
    ∃ c', exec restore c = some c' ∧ (∀ i, i < 31 → c'.x i = c.mem 0 (102 - i)) ∧
      (∀ i, i < 32 → c'.q i 0 = c.mem 0 (70 - 2 * i)) ∧ (∀ i, i < 32 → c'.q i 1 = c.mem 0 (69 - 2 * i)) ∧
      c'.sys .elr = c.mem 0 6 ∧ c'.sys .spsr = c.mem 0 5 ∧ c'.sys .fpsr = c.mem 0 4 ∧
      c'.sp 0 = 0 ∧ c'.sp 1 = c.sp 1 ∧ c'.mem = c.mem := by
  obtain ⟨x, q, sys, sp, mem, m, rfl⟩ : ∃ (x : Nat → Val) (q : Nat → Nat → Val) (sys : Sys → Val) (sp : Nat → Nat) (mem : Nat → Nat → Val) (m : Bool),
      c = ⟨fun i => if i = 28 then .ptr 0 70 else x i, q, sys, fun j => if j = 0 then 102 else sp j, 0, mem, m⟩ := by
    obtain ⟨x, q, sys, sp, sel, mem, m⟩ := c
    simp only at hs h28 hsp
    subst hs
    refine ⟨x, q, sys, sp, mem, m, ?_⟩
    congr 1
    · funext i
      by_cases h : i = 28
      · rw [if_pos h, h, h28]
      · rw [if_neg h]
    · funext i
      by_cases h : i = 0
      · rw [if_pos h, h, hsp]
      · rw [if_neg h]
  refine ⟨_, rfl, ?_, ?_, ?_, rfl, rfl, rfl, rfl, rfl, rfl⟩
  · exact below31 ⟨rfl, rfl, rfl, rfl, rfl, rfl, rfl, rfl, rfl, rfl, rfl, rfl, rfl, rfl, rfl, rfl, rfl, rfl, rfl, rfl, rfl, rfl, rfl, rfl, rfl, rfl, rfl, rfl, rfl, rfl, rfl⟩
  · exact below32 ⟨rfl, rfl, rfl, rfl, rfl, rfl, rfl, rfl, rfl, rfl, rfl, rfl, rfl, rfl, rfl, rfl, rfl, rfl, rfl, rfl, rfl, rfl, rfl, rfl, rfl, rfl, rfl, rfl, rfl, rfl, rfl, rfl⟩
  · exact below32 ⟨rfl, rfl, rfl, rfl, rfl, rfl, rfl, rfl, rfl, rfl, rfl, rfl, rfl, rfl, rfl, rfl, rfl, rfl, rfl, rfl, rfl, rfl, rfl, rfl, rfl, rfl, rfl, rfl, rfl, rfl, rfl, rfl⟩

/-- At the call of the handler. -/
structure Called (c : Cpu) (y : Syndrome) (val k : Nat) (c' : Cpu) : Prop where
  x0 : c'.x 0 = .num val
  x1 : c'.x 1 = .ptr k 102
  x28 : c'.x 28 = .ptr k 70
  sel : c'.sel = k
  sp0 : c'.sp 0 = if k = 0 then 102 else 0
  sp1 : c'.sp 1 = if k = 0 then 0 else 102
  fields : ∀ f, f ≠ .sp → c'.mem k (102 - f.pos) = actual c y f
  spf : c'.mem k 71 = .ptr 1 0
  top : c'.mem k 0 = c.mem k 0
  other : c'.mem (1 - k) = c.mem (1 - k)
  mask : c'.masked = true

theorem fields_of {c c1 c' : Cpu} {y : Syndrome} {val k : Nat} (h : Entered c y val k c1)
    (hx : ∀ i, i < 31 → c'.mem k (102 - i) = c1.mem k (102 - i))
    (h0 : ∀ i, i < 32 → c'.mem k (70 - 2 * i) = c1.q i 0) (h1 : ∀ i, i < 32 → c'.mem k (69 - 2 * i) = c1.q i 1)
    (e : c'.mem k 6 = c1.sys .elr) (p : c'.mem k 5 = c1.sys .spsr) (r : c'.mem k 4 = c1.sys .fpsr) (w : c'.mem k 3 = c1.sys .esr) (z : c'.mem k 2 = c1.sys .far) :
    ∀ f, f ≠ .sp → c'.mem k (102 - f.pos) = actual c y f := by
  intro f hf
  cases f with
  | x i => exact (hx i (by omega)).trans (h.xs i (by omega))
  | fp => exact (hx 29 (by omega)).trans (h.xs 29 (by omega))
  | lr => exact (hx 30 (by omega)).trans (h.xs 30 (by omega))
  | sp => exact absurd rfl hf
  | v i j =>
    have hi := i.isLt
    have hj := j.isLt
    have hj' : j = 0 ∨ j = 1 := by omega
    rcases hj' with rfl | rfl
    · show c'.mem k (102 - (32 + 2 * i.val + 0)) = c.q i.val 0
      rw [show 102 - (32 + 2 * i.val + 0) = 70 - 2 * i.val by omega, h0 i hi, h.q]
    · show c'.mem k (102 - (32 + 2 * i.val + 1)) = c.q i.val 1
      rw [show 102 - (32 + 2 * i.val + 1) = 69 - 2 * i.val by omega, h1 i hi, h.q]
  | elr => exact e.trans (by rw [h.sys]; rfl)
  | spsr => exact p.trans (by rw [h.sys]; rfl)
  | fpsr => exact r.trans (by rw [h.sys]; rfl)
  | esr => exact w.trans (by rw [h.sys]; rfl)
  | far => exact z.trans (by rw [h.sys]; rfl)

theorem enter_called (c : Cpu) (y : Syndrome) (val : Nat) (sp0 : Bool) :
    ∃ c', enter c y val sp0 = some c' ∧ Called c y val (if sp0 then 0 else 1) c' := by
  unfold enter
  rw [exec_append]
  cases sp0 with
  | false =>
    obtain ⟨c1, e1, h⟩ := entry_spec1 c y val
    obtain ⟨c', e', a0, a1, a28, as, asp, am, _, ao, at', ax, a71, aq0, aq1, f1, f2, f3, f4, f5⟩ := save_spec1 c1 h.sel h.x28 h.sp1
    rw [e1]
    exact ⟨c', e', a0.trans h.x0, a1, a28, as, (congrFun asp 0).trans h.sp0, (congrFun asp 1).trans h.sp1, fields_of h ax aq0 aq1 f1 f2 f3 f4 f5, a71.trans h.spf, at'.trans h.top,
      ao.trans h.other, am.trans h.mask⟩
  | true =>
    obtain ⟨c1, e1, h⟩ := entry_spec0 c y val
    obtain ⟨c', e', a0, a1, a28, as, asp, am, _, ao, at', ax, a71, aq0, aq1, f1, f2, f3, f4, f5⟩ := save_spec0 c1 h.sel h.x28 h.sp0
    rw [e1]
    exact ⟨c', e', a0.trans h.x0, a1, a28, as, (congrFun asp 0).trans h.sp0, (congrFun asp 1).trans h.sp1, fields_of h ax aq0 aq1 f1 f2 f3 f4 f5, a71.trans h.spf, at'.trans h.top,
      ao.trans h.other, am.trans h.mask⟩

theorem interrupted_called (c : Cpu) (y : Syndrome) (kind : Nat) (hk : kind < 4) :
    ∃ c', interrupted c y kind = some c' ∧ Called c y kind (contextStack c.sel kind) c' := by
  unfold interrupted contextStack
  have h4 : kind = 0 ∨ kind = 1 ∨ kind = 2 ∨ kind = 3 := by omega
  unfold vectorOffset
  by_cases h : c.sel = 0
  · rw [if_pos h]
    rcases h4 with rfl | rfl | rfl | rfl <;> simp only [h, ne_eq, not_true_eq_false, false_and, if_false]
    · exact enter_called c y 0 false
    · exact enter_called c y 1 false
    · exact enter_called c y 2 false
    · exact enter_called c y 3 false
  · rw [if_neg h]
    rcases h4 with rfl | rfl | rfl | rfl <;> simp only [h, ne_eq, not_false_eq_true, true_and, if_true, Nat.succ_ne_self, if_false, reduceCtorEq, Nat.reduceEqDiff]
    · exact enter_called c y 0 true
    · exact enter_called c y 1 false
    · exact enter_called c y 2 false
    · exact enter_called c y 3 false

/-- The handler is called with the kind of the exception and the address of the context, with interrupts masked, and every field holds what the program had —
but the stack pointer only if the program used `SP_EL2`. The word the stack pointer of the program points to is not overwritten. -/
theorem handler_sees_partial (c : Cpu) (y : Syndrome) (kind : Nat) (hk : kind < 4) :
    ∃ c', interrupted c y kind = some c' ∧ c'.x 0 = .num kind ∧ c'.x 1 = .ptr (contextStack c.sel kind) 102 ∧ c'.masked = true ∧
      (∀ f, f ≠ .sp ∨ c.sel = 1 → c'.mem (contextStack c.sel kind) (102 - f.pos) = actual c y f) ∧ ∀ k, k < 2 → c'.mem k 0 = c.mem k 0 := by
  obtain ⟨c', e, h⟩ := interrupted_called c y kind hk
  refine ⟨c', e, h.x0, h.x1, h.mask, ?_, ?_⟩
  · rintro f hf
    by_cases hsp : f = .sp
    · subst hsp
      rcases hf with hf | hf
      · exact absurd rfl hf
      · show c'.mem _ 71 = .ptr c.sel 0
        rw [h.spf, hf]
    · exact h.fields f hsp
  · intro k hk2
    by_cases hkc : k = contextStack c.sel kind
    · rw [hkc]
      exact h.top
    · have : k = 1 - contextStack c.sel kind := by
        unfold contextStack at hkc ⊢
        split at hkc <;> rename_i hh
        · rw [if_pos hh]
          omega
        · rw [if_neg hh]
          omega
      rw [this, h.other]

/-- The code does not meet the full property: when the program uses the stack of `SP_EL0`, as the handler of a synchronous exception does, the context shows
another stack pointer than that of the program. -/
theorem sp0_misreported (c : Cpu) (y : Syndrome) (kind : Nat) (hk : kind < 4) (hs : c.sel = 0) :
    ∃ c', interrupted c y kind = some c' ∧ c'.mem (contextStack c.sel kind) (102 - Field.sp.pos) = .ptr 1 0 ∧ actual c y .sp = .ptr 0 0 := by
  obtain ⟨c', e, h⟩ := interrupted_called c y kind hk
  exact ⟨c', e, h.spf, by unfold actual; rw [hs]⟩

/-- What the program continues with is what the handler left in the context: the general and vector registers, the address and state to return to and the
status of floating point. Both stack pointers are where they were and what they point to is unchanged. -/
structure Resumed (c : Cpu) (a : After) (c' : Cpu) : Prop where
  x : ∀ i : Fin 29, c'.x i = a.context (Field.x i).pos
  fp : c'.x 29 = a.context Field.fp.pos
  lr : c'.x 30 = a.context Field.lr.pos
  v : ∀ i j, c'.q i.val j.val = a.context (Field.v i j).pos
  elr : c'.sys .elr = a.context Field.elr.pos
  spsr : c'.sys .spsr = a.context Field.spsr.pos
  fpsr : c'.sys .fpsr = a.context Field.fpsr.pos
  sp : c'.sp 0 = 0 ∧ c'.sp 1 = 0
  top : c'.mem 0 0 = c.mem 0 0 ∧ c'.mem 1 0 = c.mem 1 0

theorem handled_mem (c : Cpu) (k w : Nat) (a : After) (h0 : 0 < w) (h : w ≤ 102) : (handled c k 102 a).mem k w = a.context (102 - w) := by
  unfold handled
  simp only [if_true]
  rw [if_neg (by omega), if_pos (by omega)]

theorem handled_top (c : Cpu) (k s : Nat) (a : After) : (handled c k 102 a).mem s 0 = c.mem s 0 := by
  unfold handled
  simp only
  by_cases h : s = k
  · rw [if_pos h, if_neg (by omega), if_neg (by omega)]
  · rw [if_neg h, if_pos trivial]

theorem program_resumes (c : Cpu) (y : Syndrome) (kind : Nat) (hk : kind < 4) (a : After) :
    ∃ c' c'', interrupted c y kind = some c' ∧ leave c' (contextStack c.sel kind) 102 a = some c'' ∧ Resumed c a c'' := by
  obtain ⟨c', e, h⟩ := interrupted_called c y kind hk
  refine ⟨c', ?_⟩
  have hk01 : contextStack c.sel kind = 0 ∨ contextStack c.sel kind = 1 := by
    unfold contextStack
    split
    · exact Or.inl rfl
    · exact Or.inr rfl
  generalize contextStack c.sel kind = k at h hk01
  have hx28 : (handled c' k 102 a).x 28 = .ptr k 70 := by
    show (if 19 ≤ 28 ∧ 28 ≤ 29 then c'.x 28 else a.x 28) = .ptr k 70
    rw [if_pos (by omega), h.x28]
  have finish : ∀ c'' : Cpu, (∀ i, i < 31 → c''.x i = (handled c' k 102 a).mem k (102 - i)) →
      (∀ i, i < 32 → c''.q i 0 = (handled c' k 102 a).mem k (70 - 2 * i)) → (∀ i, i < 32 → c''.q i 1 = (handled c' k 102 a).mem k (69 - 2 * i)) →
      c''.sys .elr = (handled c' k 102 a).mem k 6 → c''.sys .spsr = (handled c' k 102 a).mem k 5 → c''.sys .fpsr = (handled c' k 102 a).mem k 4 →
      c''.sp 0 = 0 ∧ c''.sp 1 = 0 → c''.mem = (handled c' k 102 a).mem → Resumed c a c'' := by
    intro c'' hx h0 h1 he hp hf hsp hm
    refine ⟨?_, ?_, ?_, ?_, ?_, ?_, ?_, hsp, ?_⟩
    · intro i
      have := i.isLt
      rw [hx i (by omega), handled_mem _ _ _ _ (by omega) (by omega)]
      exact congrArg a.context (by show 102 - (102 - i.val) = i.val; omega)
    · rw [hx 29 (by omega), handled_mem _ _ _ _ (by omega) (by omega)]
      rfl
    · rw [hx 30 (by omega), handled_mem _ _ _ _ (by omega) (by omega)]
      rfl
    · intro i j
      have hi := i.isLt
      have hj := j.isLt
      have hj' : j = 0 ∨ j = 1 := by omega
      rcases hj' with rfl | rfl
      · show c''.q i.val 0 = _
        rw [h0 i hi, handled_mem _ _ _ _ (by omega) (by omega)]
        exact congrArg a.context (by show 102 - (70 - 2 * i.val) = 32 + 2 * i.val + 0; omega)
      · show c''.q i.val 1 = _
        rw [h1 i hi, handled_mem _ _ _ _ (by omega) (by omega)]
        exact congrArg a.context (by show 102 - (69 - 2 * i.val) = 32 + 2 * i.val + 1; omega)
    · rw [he, handled_mem _ _ _ _ (by omega) (by omega)]
      rfl
    · rw [hp, handled_mem _ _ _ _ (by omega) (by omega)]
      rfl
    · rw [hf, handled_mem _ _ _ _ (by omega) (by omega)]
      rfl
    · rw [hm, handled_top, handled_top]
      have ht := h.top
      have ho := h.other
      rcases hk01 with rfl | rfl
      · exact ⟨ht, by have := congrFun ho 0; exact this⟩
      · exact ⟨by have := congrFun ho 0; exact this, ht⟩
  unfold leave
  rcases hk01 with hk0 | hk1
  · subst hk0
    obtain ⟨c'', e2, x1, x2, x3, x4, x5, x6, x7, x8, x9⟩ := restore_spec0 (handled c' 0 102 a) h.sel hx28 h.sp0
    exact ⟨c'', e, e2, finish c'' x1 x2 x3 x4 x5 x6 ⟨x7, x8.trans h.sp1⟩ x9⟩
  · subst hk1
    obtain ⟨c'', e2, x1, x2, x3, x4, x5, x6, x7, x8, x9⟩ := restore_spec1 (handled c' 1 102 a) h.sel hx28 h.sp1
    exact ⟨c'', e, e2, finish c'' x1 x2 x3 x4 x5 x6 ⟨x8.trans h.sp0, x7⟩ x9⟩

/-- A handler that changes nothing in the context goes unnoticed: the program continues where it was with all its registers. -/
theorem unnoticed (c : Cpu) (y : Syndrome) (kind : Nat) (hk : kind < 4) (a : After)
    (hq : ∀ c', interrupted c y kind = some c' → ∀ w, w < 102 → a.context w = c'.mem (contextStack c.sel kind) (102 - w)) :
    ∃ c' c'', interrupted c y kind = some c' ∧ leave c' (contextStack c.sel kind) 102 a = some c'' ∧
      (∀ i, i < 31 → c''.x i = c.x i) ∧ (∀ i j, i < 32 → j < 2 → c''.q i j = c.q i j) ∧
      c''.sys .elr = y.elr ∧ c''.sys .spsr = y.spsr ∧ c''.sys .fpsr = c.sys .fpsr ∧ c''.sp 0 = 0 ∧ c''.sp 1 = 0 := by
  obtain ⟨c', c'', e, e2, r⟩ := program_resumes c y kind hk a
  obtain ⟨c1, e1, _, _, _, hf, _⟩ := handler_sees_partial c y kind hk
  have hc : c1 = c' := by rw [e] at e1; injection e1 with e1; exact e1.symm
  subst hc
  have h := hq c1 e
  have pos : ∀ f : Field, f ≠ .sp → a.context f.pos = actual c y f := by
    intro f hne
    have hlt : f.pos < 102 := by
      cases f <;> simp only [Field.pos] <;> omega
    rw [h _ hlt, hf f (Or.inl hne)]
  refine ⟨c1, c'', e, e2, ?_, ?_, ?_, ?_, ?_, r.sp.1, r.sp.2⟩
  · intro i hi
    by_cases h29 : i < 29
    · exact (r.x ⟨i, h29⟩).trans (pos _ (by simp))
    · have : i = 29 ∨ i = 30 := by omega
      rcases this with rfl | rfl
      · exact r.fp.trans (pos _ (by simp))
      · exact r.lr.trans (pos _ (by simp))
  · intro i j hi hj
    exact (r.v ⟨i, hi⟩ ⟨j, hj⟩).trans (pos _ (by simp))
  · exact r.elr.trans (pos _ (by simp))
  · exact r.spsr.trans (pos _ (by simp))
  · exact r.fpsr.trans (pos _ (by simp))

/-- A program on the stack of `SP_EL2`, and one on that of `SP_EL0`. -/
def demoCpu (sel : Nat) : Cpu :=
  ⟨fun i => .num (1000 + i), fun i j => .num (2000 + 2 * i + j), fun _ => .num 3, fun _ => 0, sel, fun k d => .num (5000 + 1000 * k + d), false⟩

def demoSyndrome : Syndrome := ⟨.num 0x80001000, .num 0x3c9, .num 0x96000045, .num 0xdead⟩

set_option maxRecDepth 20000 in
example : ∃ c', interrupted (demoCpu 1) demoSyndrome 0 = some c' ∧ c'.mem 0 102 = .num 1000 ∧ c'.mem 0 71 = .ptr 1 0 ∧ c'.mem 0 2 = .num 0xdead :=
  ⟨_, rfl, rfl, rfl, rfl⟩

example : (demoCpu 0).sel = 0 ∧ (demoCpu 1).sel = 1 := ⟨rfl, rfl⟩

end Verif.Entry.A64
