import Verif.Debugger.Stop
/-!
What the program finds when it is resumed.
-/
namespace Verif.Debugger

/-! ### x64 -/

/-- What the other side sees when the program stops: the manual of the processor says that the address saved for `int3` is the one after it. -/
def xShown (type : UInt64) (c : XStop) : XStop :=
  if type = 3 then { c with rip := c.rip - 1 } else if type = 1 then { c with rflags := c.rflags &&& ~~~0x100 } else c

theorem x64_entry_shown {dbg : Bool} {type : UInt64} {c : XStop} (h : type = 3 → c.rip ≠ 0) : ∃ k, c.entry dbg type = some (k, xShown type c) ∧ (k = .breakpoint ↔ type = 3) := by
  unfold XStop.entry xShown
  by_cases h1 : type = 1
  · subst h1
    exact ⟨.step, by rw [if_pos rfl, if_neg (by decide), if_pos rfl], by simp⟩
  · rw [if_neg h1]
    by_cases h3 : type = 3
    · subst h3
      rw [if_pos rfl, if_neg (fun hc => h rfl hc.2), if_pos rfl]
      exact ⟨_, rfl, by simp⟩
    · rw [if_neg h3, if_neg h3, if_neg h1]
      by_cases h13 : type = 13
      · rw [if_pos h13]; exact ⟨_, rfl, by simp [h3]⟩
      · rw [if_neg h13]
        by_cases h14 : type = 14
        · rw [if_pos h14]; exact ⟨_, rfl, by simp [h3]⟩
        · rw [if_neg h14]; exact ⟨_, rfl, by simp [h3]⟩

/-- C101: if the stub has no error, the program goes on with exactly the context and memory that the other side left, unless it was stopped by a breakpoint and there is an `int3` at
the address where it should go on: then it goes on after it. -/
theorem x64_resumed_partial {dbg : Bool} {type : UInt64} {last : XStop × Mem → XStop × Mem} {c c' : XStop} {m m' : Mem} (h0 : type = 3 → c.rip ≠ 0)
    (hl : last (xShown type c, m) = (c', m')) (h1 : c'.rip + 1 ≠ 0) :
    XStop.handle dbg false type [] last c m = some ((if type = 3 ∧ m' c'.rip = 0xCC then { c' with rip := c'.rip + 1 } else c', m'), false) := by
  obtain ⟨k, he, hk⟩ := x64_entry_shown (dbg := dbg) h0
  unfold XStop.handle XStop.sessions
  rw [he]
  simp only [hl, Bool.false_eq_true, if_false]
  unfold XStop.exit
  by_cases h : type = 3 ∧ m' c'.rip = 0xCC
  · rw [if_pos ⟨hk.2 h.1, h.2⟩, if_neg (fun hc => h1 hc.2), if_pos h]
    rfl
  · rw [if_neg (fun hc => h ⟨hk.1 hc.1, hc.2⟩), if_neg h]
    rfl

/-- C101: a breakpoint in the program itself. The other side sees the address of the `int3`, and if it does nothing the program goes on after it with nothing changed. -/
theorem x64_own_breakpoint {dbg : Bool} {c : XStop} {m : Mem} (h0 : c.rip ≠ 0) (hm : m (c.rip - 1) = 0xCC) :
    (xShown 3 c).rip = c.rip - 1 ∧ XStop.handle dbg false 3 [] id c m = some ((c, m), false) := by
  have hr : c.rip - 1 + 1 = c.rip := by simp
  refine ⟨rfl, ?_⟩
  rw [x64_resumed_partial (c' := { c with rip := c.rip - 1 }) (m' := m) (fun _ => h0) rfl (by simp only [hr]; exact h0), if_pos ⟨rfl, hm⟩]
  simp only [hr]

/-- C101: a breakpoint set by the debugger. If the other side puts the byte back that was there, the program goes on with that instruction. -/
theorem x64_removed_breakpoint {dbg : Bool} {c : XStop} {m : Mem} {b : UInt8} (h0 : c.rip ≠ 0) (hb : b ≠ 0xCC) :
    ∃ c' m', XStop.handle dbg false 3 [] (fun x => (x.1, fun a => if a = c.rip - 1 then b else x.2 a)) c m = some ((c', m'), false) ∧
      c' = { c with rip := c.rip - 1 } ∧ m' = fun a => if a = c.rip - 1 then b else m a := by
  have hr : c.rip - 1 + 1 = c.rip := by simp
  refine ⟨_, _, ?_, rfl, rfl⟩
  rw [x64_resumed_partial (c' := { c with rip := c.rip - 1 }) (m' := fun a => if a = c.rip - 1 then b else m a) (fun _ => h0) rfl (by simp only [hr]; exact h0), if_neg]
  simp [hb]

/-- C101: a step. The flag is set when the program is resumed; when the step is done it is off again and nothing else has changed. -/
theorem x64_step_flag (c : XStop) (i : Nat) (hi : i < 64) :
    (c.setStep.rflags.toBitVec.getLsbD i = if i = 8 then true else c.rflags.toBitVec.getLsbD i) ∧
    ((xShown 1 c).rflags.toBitVec.getLsbD i = if i = 8 then false else c.rflags.toBitVec.getLsbD i) ∧
    ({ c.setStep with rflags := c.rflags } = c) ∧ ({ xShown 1 c with rflags := c.rflags } = c) := by
  have h100 : ∀ i, i < 64 → (0x100 : UInt64).toBitVec.getLsbD i = decide (i = 8) := by decide
  have hx : (xShown 1 c).rflags = c.rflags &&& ~~~0x100 := by unfold xShown; rw [if_neg (by decide), if_pos rfl]
  refine ⟨?_, ?_, rfl, ?_⟩
  · simp only [XStop.setStep, UInt64.toBitVec_or, BitVec.getLsbD_or, h100 i hi]
    by_cases h : i = 8 <;> simp [h]
  · rw [hx]
    simp only [UInt64.toBitVec_and, UInt64.toBitVec_not, BitVec.getLsbD_and, BitVec.getLsbD_not, h100 i hi]
    by_cases h : i = 8 <;> simp [h, hi]
  · unfold xShown
    rw [if_neg (by decide), if_pos rfl]

/-- The code does not meet the full property: a step that ends with another exception leaves the flag on, and after the program is resumed it stops again although nobody asked for it. -/
theorem x64_step_stays {dbg : Bool} {type : UInt64} {c : XStop} {m : Mem} (h1 : type ≠ 1) (h3 : type ≠ 3) (hr : c.rip + 1 ≠ 0) :
    XStop.handle dbg false type [] id c.setStep m = some ((c.setStep, m), false) ∧ c.setStep.rflags.toBitVec.getLsbD 8 = true := by
  refine ⟨?_, ?_⟩
  · rw [x64_resumed_partial (c' := xShown type c.setStep) (m' := m) (fun h => absurd h h3) rfl, if_neg (fun h => h3 h.1)]
    · unfold xShown; rw [if_neg h3, if_neg h1]
    · unfold xShown; rw [if_neg h3, if_neg h1]; exact hr
  · rw [(x64_step_flag c 8 (by decide)).1]
    rfl

/-- The code does not meet the full property: at a breakpoint, a program that the other side sends to an address with an `int3` does not stop there. -/
theorem x64_jump_skips {dbg : Bool} {c : XStop} {m : Mem} {a : UInt64} (h0 : c.rip ≠ 0) (ha : a + 1 ≠ 0) (hm : m a = 0xCC) :
    XStop.handle dbg false 3 [] (fun x => ({ x.1 with rip := a }, x.2)) c m = some (({ c with rip := a + 1 }, m), false) := by
  rw [x64_resumed_partial (c' := { c with rip := a }) (m' := m) (fun _ => h0) rfl ha, if_pos ⟨rfl, hm⟩]

theorem x64_sessions_shift {dbg : Bool} {last : XStop × Mem → XStop × Mem} : ∀ (fs : List (XStop × Mem → Mem)) (c : XStop) (m : Mem), fs.length < c.rip.toNat → (∀ f ∈ fs, ∀ x, f x = x.2) →
    XStop.sessions dbg 3 fs last (c, m) = XStop.sessions dbg 3 [] last ({ c with rip := c.rip - UInt64.ofNat fs.length }, m) := by
  intro fs
  induction fs with
  | nil =>
    intro c m _ _
    simp
  | cons f fs ih =>
    intro c m h hf
    have h0 : c.rip ≠ 0 := by
      intro hc
      rw [hc] at h
      simp at h
    have e : c.entry dbg 3 = some (.breakpoint, { c with rip := c.rip - 1 }) := by
      unfold XStop.entry
      rw [if_neg (by decide), if_pos rfl, if_neg (fun hc => h0 hc.2)]
    have h1 : (c.rip - 1).toNat = c.rip.toNat - 1 := by
      rw [UInt64.toNat_sub_of_le]
      · rfl
      · rw [UInt64.le_iff_toNat_le]
        have : (1 : UInt64).toNat = 1 := rfl
        simp only [List.length_cons] at h
        omega
    have hm := ih { c with rip := c.rip - 1 } m (by simp only [h1]; simp only [List.length_cons] at h; omega) fun g hg => hf g (List.mem_cons_of_mem _ hg)
    conv => lhs; unfold XStop.sessions
    rw [e]
    simp only
    rw [hf f (List.mem_cons_self ..), hm]
    congr 2
    have : UInt64.ofNat (f :: fs).length = 1 + UInt64.ofNat fs.length := by
      rw [List.length_cons, UInt64.ofNat_add, UInt64.add_comm]
      rfl
    rw [this]
    simp only [XStop.mk.injEq, and_true]
    apply UInt64.eq_of_toBitVec_eq
    simp only [UInt64.toBitVec_sub, UInt64.toBitVec_add]
    generalize c.rip.toBitVec = x
    generalize (UInt64.ofNat fs.length).toBitVec = y
    generalize (1 : UInt64).toBitVec = z
    rw [BitVec.sub_sub]

/-- The code does not meet the full property: every error of the stub moves the address back by one byte. After `n` errors at a breakpoint of the program the other side sees the address
`n` bytes before it, and if nothing is changed the program goes on there, unless there happens to be an `int3` at that place. -/
theorem x64_errors_shift {dbg : Bool} {fs : List (XStop × Mem → Mem)} {c : XStop} {m : Mem} (h : fs.length + 1 < c.rip.toNat)
    (hf : ∀ f ∈ fs, ∀ x, f x = x.2) (hcc : m (c.rip - UInt64.ofNat fs.length - 1) ≠ 0xCC) :
    XStop.handle dbg false 3 fs id c m = some (({ c with rip := c.rip - UInt64.ofNat fs.length - 1 }, m), false) := by
  have hm := x64_sessions_shift (dbg := dbg) (last := id) fs c m (by omega) hf
  have hlt := c.rip.toNat_lt
  have hn : (UInt64.ofNat fs.length).toNat = fs.length := by
    rw [UInt64.toNat_ofNat']
    omega
  have h1 : (c.rip - UInt64.ofNat fs.length).toNat = c.rip.toNat - fs.length := by
    rw [UInt64.toNat_sub_of_le, hn]
    rw [UInt64.le_iff_toNat_le, hn]
    omega
  have h0 : c.rip - UInt64.ofNat fs.length ≠ 0 := by
    intro hc
    rw [hc] at h1
    simp only [UInt64.toNat_zero] at h1
    omega
  have := x64_resumed_partial (dbg := dbg) (type := 3) (last := id) (c := { c with rip := c.rip - UInt64.ofNat fs.length })
    (c' := { c with rip := c.rip - UInt64.ofNat fs.length - 1 }) (m := m) (m' := m) (fun _ => h0) rfl (by simp only; simpa using h0)
  rw [if_neg (fun hc => hcc hc.2)] at this
  unfold XStop.handle at this ⊢
  simp only [Bool.false_eq_true, if_false] at this ⊢
  rw [hm]
  exact this

/-- C101: an exception of a test access is not shown: the access is stepped over and the marker is off. -/
theorem x64_poke {dbg : Bool} {type : UInt64} {failed : List (XStop × Mem → Mem)} {last : XStop × Mem → XStop × Mem} {c : XStop} {m : Mem} (h : ¬c.rip + 3 < c.rip) :
    XStop.handle dbg true type failed last c m = some (({ c with rip := c.rip + 3 }, m), false) := by
  unfold XStop.handle
  rw [if_pos rfl, if_neg (fun hc => h hc.2)]

/-! ### AArch64 -/

/-- The class of the exception, bits 26 to 31 of `ESR`. -/
def aClass (c : AStop) : Nat := c.esr.toNat / 2 ^ 26 % 2 ^ 6

theorem aClass_eq (c : AStop) (n : Nat) (hn : n < 64) : ((c.esr >>> 26) &&& 0x3F = UInt64.ofNat n) ↔ aClass c = n := by
  have h : ((c.esr >>> 26) &&& 0x3F).toNat = aClass c := by
    rw [UInt64.toNat_and, UInt64.toNat_shiftRight]
    have e1 : (26 : UInt64).toNat % 64 = 26 := rfl
    have e2 : (0x3F : UInt64).toNat = 2 ^ 6 - 1 := rfl
    rw [e1, e2, Nat.and_two_pow_sub_one_eq_mod, Nat.shiftRight_eq_div_pow]
    rfl
  rw [← h, ← UInt64.toNat_inj]
  rw [UInt64.toNat_ofNat', Nat.mod_eq_of_lt (by omega)]

/-- Breakpoints, watchpoints and `BRK`. -/
def aBreak (c : AStop) : Prop := aClass c = 0x30 ∨ aClass c = 0x31 ∨ aClass c = 0x34 ∨ aClass c = 0x35 ∨ aClass c = 0x3C
/-- Steps. -/
def aStep (c : AStop) : Prop := aClass c = 0x32 ∨ aClass c = 0x33

theorem a64_entry (s : ASys) (c : AStop) : ((c.entry s).1 = .breakpoint ↔ aBreak c) ∧ ((c.entry s).1 = .step ↔ aStep c) ∧
    (c.entry s).2.flushed = s.flushed ∧ (¬aStep c → (c.entry s).2 = s) ∧ (aStep c → (c.entry s).2.mdscr = s.mdscr &&& ~~~0x1) := by
  have e := fun n hn => aClass_eq c n hn
  unfold AStop.entry aBreak aStep
  simp only
  have h30 := e 0x30 (by decide); have h31 := e 0x31 (by decide); have h32 := e 0x32 (by decide); have h33 := e 0x33 (by decide)
  have h34 := e 0x34 (by decide); have h35 := e 0x35 (by decide); have h3c := e 0x3C (by decide)
  simp only [show (UInt64.ofNat 0x30) = 0x30 from rfl, show (UInt64.ofNat 0x31) = 0x31 from rfl, show (UInt64.ofNat 0x32) = 0x32 from rfl,
    show (UInt64.ofNat 0x33) = 0x33 from rfl, show (UInt64.ofNat 0x34) = 0x34 from rfl, show (UInt64.ofNat 0x35) = 0x35 from rfl,
    show (UInt64.ofNat 0x3C) = 0x3C from rfl] at h30 h31 h32 h33 h34 h35 h3c
  simp only [h30, h31, h32, h33, h34, h35, h3c]
  by_cases a : aClass c = 0x32 ∨ aClass c = 0x33
  · rw [if_pos a]
    refine ⟨by simp; omega, by simp [a], rfl, fun h => absurd a h, fun _ => rfl⟩
  · rw [if_neg a]
    by_cases b : aClass c = 0x30 ∨ aClass c = 0x31 ∨ aClass c = 0x34 ∨ aClass c = 0x35 ∨ aClass c = 0x3C
    · rw [if_pos b]
      exact ⟨by simp [b], by simp [a], rfl, fun _ => rfl, fun h => absurd h a⟩
    · rw [if_neg b]
      split
      · exact ⟨by simp [b], by simp [a], rfl, fun _ => rfl, fun h => absurd h a⟩
      · exact ⟨by simp [b], by simp [a], rfl, fun _ => rfl, fun h => absurd h a⟩

/-- C101: whatever errors the stub has, the program goes on with exactly the context and memory that the other side left in the last session, which began with the context of the exception;
after a breakpoint it goes on after a `BRK #0`, and new instructions are seen. -/
theorem a64_resumed_partial {dbg : Bool} {s s' : ASys} {last : ASys × AStop × Mem → ASys × AStop × Mem} : ∀ {failed : List (AStop × Mem → Mem)} {c c' : AStop} {m m' : Mem}
    (_ : ∀ x m1, last (x, c, m1) = (s', c', m')) (_ : ¬c'.elr + 4 < c'.elr),
    (aBreak c → AStop.brkAt m' c'.elr = true → AStop.handle dbg false failed last s c m = some (({ s' with flushed := true }, { c' with elr := c'.elr + 4 }, m'), false)) ∧
    (aBreak c → AStop.brkAt m' c'.elr = false → AStop.handle dbg false failed last s c m = some (({ s' with flushed := true }, c', m'), false)) ∧
    (¬aBreak c → AStop.handle dbg false failed last s c m = some ((s', c', m'), false)) := by
  intro failed c c' m m' hl h4
  have key : ∀ (failed : List (AStop × Mem → Mem)) (s : ASys) (m : Mem),
      (aBreak c → AStop.brkAt m' c'.elr = true → AStop.sessions dbg failed last (s, c, m) = some ({ s' with flushed := true }, { c' with elr := c'.elr + 4 }, m')) ∧
      (aBreak c → AStop.brkAt m' c'.elr = false → AStop.sessions dbg failed last (s, c, m) = some ({ s' with flushed := true }, c', m')) ∧
      (¬aBreak c → AStop.sessions dbg failed last (s, c, m) = some (s', c', m')) := by
    intro failed
    induction failed with
    | nil =>
      intro s m
      obtain ⟨hb, _⟩ := a64_entry s c
      unfold AStop.sessions
      simp only [hl]
      unfold AStop.exit
      refine ⟨fun h h' => ?_, fun h h' => ?_, fun h => ?_⟩
      · rw [if_pos (hb.2 h), if_pos h', if_neg (fun hc => h4 hc.2)]; rfl
      · rw [if_pos (hb.2 h), if_neg (by simp [h'])]; rfl
      · rw [if_neg (fun hc => h (hb.1 hc))]; rfl
    | cons f fs ih =>
      intro s m
      conv => lhs; unfold AStop.sessions
      conv => rhs; lhs; unfold AStop.sessions
      conv => rhs; rhs; unfold AStop.sessions
      exact ih _ _
  obtain ⟨k1, k2, k3⟩ := key failed s m
  unfold AStop.handle
  simp only [Bool.false_eq_true, if_false]
  exact ⟨fun h h' => by rw [k1 h h']; rfl, fun h h' => by rw [k2 h h']; rfl, fun h => by rw [k3 h]; rfl⟩

/-- C101: the step is asked for in both places, debug exceptions are on, and it is off again when it is done. -/
theorem a64_step_flag (s : ASys) (c : AStop) (i : Nat) (hi : i < 64) :
    ((AStop.setStep s c).2.spsr.toBitVec.getLsbD i = if i = 9 then false else if i = 21 then true else c.spsr.toBitVec.getLsbD i) ∧
    ((AStop.setStep s c).1.mdscr.toBitVec.getLsbD i = if i = 0 ∨ i = 13 ∨ i = 15 then true else s.mdscr.toBitVec.getLsbD i) ∧
    (aStep c → (c.entry s).2.mdscr.toBitVec.getLsbD i = if i = 0 then false else s.mdscr.toBitVec.getLsbD i) ∧
    ({ (AStop.setStep s c).2 with spsr := c.spsr } = c) := by
  have h1 : ∀ i, i < 64 → (0x200 : UInt64).toBitVec.getLsbD i = decide (i = 9) := by decide
  have h2 : ∀ i, i < 64 → (0x200000 : UInt64).toBitVec.getLsbD i = decide (i = 21) := by decide
  have h3 : ∀ i, i < 64 → ((0x1 ||| 0x8000 ||| 0x2000 : UInt64)).toBitVec.getLsbD i = decide (i = 0 ∨ i = 13 ∨ i = 15) := by decide
  have h4 : ∀ i, i < 64 → (0x1 : UInt64).toBitVec.getLsbD i = decide (i = 0) := by decide
  refine ⟨?_, ?_, fun h => ?_, rfl⟩
  · simp only [AStop.setStep, UInt64.toBitVec_or, UInt64.toBitVec_and, UInt64.toBitVec_not, BitVec.getLsbD_or, BitVec.getLsbD_and, BitVec.getLsbD_not, h1 i hi, h2 i hi]
    by_cases a : i = 9 <;> by_cases b : i = 21 <;> simp [a, b, hi] <;> omega
  · simp only [AStop.setStep]
    rw [UInt64.toBitVec_or, BitVec.getLsbD_or, h3 i hi]
    by_cases a : i = 0 ∨ i = 13 ∨ i = 15 <;> simp [a]
  · rw [(a64_entry s c).2.2.2.2 h]
    simp only [UInt64.toBitVec_and, UInt64.toBitVec_not, BitVec.getLsbD_and, BitVec.getLsbD_not, h4 i hi]
    by_cases a : i = 0 <;> simp [a, hi]

/-- The code does not meet the full property: after a step, what the other side writes into the program is not made visible, and a breakpoint set then can be missed. -/
theorem a64_step_not_flushed {dbg : Bool} {s : ASys} {c : AStop} {m : Mem} {w : Mem → Mem} (h : ¬aBreak c) (h4 : ¬c.elr + 4 < c.elr) :
    AStop.handle dbg false [] (fun x => (x.1, x.2.1, w x.2.2)) s c m = some (((c.entry s).2, c, w m), false) ∧ (c.entry s).2.flushed = s.flushed := by
  refine ⟨?_, (a64_entry s c).2.2.1⟩
  unfold AStop.handle AStop.sessions
  simp only [Bool.false_eq_true, if_false]
  unfold AStop.exit
  rw [if_neg (fun hc => h ((a64_entry s c).1.1 hc))]
  rfl

/-- The code does not meet the full property: a step that ends with another exception stays on. -/
theorem a64_step_stays {dbg : Bool} {s : ASys} {c : AStop} {m : Mem} (hb : ¬aBreak c) (hs : ¬aStep c) :
    AStop.handle dbg false [] id (AStop.setStep s c).1 c m = some (((AStop.setStep s c).1, c, m), false) ∧ (AStop.setStep s c).1.mdscr.toBitVec.getLsbD 0 = true := by
  refine ⟨?_, by rw [(a64_step_flag s c 0 (by decide)).2.1]; rfl⟩
  obtain ⟨h1, _, _, h2, _⟩ := a64_entry (AStop.setStep s c).1 c
  unfold AStop.handle AStop.sessions
  simp only [Bool.false_eq_true, if_false, id]
  unfold AStop.exit
  rw [if_neg (fun hc => hb (h1.1 hc)), h2 hs]
  rfl

/-- C101: as for x64. -/
theorem a64_poke {dbg : Bool} {failed : List (AStop × Mem → Mem)} {last : ASys × AStop × Mem → ASys × AStop × Mem} {s : ASys} {c : AStop} {m : Mem} (h : ¬c.elr + 4 < c.elr) :
    AStop.handle dbg true failed last s c m = some ((s, { c with elr := c.elr + 4 }, m), false) := by
  unfold AStop.handle
  rw [if_pos rfl, if_neg (fun hc => h hc.2)]

/-! ### The transport -/

/-- Reads (`true`) and peeks: the bytes read and the bytes seen. -/
inductive ConnOp where
  | read
  | peek (here : Bool)

/-- The bytes that reads return, and for each peek that returns a byte, the byte and how many were read before it. -/
def connRun : Conn → List ConnOp → List UInt8 × List (Nat × UInt8) × Conn
  | c, [] => ([], [], c)
  | c, .read :: ops => match c.read with
    | none => connRun c ops
    | some (b, c) => (b :: (connRun c ops).1, (connRun c ops).2.1.map (fun p => (p.1 + 1, p.2)), (connRun c ops).2.2)
  | c, .peek here :: ops => match c.peek here with
    | (none, c) => connRun c ops
    | (some b, c) => ((connRun c ops).1, (0, b) :: (connRun c ops).2.1, (connRun c ops).2.2)

/-- C101: whatever mixture of reads and peeks, the bytes read are the bytes that came in, in order and without a gap; a peek sees the byte that is read next. -/
theorem transport_keeps : ∀ (ops : List ConnOp) (c : Conn),
    (connRun c ops).1 ++ ((connRun c ops).2.2.peeked.toList ++ (connRun c ops).2.2.input) = c.peeked.toList ++ c.input ∧
    ∀ p ∈ (connRun c ops).2.1, (c.peeked.toList ++ c.input)[p.1]? = some p.2 := by
  intro ops
  induction ops with
  | nil => intro c; exact ⟨rfl, by simp [connRun]⟩
  | cons op ops ih =>
    rintro ⟨p, l⟩
    cases op with
    | read =>
      cases p with
      | some b =>
        obtain ⟨h1, h2⟩ := ih ⟨none, l⟩
        simp only [connRun, Conn.read]
        refine ⟨by rw [List.cons_append, h1]; rfl, ?_⟩
        intro q hq
        obtain ⟨q', hq', rfl⟩ := List.mem_map.1 hq
        have := h2 q' hq'
        simpa using this
      | none =>
        cases l with
        | nil =>
          simp only [connRun, Conn.read]
          exact ih _
        | cons b bs =>
          obtain ⟨h1, h2⟩ := ih ⟨none, bs⟩
          simp only [connRun, Conn.read]
          refine ⟨by rw [List.cons_append, h1]; rfl, ?_⟩
          intro q hq
          obtain ⟨q', hq', rfl⟩ := List.mem_map.1 hq
          have := h2 q' hq'
          simpa using this
    | peek here =>
      cases p with
      | some b =>
        obtain ⟨h1, h2⟩ := ih ⟨some b, l⟩
        simp only [connRun, Conn.peek]
        refine ⟨h1, ?_⟩
        intro q hq
        rcases List.mem_cons.1 hq with rfl | hq
        · rfl
        · exact h2 q hq
      | none =>
        cases here with
        | false =>
          simp only [connRun, Conn.peek]
          exact ih _
        | true =>
          cases l with
          | nil =>
            simp only [connRun, Conn.peek]
            exact ih _
          | cons b bs =>
            obtain ⟨h1, h2⟩ := ih ⟨some b, bs⟩
            simp only [connRun, Conn.peek]
            refine ⟨h1, ?_⟩
            intro q hq
            rcases List.mem_cons.1 hq with rfl | hq
            · rfl
            · exact h2 q hq

/-- C101: the stub gets the first byte that is not 0, and nothing after it is lost. -/
theorem next_byte : ∀ (n : Nat) (l : List UInt8) (b : UInt8) (c : Conn), Conn.next n ⟨none, l⟩ = some (b, c) →
    b ≠ 0 ∧ c.peeked = none ∧ ∃ k, l = List.replicate k 0 ++ b :: c.input := by
  intro n
  induction n with
  | zero => intro l b c h; cases h
  | succ n ih =>
    intro l b c h
    cases l with
    | nil => cases h
    | cons x xs =>
      simp only [Conn.next, Conn.read] at h
      by_cases hx : x = 0
      · rw [if_pos hx] at h
        obtain ⟨h1, h2, k, hk⟩ := ih xs b c h
        exact ⟨h1, h2, k + 1, by rw [hk, hx, List.replicate_succ]; rfl⟩
      · rw [if_neg hx] at h
        injection h with h
        cases h
        exact ⟨hx, rfl, 0, rfl⟩

/-- C101: polling stops the program once for each Ctrl-C that has come in, takes all the bytes, and does nothing if the debugger is not enabled. -/
theorem poll_right (input : List UInt8) : poll true input = (input.count 3, []) ∧ poll false input = (0, input) := by
  refine ⟨?_, rfl⟩
  unfold poll
  rw [if_pos rfl, List.count_eq_length_filter]

/-- C101: with the default policy nothing is logged while the program is stopped, and afterwards the level is what it was. -/
theorem logging_right (level : Nat) (inside : Nat → Nat) :
    logLevels .suspend level inside = (0, level) ∧ (logLevels .disable level inside).1 = 0 ∧ logLevels .full level id = (level, level) := ⟨rfl, rfl, rfl⟩

/-! ### Examples -/

/-- Stopped at an `int3` at `0x1000`. -/
example : XStop.handle true false 3 [] id ⟨0x1001, 0x202, 0, 0, 5⟩ (fun a => if a = 0x1000 then 0xCC else 0x90) =
    some ((⟨0x1001, 0x202, 0, 0, 5⟩, fun a => if a = 0x1000 then 0xCC else 0x90), false) := (x64_own_breakpoint (by decide) (by decide)).2

/-- After one error of the stub the program goes on in the middle of the instruction before. -/
example : (XStop.handle true false 3 [fun x => x.2] id ⟨0x1001, 0x202, 0, 0, 5⟩ (fun a => if a = 0x1000 then 0xCC else 0x90)).map (fun x => x.1.1.rip) = some 0xFFF := by decide +kernel

example : aBreak ⟨0x8000, 0x3C5, 0xF2000000, 0, 0⟩ ∧ aStep ⟨0x8000, 0x3C5, 0xCA000000, 0, 0⟩ ∧ ¬aBreak ⟨0x8000, 0x3C5, 0x96000000, 0, 0⟩ := by
  unfold aBreak aStep aClass
  decide

example : connRun ⟨none, [1, 2, 3]⟩ [.read, .peek true, .peek false, .read, .read, .read] = ([1, 2, 3], [(1, 2), (1, 2)], ⟨none, []⟩) := by decide +kernel

end Verif.Debugger
