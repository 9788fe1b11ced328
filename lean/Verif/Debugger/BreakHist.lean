import Verif.Debugger.BreakProps
/-!
Breakpoints over time: the program's own memory is never lost.
-/
namespace Verif.Debugger

/-- The address is inside the breakpoint `b`, of `n` bytes. -/
def Covers (n : Nat) (b : Bp) (x : Nat) : Prop := b.set = true ∧ b.addr ≤ x ∧ x < b.addr + n

/-- Two ranges of `n` bytes do not meet. -/
def Apart (n a c : Nat) : Prop := a + n ≤ c ∨ c + n ≤ a

/-- Memory is the program's memory `m`, with the breakpoints in it. -/
structure Hides (instr : List UInt8) (m : Nat → UInt8) (w : World) (slots : List Bp) : Prop where
  lens : ∀ b ∈ slots, b.original.length = instr.length
  fits : ∀ b ∈ slots, b.set = true → Fits instr.length b.addr
  saved : ∀ b ∈ slots, b.set = true → b.original = (List.range instr.length).map fun i => m (b.addr + i)
  placed : ∀ b ∈ slots, b.set = true → ∀ i, i < instr.length → w.mem (b.addr + i) = instr.getD i 0
  elsewhere : ∀ x, (∀ b ∈ slots, ¬Covers instr.length b x) → w.mem x = m x
  apart : slots.Pairwise fun b c => b.set = true → c.set = true → Apart instr.length b.addr c.addr

theorem store_in {w : World} {a x : Nat} {l : List UInt8} (h1 : a ≤ x) (h2 : x < a + l.length) : (store w a l).mem x = l.getD (x - a) 0 := by
  show (if _ then _ else _) = _
  rw [if_pos ⟨h1, h2⟩]

theorem store_out {w : World} {a x : Nat} {l : List UInt8} (h : ¬(a ≤ x ∧ x < a + l.length)) : (store w a l).mem x = w.mem x := by
  show (if _ then _ else _) = _
  rw [if_neg h]

theorem hides_add {instr : List UInt8} {m : Nat → UInt8} {w : World} {pre post : List Bp} {b : Bp} {a : Nat} (hi : 0 < instr.length) (h : Hides instr m w (pre ++ b :: post)) (hb : b.set = false)
    (hf : Fits instr.length a) (hfree : ∀ c ∈ pre ++ b :: post, c.set = true → Apart instr.length a c.addr) :
    Hides instr m (store w a instr) (pre ++ ⟨true, a, bytes w a instr.length⟩ :: post) := by
  have hmem : ∀ c, c ∈ pre ++ (⟨true, a, bytes w a instr.length⟩ : Bp) :: post → c = ⟨true, a, bytes w a instr.length⟩ ∨ (c ∈ pre ++ b :: post ∧ (c.set = true → Apart instr.length a c.addr)) := by
    intro c hc
    rcases List.mem_append.1 hc with hc | hc
    · have : c ∈ pre ++ b :: post := List.mem_append.2 (.inl hc)
      exact .inr ⟨this, hfree c this⟩
    · rcases List.mem_cons.1 hc with hc | hc
      · exact .inl hc
      · have : c ∈ pre ++ b :: post := List.mem_append.2 (.inr (List.mem_cons_of_mem _ hc))
        exact .inr ⟨this, hfree c this⟩
  constructor
  · intro c hc
    rcases hmem c hc with rfl | ⟨hc, _⟩
    · exact bytes_length _ _ _
    · exact h.lens c hc
  · intro c hc hs
    rcases hmem c hc with rfl | ⟨hc, _⟩
    · exact hf
    · exact h.fits c hc hs
  · intro c hc hs
    rcases hmem c hc with rfl | ⟨hc, _⟩
    · show bytes w a instr.length = _
      unfold bytes
      refine List.map_congr_left fun i hi => ?_
      refine h.elsewhere _ fun c hc hcov => ?_
      have := hfree c hc hcov.1
      unfold Apart at this
      have := hcov.2
      have := List.mem_range.1 hi
      omega
    · exact h.saved c hc hs
  · intro c hc hs i hi
    rcases hmem c hc with rfl | ⟨hc, ha⟩
    · show (store w a instr).mem (a + i) = _
      rw [store_in (by omega) (by omega)]
      congr 1
      omega
    · have := ha hs
      unfold Apart at this
      rw [store_out (by omega)]
      exact h.placed c hc hs i hi
  · intro x hx
    have hself : ¬(a ≤ x ∧ x < a + instr.length) := fun hc =>
      hx ⟨true, a, bytes w a instr.length⟩ (List.mem_append.2 (.inr (List.mem_cons_self ..))) ⟨rfl, hc⟩
    rw [store_out hself]
    refine h.elsewhere x fun c hc hcov => ?_
    rcases List.mem_append.1 hc with hc | hc
    · exact hx c (List.mem_append.2 (.inl hc)) hcov
    · rcases List.mem_cons.1 hc with rfl | hc
      · exact absurd hcov.1 (by simp [hb])
      · exact hx c (List.mem_append.2 (.inr (List.mem_cons_of_mem _ hc))) hcov
  · have hp := List.pairwise_append.1 h.apart
    have hp2 := List.pairwise_cons.1 hp.2.1
    refine List.pairwise_append.2 ⟨hp.1, List.pairwise_cons.2 ⟨?_, hp2.2⟩, ?_⟩
    · intro c hc _ hs
      exact hfree c (List.mem_append.2 (.inr (List.mem_cons_of_mem _ hc))) hs
    · intro c hc d hd hs1 hs2
      rcases List.mem_cons.1 hd with rfl | hd
      · have := hfree c (List.mem_append.2 (.inl hc)) hs1
        unfold Apart at this ⊢
        simp only
        omega
      · exact hp.2.2 c hc d (List.mem_cons_of_mem _ hd) hs1 hs2

theorem hides_remove {instr : List UInt8} {m : Nat → UInt8} {w : World} {pre post : List Bp} {b : Bp} (h : Hides instr m w (pre ++ b :: post)) (hb : b.set = true) :
    Hides instr m (store w b.addr b.original) (pre ++ { b with set := false } :: post) := by
  have hbm : b ∈ pre ++ b :: post := List.mem_append.2 (.inr (List.mem_cons_self ..))
  have hbl := h.lens b hbm
  have hp := List.pairwise_append.1 h.apart
  have hp2 := List.pairwise_cons.1 hp.2.1
  have hmem : ∀ c, c ∈ pre ++ ({ b with set := false } : Bp) :: post → c = { b with set := false } ∨ (c ∈ pre ++ b :: post ∧ (c.set = true → Apart instr.length b.addr c.addr)) := by
    intro c hc
    rcases List.mem_append.1 hc with hc | hc
    · refine .inr ⟨List.mem_append.2 (.inl hc), fun hs => ?_⟩
      have := hp.2.2 c hc b (List.mem_cons_self ..) hs hb
      unfold Apart at this ⊢
      omega
    · rcases List.mem_cons.1 hc with hc | hc
      · exact .inl hc
      · exact .inr ⟨List.mem_append.2 (.inr (List.mem_cons_of_mem _ hc)), fun hs => hp2.1 c hc hb hs⟩
  constructor
  · intro c hc
    rcases hmem c hc with rfl | ⟨hc, _⟩
    · exact hbl
    · exact h.lens c hc
  · intro c hc hs
    rcases hmem c hc with rfl | ⟨hc, _⟩
    · exact absurd hs (by simp)
    · exact h.fits c hc hs
  · intro c hc hs
    rcases hmem c hc with rfl | ⟨hc, _⟩
    · exact absurd hs (by simp)
    · exact h.saved c hc hs
  · intro c hc hs i hi
    rcases hmem c hc with rfl | ⟨hc, ha⟩
    · exact absurd hs (by simp)
    · have := ha hs
      unfold Apart at this
      rw [store_out (by omega)]
      exact h.placed c hc hs i hi
  · intro x hx
    by_cases hin : b.addr ≤ x ∧ x < b.addr + b.original.length
    · rw [store_in hin.1 hin.2, h.saved b hbm hb, List.getD_eq_getElem?_getD, List.getElem?_map, List.getElem?_range (by omega)]
      show m (b.addr + (x - b.addr)) = m x
      congr 1
      omega
    · rw [store_out hin]
      refine h.elsewhere x fun c hc hcov => ?_
      rcases List.mem_append.1 hc with hc | hc
      · exact hx c (List.mem_append.2 (.inl hc)) hcov
      · rcases List.mem_cons.1 hc with rfl | hc
        · exact hin ⟨hcov.2.1, by have := hcov.2.2; omega⟩
        · exact hx c (List.mem_append.2 (.inr (List.mem_cons_of_mem _ hc))) hcov
  · refine List.pairwise_append.2 ⟨hp.1, List.pairwise_cons.2 ⟨?_, hp2.2⟩, ?_⟩
    · intro c hc hs
      exact absurd hs (by simp)
    · intro c hc d hd hs1 hs2
      rcases List.mem_cons.1 hd with rfl | hd
      · exact absurd hs2 (by simp)
      · exact hp.2.2 c hc d (List.mem_cons_of_mem _ hd) hs1 hs2

theorem hides_refused {instr : List UInt8} {m : Nat → UInt8} {w : World} {pre post : List Bp} {b : Bp} {o : List UInt8} (h : Hides instr m w (pre ++ b :: post)) (hb : b.set = false)
    (ho : o.length = instr.length) : Hides instr m w (pre ++ { b with original := o } :: post) := by
  have hp := List.pairwise_append.1 h.apart
  have hp2 := List.pairwise_cons.1 hp.2.1
  have hmem : ∀ c, c ∈ pre ++ ({ b with original := o } : Bp) :: post → c = { b with original := o } ∨ c ∈ pre ++ b :: post := by
    intro c hc
    rcases List.mem_append.1 hc with hc | hc
    · exact .inr (List.mem_append.2 (.inl hc))
    · rcases List.mem_cons.1 hc with hc | hc
      · exact .inl hc
      · exact .inr (List.mem_append.2 (.inr (List.mem_cons_of_mem _ hc)))
  constructor
  · intro c hc
    rcases hmem c hc with rfl | hc
    · exact ho
    · exact h.lens c hc
  · intro c hc hs
    rcases hmem c hc with rfl | hc
    · exact absurd hs (by simp [hb])
    · exact h.fits c hc hs
  · intro c hc hs
    rcases hmem c hc with rfl | hc
    · exact absurd hs (by simp [hb])
    · exact h.saved c hc hs
  · intro c hc hs
    rcases hmem c hc with rfl | hc
    · exact absurd hs (by simp [hb])
    · exact h.placed c hc hs
  · intro x hx
    refine h.elsewhere x fun c hc hcov => ?_
    rcases List.mem_append.1 hc with hc | hc
    · exact hx c (List.mem_append.2 (.inl hc)) hcov
    · rcases List.mem_cons.1 hc with rfl | hc
      · exact absurd hcov.1 (by simp [hb])
      · exact hx c (List.mem_append.2 (.inr (List.mem_cons_of_mem _ hc))) hcov
  · refine List.pairwise_append.2 ⟨hp.1, List.pairwise_cons.2 ⟨?_, hp2.2⟩, ?_⟩
    · intro c hc hs
      exact absurd hs (by simp [hb])
    · intro c hc d hd hs1 hs2
      rcases List.mem_cons.1 hd with rfl | hd
      · exact absurd hs2 (by simp [hb])
      · exact hp.2.2 c hc d (List.mem_cons_of_mem _ hd) hs1 hs2

/-! ### Histories -/

/-- What happens: breakpoints are added and removed, and the program stores to its memory while it runs. -/
inductive BreakOp where
  | add (a : Nat)
  | remove (a : Nat)
  | run (a : Nat) (l : List UInt8)
deriving Repr

/-- A step of the debugger or the program; `none` once the debugger has panicked. -/
def breakStep (dbg un : Bool) (instr : List UInt8) (s : World × List Bp) : BreakOp → Option (World × List Bp)
  | .add a => match addBreak dbg un instr a s.1 s.2 with
    | (.panic, _) => none
    | (_, s') => some s'
  | .remove a => match removeBreak dbg a s.1 s.2 with
    | (.panic, _) => none
    | (_, s') => some s'
  | .run a l => some (store s.1 a l, s.2)

/-- What the program's memory is after a step: only its own stores count. -/
def ownMemory (m : Nat → UInt8) : BreakOp → Nat → UInt8
  | .run a l => fun x => if a ≤ x ∧ x < a + l.length then l.getD (x - a) 0 else m x
  | _ => m

/-- Breakpoints are put where no breakpoint is, inside a page; the program does not store over a breakpoint. -/
def Admissible (n : Nat) (slots : List Bp) : BreakOp → Prop
  | .add a => Fits n a ∧ ∀ b ∈ slots, b.set = true → Apart n a b.addr
  | .remove _ => True
  | .run a l => ∀ x, a ≤ x → x < a + l.length → ∀ b ∈ slots, ¬Covers n b x

/-- `s` and the program's memory `m` after the history, the last step first. -/
inductive BreakHistory (dbg un : Bool) (instr : List UInt8) (w : World) : (Nat → UInt8) → World × List Bp → Prop where
  | start : BreakHistory dbg un instr w w.mem (w, noBreakpoints instr.length)
  | step {m s s'} (op : BreakOp) (h : BreakHistory dbg un instr w m s) (ha : Admissible instr.length s.2 op) (hs : breakStep dbg un instr s op = some s') :
      BreakHistory dbg un instr w (ownMemory m op) s'

theorem hides_start {instr : List UInt8} (w : World) : Hides instr w.mem w (noBreakpoints instr.length) := by
  have hm : ∀ b ∈ noBreakpoints instr.length, b = Bp.empty instr.length := fun b hb => List.eq_of_mem_replicate hb
  constructor
  · intro b hb
    rw [hm b hb]
    simp [Bp.empty]
  · intro b hb hs
    rw [hm b hb] at hs
    exact absurd hs (by simp [Bp.empty])
  · intro b hb hs
    rw [hm b hb] at hs
    exact absurd hs (by simp [Bp.empty])
  · intro b hb hs
    rw [hm b hb] at hs
    exact absurd hs (by simp [Bp.empty])
  · intro x _
    rfl
  · refine List.pairwise_replicate.2 (.inr ?_)
    intro hs
    exact absurd hs (by simp [Bp.empty])

theorem hides_step {dbg un : Bool} {instr : List UInt8} {m : Nat → UInt8} {s s' : World × List Bp} {op : BreakOp} (hi : instr ≠ []) (h : Hides instr m s.1 s.2)
    (ha : Admissible instr.length s.2 op) (hs : breakStep dbg un instr s op = some s') : Hides instr (ownMemory m op) s'.1 s'.2 := by
  have hlen : 0 < instr.length := by
    cases instr with
    | nil => exact absurd rfl hi
    | cons => simp
  obtain ⟨w, slots⟩ := s
  cases op with
  | add a =>
    obtain ⟨hf, hfree⟩ := ha
    simp only [breakStep] at hs
    generalize hc : addBreak dbg un instr a w slots = c at hs
    obtain ⟨r, w', slots'⟩ := c
    obtain ⟨h1, h2, h3⟩ := addBreak_spec hi hf h.lens hc
    cases r with
    | panic => simp at hs
    | err e =>
      cases hs
      obtain ⟨rfl, pre, b, post, o, rfl, hb, ho, rfl⟩ := h3 rfl
      exact hides_refused h hb ho
    | ok v =>
      cases hs
      cases v with
      | true =>
        obtain ⟨rfl, pre, b, post, rfl, _, hb, rfl⟩ := h1 rfl
        exact hides_add hlen h hb hf hfree
      | false =>
        obtain ⟨rfl, rfl, _⟩ := h2 rfl
        exact h
  | remove a =>
    simp only [breakStep] at hs
    generalize hc : removeBreak dbg a w slots = c at hs
    obtain ⟨r, w', slots'⟩ := c
    obtain ⟨h1, h2, h3⟩ := removeBreak_spec hlen h.lens h.fits hc
    cases r with
    | panic => simp at hs
    | err e =>
      cases hs
      obtain ⟨rfl, rfl⟩ := h3 rfl
      exact h
    | ok v =>
      cases hs
      cases v with
      | true =>
        obtain ⟨pre, b, post, rfl, _, hb, rfl, rfl, rfl⟩ := h1 rfl
        exact hides_remove h hb
      | false =>
        obtain ⟨rfl, rfl, _⟩ := h2 rfl
        exact h
  | run a l =>
    cases hs
    constructor
    · exact h.lens
    · exact h.fits
    · intro b hb hset
      rw [h.saved b hb hset]
      refine List.map_congr_left fun i hi => ?_
      show _ = if _ then _ else _
      rw [if_neg]
      intro hc
      exact ha _ hc.1 hc.2 b hb ⟨hset, by omega, by have := List.mem_range.1 hi; omega⟩
    · intro b hb hset i hi
      show (store w a l).mem _ = _
      rw [store_out]
      · exact h.placed b hb hset i hi
      · intro hc
        exact ha _ hc.1 hc.2 b hb ⟨hset, by omega, by omega⟩
    · intro x hx
      show (if _ then _ else _) = (if _ then _ else _)
      split
      · rfl
      · exact h.elsewhere x hx
    · exact h.apart

theorem history_hides {dbg un : Bool} {instr : List UInt8} {w : World} {m : Nat → UInt8} {s : World × List Bp} (hi : instr ≠ [])
    (h : BreakHistory dbg un instr w m s) : Hides instr m s.1 s.2 := by
  induction h with
  | start => exact hides_start w
  | step op _ ha hs ih => exact hides_step hi ih ha hs

/-- C97: after any history, memory holds the breakpoint instruction at each breakpoint, and everywhere else what the program has there. -/
theorem memory_with_breakpoints_partial {dbg un : Bool} {instr : List UInt8} {w : World} {m : Nat → UInt8} {s : World × List Bp} (hi : instr ≠ [])
    (h : BreakHistory dbg un instr w m s) :
    (∀ b ∈ s.2, b.set = true → ∀ i, i < instr.length → s.1.mem (b.addr + i) = instr.getD i 0) ∧
    (∀ x, (∀ b ∈ s.2, b.set = true → ¬(b.addr ≤ x ∧ x < b.addr + instr.length)) → s.1.mem x = m x) :=
  have hh := history_hides hi h
  ⟨hh.placed, fun x hx => hh.elsewhere x fun b hb hc => hx b hb hc.1 hc.2⟩

/-- C97: once every breakpoint has been removed, memory is exactly the program's. -/
theorem removed_breakpoints_leave_nothing_partial {dbg un : Bool} {instr : List UInt8} {w : World} {m : Nat → UInt8} {s : World × List Bp} (hi : instr ≠ [])
    (h : BreakHistory dbg un instr w m s) (hn : ∀ b ∈ s.2, b.set = false) : s.1.mem = m :=
  funext fun x => (history_hides hi h).elsewhere x fun b hb hc => absurd hc.1 (by simp [hn b hb])

/-- C97: removing a breakpoint gives back the bytes the program has there, whatever was set or removed in between. -/
theorem removed_breakpoint_restores_partial {dbg un : Bool} {instr : List UInt8} {w : World} {m : Nat → UInt8} {s : World × List Bp} {a : Nat} {w' : World}
    {slots' : List Bp} (hi : instr ≠ []) (h : BreakHistory dbg un instr w m s) (hr : removeBreak dbg a s.1 s.2 = (.ok true, w', slots')) :
    (∀ i, i < instr.length → w'.mem (a + i) = m (a + i)) ∧ (∀ x, ¬(a ≤ x ∧ x < a + instr.length) → w'.mem x = s.1.mem x) ∧
    (∀ b ∈ slots', ¬(b.set = true ∧ b.addr = a)) := by
  have hh := history_hides hi h
  have hlen : 0 < instr.length := by
    cases instr with
    | nil => exact absurd rfl hi
    | cons => simp
  obtain ⟨pre, b, post, e, hpre, hb, rfl, rfl, rfl⟩ := (removeBreak_spec hlen hh.lens hh.fits hr).1 rfl
  have hbm : b ∈ s.2 := by rw [e]; simp
  have hbl := hh.lens b hbm
  refine ⟨fun i hi => ?_, fun x hx => store_out (by rw [hbl]; exact hx), ?_⟩
  · rw [store_in (by omega) (by omega), hh.saved b hbm hb, List.getD_eq_getElem?_getD, List.getElem?_map, List.getElem?_range (by omega)]
    show m (b.addr + (b.addr + i - b.addr)) = _
    congr 1
    omega
  · have hap := hh.apart
    rw [e] at hap
    have hp := List.pairwise_append.1 hap
    have hp2 := List.pairwise_cons.1 hp.2.1
    intro c hc hcs
    rcases List.mem_append.1 hc with hc | hc
    · exact hpre c hc hcs
    · rcases List.mem_cons.1 hc with rfl | hc
      · exact absurd hcs.1 (by simp)
      · have := hp2.1 c hc hb hcs.1
        unfold Apart at this
        omega

/-- C97: a breakpoint is refused for want of room only when all twenty-five are in use, and nothing changes then; another place in memory is never changed. -/
theorem add_breakpoint_right_partial {dbg un : Bool} {instr : List UInt8} {w : World} {m : Nat → UInt8} {s : World × List Bp} {a : Nat} {r : Outcome Unit Bool}
    {s' : World × List Bp} (hi : instr ≠ []) (h : BreakHistory dbg un instr w m s) (hf : Fits instr.length a) (hr : addBreak dbg un instr a s.1 s.2 = (r, s')) :
    (r = .ok false → s' = s ∧ ∀ b ∈ s.2, b.set = true) ∧
    (r = .ok true → ∀ x, s'.1.mem x = if a ≤ x ∧ x < a + instr.length then instr.getD (x - a) 0 else s.1.mem x) ∧
    (r = .err () → s'.1 = s.1) := by
  have hh := history_hides hi h
  obtain ⟨w', slots'⟩ := s'
  obtain ⟨h1, h2, h3⟩ := addBreak_spec hi hf hh.lens hr
  refine ⟨fun e => ?_, fun e => ?_, fun e => (h3 e).1⟩
  · obtain ⟨rfl, rfl, ha⟩ := h2 e
    exact ⟨rfl, ha⟩
  · rw [(h1 e).1]
    intro x
    rfl

/-- There are always twenty-five places. -/
theorem slots_length {dbg un : Bool} {instr : List UInt8} {w : World} {m : Nat → UInt8} {s : World × List Bp} (hi : instr ≠ [])
    (h : BreakHistory dbg un instr w m s) : s.2.length = 25 := by
  induction h with
  | start => simp [noBreakpoints]
  | @step m s s' op h ha hs ih =>
    have hh := history_hides hi h
    have hlen : 0 < instr.length := by
      cases instr with
      | nil => exact absurd rfl hi
      | cons => simp
    obtain ⟨w1, slots⟩ := s
    cases op with
    | add a =>
      simp only [breakStep] at hs
      generalize hc : addBreak dbg un instr a w1 slots = c at hs
      obtain ⟨r, w', slots'⟩ := c
      obtain ⟨h1, h2, h3⟩ := addBreak_spec hi ha.1 hh.lens hc
      cases r with
      | panic => simp at hs
      | err e =>
        cases hs
        obtain ⟨_, pre, b, post, o, e, _, _, rfl⟩ := h3 rfl
        simp only at ih e
        rw [e] at ih
        simpa using ih
      | ok v =>
        cases hs
        cases v with
        | true =>
          obtain ⟨_, pre, b, post, e, _, _, rfl⟩ := h1 rfl
          simp only at ih e
          rw [e] at ih
          simpa using ih
        | false =>
          obtain ⟨_, e, _⟩ := h2 rfl
          rw [e]
          exact ih
    | remove a =>
      simp only [breakStep] at hs
      generalize hc : removeBreak dbg a w1 slots = c at hs
      obtain ⟨r, w', slots'⟩ := c
      obtain ⟨h1, h2, h3⟩ := removeBreak_spec hlen hh.lens hh.fits hc
      cases r with
      | panic => simp at hs
      | err e =>
        cases hs
        rw [(h3 rfl).2]
        exact ih
      | ok v =>
        cases hs
        cases v with
        | true =>
          obtain ⟨pre, b, post, e, _, _, _, _, rfl⟩ := h1 rfl
          simp only at ih e
          rw [e] at ih
          simpa using ih
        | false =>
          rw [(h2 rfl).2.1]
          exact ih
    | run a l =>
      cases hs
      exact ih

/-- The code does not meet the full property: of two breakpoints set at one address, the second remembers the instruction of the first. After both have been
removed, the instruction is in memory, and the program stops there for good. (The protocol asks that setting a breakpoint twice is the same as once.) -/
theorem set_twice_stays {dbg un : Bool} {instr : List UInt8} {a : Nat} {w w1 w2 w3 w4 : World} {x y : Bp} {rest s1 s2 s3 s4 : List Bp} (hi : instr ≠ [])
    (hf : Fits instr.length a) (hx : x.set = false) (hy : y.set = false) (hl : ∀ b ∈ x :: y :: rest, b.original.length = instr.length)
    (h1 : addBreak dbg un instr a w (x :: y :: rest) = (.ok true, w1, s1)) (h2 : addBreak dbg un instr a w1 s1 = (.ok true, w2, s2))
    (h3 : removeBreak dbg a w2 s2 = (.ok true, w3, s3)) (h4 : removeBreak dbg a w3 s3 = (.ok true, w4, s4)) :
    (∀ i, i < instr.length → w4.mem (a + i) = instr.getD i 0) ∧ ∃ p q, s4 = p :: q :: rest ∧ p.set = false ∧ q.set = false := by
  have hlen : 0 < instr.length := by
    cases instr with
    | nil => exact absurd rfl hi
    | cons => simp
  have hW' : W = 18446744073709551616 := rfl
  have hlx := hl x (by simp)
  have hly := hl y (by simp)
  -- the first
  unfold addBreak at h1
  rw [if_neg (by simp [hx]), hlx] at h1
  cases hr1 : readMemory dbg w a instr.length un with
  | err e => rw [hr1] at h1; simp at h1
  | panic => rw [hr1] at h1; simp at h1
  | ok l1 =>
    have hl1 := read_ok hlen (by have := hf.2; omega) hf.1 hr1
    rw [hr1] at h1
    simp only at h1
    generalize hw1 : writeMemory dbg w a instr = c at h1
    obtain ⟨o1, v1⟩ := c
    cases o1 with
    | err e => simp at h1
    | panic => simp at h1
    | ok u1 =>
      cases h1
      have e1 := write_ok hi hf.2 hf.1 hw1
      -- the second
      unfold addBreak at h2
      rw [if_pos rfl] at h2
      unfold addBreak at h2
      rw [if_neg (by simp [hy]), hly] at h2
      cases hr2 : readMemory dbg w1 a instr.length un with
      | err e => rw [hr2] at h2; simp at h2
      | panic => rw [hr2] at h2; simp at h2
      | ok l2 =>
        have hl2 := read_ok hlen (by have := hf.2; omega) hf.1 hr2
        rw [hr2] at h2
        simp only at h2
        generalize hw2 : writeMemory dbg w1 a instr = c at h2
        obtain ⟨o2, v2⟩ := c
        cases o2 with
        | err e => simp at h2
        | panic => simp at h2
        | ok u2 =>
          cases h2
          have f1 : fill x.original l1 = bytes w a instr.length := by
            unfold fill
            rw [List.drop_eq_nil_of_le (by rw [hl1, bytes_length, hlx]; exact Nat.le_refl _), List.append_nil, hl1]
          have f2 : fill y.original l2 = bytes w1 a instr.length := by
            unfold fill
            rw [List.drop_eq_nil_of_le (by rw [hl2, bytes_length, hly]; exact Nat.le_refl _), List.append_nil, hl2]
          -- removed
          unfold removeBreak at h3
          rw [if_pos (by simp)] at h3
          simp only at h3
          generalize hw3 : writeMemory dbg v2 a (fill x.original l1) = c at h3
          obtain ⟨o3, v3⟩ := c
          cases o3 with
          | err e => simp at h3
          | panic => simp at h3
          | ok u3 =>
            cases h3
            unfold removeBreak at h4
            rw [if_neg (by simp)] at h4
            unfold removeBreak at h4
            rw [if_pos (by simp)] at h4
            simp only at h4
            generalize hw4 : writeMemory dbg w3 a (fill y.original l2) = c at h4
            obtain ⟨o4, v4⟩ := c
            cases o4 with
            | err e => simp at h4
            | panic => simp at h4
            | ok u4 =>
              cases h4
              rw [f2] at hw4
              have hbl := bytes_length w1 a instr.length
              have e4 := write_ok (l := bytes w1 a instr.length) (by intro hc; rw [hc] at hbl; simp at hbl; omega) (by rw [hbl]; exact hf.2)
                (by rw [hbl]; exact hf.1) hw4
              refine ⟨fun i hi => ?_, _, _, rfl, rfl, rfl⟩
              rw [e4, store_in (by omega) (by rw [hbl]; omega), List.getD_eq_getElem?_getD, bytes_get _ _ _ _ (by omega)]
              show w1.mem (a + (a + i - a)) = _
              rw [e1, store_in (by omega) (by omega)]
              congr 1
              omega

/-! ### Examples -/

/-- A breakpoint on x64 in the read-only page. -/
example : (breakStep true false [0xCC] (twoPages, noBreakpoints 1) (.add 4196)).map (fun s => [s.1.mem 4195, s.1.mem 4196, s.1.mem 4197]) = some [99, 0xCC, 101] := by
  decide +kernel

/-- Set twice, removed twice: the instruction stays. -/
example : ((((breakStep true false [0xCC] (twoPages, noBreakpoints 1) (.add 4196)).bind (breakStep true false [0xCC] · (.add 4196))).bind
    (breakStep true false [0xCC] · (.remove 4196))).bind (breakStep true false [0xCC] · (.remove 4196))).map (fun s => (s.1.mem 4196, s.2.all fun b => !b.set)) =
    some (0xCC, true) ∧ twoPages.mem 4196 = 100 := by
  decide +kernel

def first : World × List Bp := (breakStep true false [0xCC] (twoPages, noBreakpoints 1) (.add 4196)).get (by decide +kernel)
def second : World × List Bp := (breakStep true false [0xCC] first (.run 8200 [7])).get (by decide +kernel)
def third : World × List Bp := (breakStep true false [0xCC] second (.add 4300)).get (by decide +kernel)
def fourth : World × List Bp := (breakStep true false [0xCC] third (.remove 4196)).get (by decide +kernel)

/-- A history: a breakpoint is set, the program stores elsewhere, another is set, the first is removed. -/
example : ∃ m, BreakHistory true false [0xCC] twoPages m fourth ∧ fourth.1.mem 4196 = 100 ∧ fourth.1.mem 4300 = 0xCC ∧ m 4300 = 204 ∧ m 8200 = 7 ∧
    fourth.1.mem 8200 = 7 := by
  refine ⟨_, .step (s := third) (.remove 4196) (.step (s := second) (.add 4300) (.step (s := first) (.run 8200 [7]) (.step (s := (twoPages, noBreakpoints 1)) (.add 4196)
    .start ?_ ?_) ?_ ?_) ?_ ?_) trivial ?_, ?_, ?_, ?_, ?_, ?_⟩
  · exact ⟨by unfold Fits; decide, by unfold Apart; decide +kernel⟩
  · exact (Option.some_get _).symm
  · intro x h1 h2
    simp only [List.length_cons, List.length_nil] at h2
    obtain rfl : x = 8200 := by omega
    unfold Covers
    decide +kernel
  · exact (Option.some_get _).symm
  · exact ⟨by unfold Fits; decide, by unfold Apart; decide +kernel⟩
  · exact (Option.some_get _).symm
  · exact (Option.some_get _).symm
  all_goals decide +kernel

end Verif.Debugger
