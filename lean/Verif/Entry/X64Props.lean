import Verif.Entry.X64Spec
/-!
Exceptions on x64: what the handler sees and where the program continues.
-/
namespace Verif.Entry.X64

/-- Whether the code takes a vector for one without an error code. -/
def noCode (v : Nat) : Bool := ((1 <<< (v % 256 % 64)) % 2 ^ 64 &&& vectorsWithErrorCodes) == 0

theorem noCode_iff (v : Nat) : noCode v = true ↔ ¬ hasErrorCode (v % 64) := by
  have h1 : ∀ k, k < 64 → ((((1 <<< k) % 2 ^ 64 &&& vectorsWithErrorCodes) == 0) = true ↔ ¬ hasErrorCode k) := by decide +kernel
  unfold noCode
  rw [show v % 256 % 64 = v % 64 by omega]
  exact h1 _ (by omega)

/-- What the code puts into a field, when it takes the stack for one with an error code or not as it is. -/
def seen (c : Cpu) (f : Frame) (code : Option Val) : Field → Val
  | .cr4 => (c.sys .cr4).or 0x208
  | .cs => f.cs.low16
  | .ss => f.ss.low16
  | x => actual c f code x

theorem exec_append (a b : List Instr) (c : Cpu) : exec (a ++ b) c = match exec a c with | some c' => exec b c' | none => none := by
  induction a generalizing c with
  | nil => rfl
  | cons i is ih =>
    show exec (i :: (is ++ b)) c = _
    rw [show exec (i :: (is ++ b)) c = match step c i with | some c' => exec (is ++ b) c' | none => none from rfl,
      show exec (i :: is) c = match step c i with | some c' => exec is c' | none => none from rfl]
    cases step c i with
    | none => rfl
    | some c' => exact ih c'

/-- What the code before `stack_normalized` should leave. -/
structure Norm (c : Cpu) (f : Frame) (code : Option Val) (v : Nat) (c' : Cpu) : Prop where
  sp : c'.sp = 7
  vector : c'.mem 7 = .num v
  errorCode : c'.mem 6 = code.getD (.num 0)
  rip : c'.mem 5 = f.rip
  cs : c'.mem 4 = f.cs
  rflags : c'.mem 3 = f.rflags
  rsp : c'.mem 2 = f.rsp
  ss : c'.mem 1 = f.ss
  above : c'.mem 0 = c.mem 0
  reg : c'.reg = c.reg
  sys : c'.sys = c.sys
  fx : c'.fx = c.fx
  idtr : c'.idtr = c.idtr
  gdtr : c'.gdtr = c.gdtr

theorem norm_none (c : Cpu) (f : Frame) (v here : Nat) :
    ∃ c1, exec (stub v here ++ test) (take c f none) = some c1 ∧ c1.zf = noCode v ∧ ∃ c2, exec inject c1 = some c2 ∧ Norm c f none v c2 := by
  refine ⟨_, rfl, rfl, _, rfl, ⟨rfl, rfl, rfl, rfl, rfl, rfl, rfl, rfl, rfl, ?_, rfl, rfl, rfl, rfl⟩⟩
  funext r
  cases r <;> rfl

theorem norm_some (c : Cpu) (f : Frame) (e : Val) (v here : Nat) :
    ∃ c1, exec (stub v here ++ test) (take c f (some e)) = some c1 ∧ c1.zf = noCode v ∧ Norm c f (some e) v c1 := by
  refine ⟨_, rfl, rfl, ⟨rfl, rfl, rfl, rfl, rfl, rfl, rfl, rfl, rfl, ?_, rfl, rfl, rfl, rfl⟩⟩
  funext r
  cases r <;> rfl

/-- The code up to the floating point state, and the rest. -/
def save1 : List Instr := save.take 68
def save2 : List Instr := save.drop 68

/-- What the first part leaves. -/
structure Saved (c : Cpu) (f : Frame) (code : Option Val) (v : Nat) (c' : Cpu) : Prop where
  sp : c'.sp = 50
  r15 : c'.reg .r15 = .ptr 7
  vector : c'.mem 7 = .num v
  errorCode : c'.mem 6 = code.getD (.num 0)
  above : c'.mem 0 = c.mem 0
  fx : c'.fx = c.fx
  sys : c'.sys = fun s => if s = .cr4 then (c.sys .cr4).or 0x208 else c.sys s
  dr0' : c'.mem 50 = seen c f code .dr0
  dr1' : c'.mem 49 = seen c f code .dr1
  dr2' : c'.mem 48 = seen c f code .dr2
  dr3' : c'.mem 47 = seen c f code .dr3
  dr6' : c'.mem 46 = seen c f code .dr6
  dr7' : c'.mem 45 = seen c f code .dr7
  cr0' : c'.mem 44 = seen c f code .cr0
  cr1' : c'.mem 43 = seen c f code .cr1
  cr2' : c'.mem 42 = seen c f code .cr2
  cr3' : c'.mem 41 = seen c f code .cr3
  cr4' : c'.mem 40 = seen c f code .cr4
  cr8' : c'.mem 39 = seen c f code .cr8
  rflags' : c'.mem 38 = seen c f code .rflags
  ldtr' : c'.mem 37 = seen c f code .ldtr
  tr' : c'.mem 36 = seen c f code .tr
  gdtr0' : c'.mem 35 = seen c f code .gdtr0
  gdtr1' : c'.mem 34 = seen c f code .gdtr1
  idtr0' : c'.mem 33 = seen c f code .idtr0
  idtr1' : c'.mem 32 = seen c f code .idtr1
  rip' : c'.mem 31 = seen c f code .rip
  gs' : c'.mem 30 = seen c f code .gs
  fs' : c'.mem 29 = seen c f code .fs
  es' : c'.mem 28 = seen c f code .es
  ds' : c'.mem 27 = seen c f code .ds
  cs' : c'.mem 26 = seen c f code .cs
  ss' : c'.mem 25 = seen c f code .ss
  rdi' : c'.mem 24 = seen c f code .rdi
  rsi' : c'.mem 23 = seen c f code .rsi
  rbp' : c'.mem 22 = seen c f code .rbp
  rsp' : c'.mem 21 = seen c f code .rsp
  rbx' : c'.mem 20 = seen c f code .rbx
  rdx' : c'.mem 19 = seen c f code .rdx
  rcx' : c'.mem 18 = seen c f code .rcx
  rax' : c'.mem 17 = seen c f code .rax
  r8' : c'.mem 16 = seen c f code .r8
  r9' : c'.mem 15 = seen c f code .r9
  r10' : c'.mem 14 = seen c f code .r10
  r11' : c'.mem 13 = seen c f code .r11
  r12' : c'.mem 12 = seen c f code .r12
  r13' : c'.mem 11 = seen c f code .r13
  r14' : c'.mem 10 = seen c f code .r14
  r15' : c'.mem 9 = seen c f code .r15

theorem save1_spec {c c0 : Cpu} {f : Frame} {code : Option Val} {v : Nat} (h : Norm c f code v c0) :
    ∃ c1, exec save1 c0 = some c1 ∧ Saved c f code v c1 := by
  obtain ⟨reg, sys, fx, idtr, gdtr, mem, zf, rfl, h⟩ : ∃ reg sys fx idtr gdtr mem zf, c0 = ⟨reg, sys, fx, idtr, gdtr, 7, mem, zf⟩ ∧ Norm c f code v c0 := by
    obtain ⟨reg, sys, fx, idtr, gdtr, sp, mem, zf⟩ := c0
    have := h.sp
    simp only at this
    subst this
    exact ⟨_, _, _, _, _, _, _, rfl, h⟩
  have h1 := h.reg
  have h2 := h.sys
  have h3 := h.fx
  have h4 := h.idtr
  have h5 := h.gdtr
  simp only at h1 h2 h3 h4 h5
  subst h1 h2 h3 h4 h5
  exact ⟨_, rfl, ⟨rfl, rfl, h.vector, h.errorCode, h.above, rfl, rfl, rfl, rfl, rfl, rfl, rfl, rfl, rfl, rfl, rfl, rfl, rfl, rfl, h.rflags, rfl, rfl, rfl, rfl, rfl, rfl, h.rip, rfl, rfl, rfl, rfl, congrArg Val.low16 h.cs, congrArg Val.low16 h.ss, rfl, rfl, rfl, h.rsp, rfl, rfl, rfl, rfl, rfl, rfl, rfl, rfl, rfl, rfl, rfl, rfl⟩⟩

theorem save2_spec (c : Cpu) (hsp : c.sp = 50) (h15 : c.reg .r15 = .ptr 7) :
    ∃ c', exec save2 c = some c' ∧ c'.sp = 120 ∧ c'.reg .rcx = c.mem 7 ∧ c'.reg .rdx = .ptr 115 ∧ c'.reg .r15 = .ptr 7 ∧ c'.mem 115 = c.mem 6 ∧
      c'.sys = c.sys ∧ ∀ x, x < 115 → c'.mem x = if 51 ≤ x then c.fx (114 - x) else c.mem x := by
  have hc : c = { c with reg := fun x => if x = .r15 then .ptr 7 else c.reg x, sp := 50 } := by
    obtain ⟨reg, sys, fx, idtr, gdtr, sp, mem, zf⟩ := c
    simp only at h15 hsp
    subst hsp
    congr 1
    funext x
    by_cases hx : x = .r15
    · rw [if_pos hx, hx, h15]
    · rw [if_neg hx]
  generalize c.reg = reg at hc
  rw [hc]
  refine ⟨{ c with
      reg := fun x => if x = .rdx then .ptr 115 else if x = .rcx then c.mem 7 else if x = .rax then .ptr 114 else if x = .r15 then .ptr 7 else reg x
      sp := 120
      mem := fun x => if x = 115 then c.mem 6 else if 51 ≤ x ∧ x ≤ 114 then c.fx (114 - x) else c.mem x }, ?_, rfl, rfl, rfl, rfl, rfl, rfl, ?_⟩
  · rfl
  · intro x hx
    simp only
    rw [if_neg (by omega)]
    by_cases h : 51 ≤ x
    · rw [if_pos ⟨h, by omega⟩, if_pos h]
    · rw [if_neg (fun e => h e.1), if_neg h]

/-- What the code up to the call leaves. -/
structure Called (c : Cpu) (f : Frame) (code : Option Val) (v : Nat) (c' : Cpu) : Prop where
  sp : c'.sp = 120
  rcx : c'.reg .rcx = .num v
  rdx : c'.reg .rdx = .ptr 115
  r15 : c'.reg .r15 = .ptr 7
  context : ∀ x : Field, c'.mem (115 - x.pos) = seen c f code x
  above : c'.mem 0 = c.mem 0
  sys : ∀ s, c'.sys s = if s = .cr4 then (c.sys .cr4).or 0x208 else c.sys s

theorem called_of {c c1 : Cpu} {f : Frame} {code : Option Val} {v : Nat} (h : Saved c f code v c1) :
    ∃ c', exec save2 c1 = some c' ∧ Called c f code v c' := by
  obtain ⟨c', h1, h2, h3, h4, h5, h6, h7, h8⟩ := save2_spec c1 h.sp h.r15
  have hlow : ∀ x, x < 51 → c'.mem x = c1.mem x := fun x hx => by
    rw [h8 x (by omega), if_neg (by omega)]
  refine ⟨c', h1, h2, h3.trans h.vector, h4, h5, ?_, (hlow 0 (by decide)).trans h.above, fun s => by rw [h7, h.sys]⟩
  intro x
  cases x with
  | exceptionData => exact h6.trans h.errorCode
  | fx i =>
    have hi := i.isLt
    show c'.mem (115 - (1 + i.val)) = c.fx i.val
    rw [h8 _ (by omega), if_pos (by omega), h.fx, show 114 - (115 - (1 + i.val)) = i.val by omega]
  | dr0 => exact (hlow 50 (by decide)).trans h.dr0'
  | dr1 => exact (hlow 49 (by decide)).trans h.dr1'
  | dr2 => exact (hlow 48 (by decide)).trans h.dr2'
  | dr3 => exact (hlow 47 (by decide)).trans h.dr3'
  | dr6 => exact (hlow 46 (by decide)).trans h.dr6'
  | dr7 => exact (hlow 45 (by decide)).trans h.dr7'
  | cr0 => exact (hlow 44 (by decide)).trans h.cr0'
  | cr1 => exact (hlow 43 (by decide)).trans h.cr1'
  | cr2 => exact (hlow 42 (by decide)).trans h.cr2'
  | cr3 => exact (hlow 41 (by decide)).trans h.cr3'
  | cr4 => exact (hlow 40 (by decide)).trans h.cr4'
  | cr8 => exact (hlow 39 (by decide)).trans h.cr8'
  | rflags => exact (hlow 38 (by decide)).trans h.rflags'
  | ldtr => exact (hlow 37 (by decide)).trans h.ldtr'
  | tr => exact (hlow 36 (by decide)).trans h.tr'
  | gdtr0 => exact (hlow 35 (by decide)).trans h.gdtr0'
  | gdtr1 => exact (hlow 34 (by decide)).trans h.gdtr1'
  | idtr0 => exact (hlow 33 (by decide)).trans h.idtr0'
  | idtr1 => exact (hlow 32 (by decide)).trans h.idtr1'
  | rip => exact (hlow 31 (by decide)).trans h.rip'
  | gs => exact (hlow 30 (by decide)).trans h.gs'
  | fs => exact (hlow 29 (by decide)).trans h.fs'
  | es => exact (hlow 28 (by decide)).trans h.es'
  | ds => exact (hlow 27 (by decide)).trans h.ds'
  | cs => exact (hlow 26 (by decide)).trans h.cs'
  | ss => exact (hlow 25 (by decide)).trans h.ss'
  | rdi => exact (hlow 24 (by decide)).trans h.rdi'
  | rsi => exact (hlow 23 (by decide)).trans h.rsi'
  | rbp => exact (hlow 22 (by decide)).trans h.rbp'
  | rsp => exact (hlow 21 (by decide)).trans h.rsp'
  | rbx => exact (hlow 20 (by decide)).trans h.rbx'
  | rdx => exact (hlow 19 (by decide)).trans h.rdx'
  | rcx => exact (hlow 18 (by decide)).trans h.rcx'
  | rax => exact (hlow 17 (by decide)).trans h.rax'
  | r8 => exact (hlow 16 (by decide)).trans h.r8'
  | r9 => exact (hlow 15 (by decide)).trans h.r9'
  | r10 => exact (hlow 14 (by decide)).trans h.r10'
  | r11 => exact (hlow 13 (by decide)).trans h.r11'
  | r12 => exact (hlow 12 (by decide)).trans h.r12'
  | r13 => exact (hlow 11 (by decide)).trans h.r13'
  | r14 => exact (hlow 10 (by decide)).trans h.r14'
  | r15 => exact (hlow 9 (by decide)).trans h.r15'

theorem save_called {c c0 : Cpu} {f : Frame} {code : Option Val} {v : Nat} (h : Norm c f code v c0) :
    ∃ c', exec save c0 = some c' ∧ Called c f code v c' := by
  obtain ⟨c1, h1, h2⟩ := save1_spec h
  rw [show save = save1 ++ save2 from rfl, exec_append, h1]
  exact called_of h2

theorem enter_none (c : Cpu) (f : Frame) (v here : Nat) (hv : noCode v = true) : ∃ c', enter c f none v here = some c' ∧ Called c f none v c' := by
  obtain ⟨c1, h1, h2, c2, h3, h4⟩ := norm_none c f v here
  unfold enter
  rw [h1]
  simp only
  rw [if_pos (h2.trans hv), exec_append, h3]
  exact save_called h4

theorem enter_some (c : Cpu) (f : Frame) (e : Val) (v here : Nat) (hv : noCode v = false) :
    ∃ c', enter c f (some e) v here = some c' ∧ Called c f (some e) v c' := by
  obtain ⟨c1, h1, h2, h4⟩ := norm_some c f e v here
  unfold enter
  rw [h1]
  simp only
  rw [if_neg (by rw [h2, hv]; decide)]
  exact save_called h4

theorem enter_right {c : Cpu} {f : Frame} {code : Option Val} {v : Nat} (here : Nat) (hv : v < 64 ∨ ¬ hasErrorCode (v % 64))
    (hc : code.isSome = true ↔ hasErrorCode v) :
    ∃ c', enter c f code v here = some c' ∧ Called c f code v c' := by
  have hn : hasErrorCode v ↔ hasErrorCode (v % 64) := by
    rcases hv with hv | hv
    · rw [Nat.mod_eq_of_lt hv]
    · constructor
      · intro h
        have : v < 64 := by
          have h2 : ∀ v ∈ [8, 10, 11, 12, 13, 14, 17, 21, 29, 30], v < 64 := by decide
          exact h2 v h
        rw [Nat.mod_eq_of_lt this]; exact h
      · intro h; exact absurd h hv
  cases code with
  | none =>
    refine enter_none c f v here ((noCode_iff v).2 fun h => ?_)
    have := hc.2 (hn.2 h)
    cases this
  | some e =>
    refine enter_some c f e v here ?_
    cases h : noCode v with
    | false => rfl
    | true => exact absurd (hn.1 (hc.1 rfl)) ((noCode_iff v).1 h)

theorem low16_of {v : Val} (h : ∃ n, n < 65536 ∧ v = .num n) : v.low16 = v := by
  obtain ⟨n, hn, rfl⟩ := h
  show Val.num (n % 65536) = _
  rw [Nat.mod_eq_of_lt hn]

/-- C94, for the vectors below 64 and those that are not 64, 128 or 192 above a vector with an error code: the handler is called with the vector and a
context in the layout of the UEFI specification that holds the registers of the interrupted program and the error code, zero if there is none.
Control register 4 is shown with two bits set: see `cr4_changed`. The stack is aligned to 16 bytes at the call. -/
theorem handler_sees_partial (c : Cpu) (f : Frame) (code : Option Val) (v here cr4 : Nat) (hs : Sane c f cr4)
    (hv : v < 64 ∨ ¬ hasErrorCode (v % 64)) (hc : code.isSome = true ↔ hasErrorCode v) :
    ∃ c' p, enter c f code v here = some c' ∧ c'.reg .rcx = .num v ∧ c'.reg .rdx = .ptr p ∧ c'.sp % 2 = 0 ∧
      (∀ x : Field, x ≠ .cr4 → c'.mem (p - x.pos) = actual c f code x) ∧
      c'.mem (p - Field.cr4.pos) = .num (cr4 ||| 0x208) := by
  obtain ⟨c', h1, ⟨h2, h3, h4, h5, h6, h7, _⟩⟩ := enter_right (c := c) (f := f) here hv hc
  refine ⟨c', 115, h1, h3, h4, by rw [h2], ?_, ?_⟩
  · intro x hx
    rw [h6 x]
    cases x with
    | cr4 => exact absurd rfl hx
    | cs => exact low16_of hs.cs
    | ss => exact low16_of hs.ss
    | _ => rfl
  · rw [h6]
    show (c.sys .cr4).or 0x208 = _
    rw [hs.cr4]; rfl

set_option maxRecDepth 10000 in
theorem leave_spec (c : Cpu) (a : After) (h15 : c.reg .r15 = .ptr 7) (hsp : c.sp = 120) :
    ∃ c', leave c 115 a = some (c', ⟨a.context Field.ss.pos, a.context Field.rsp.pos, a.context Field.rflags.pos, a.context Field.cs.pos, a.context Field.rip.pos⟩) ∧
      (∀ r : Reg, c'.reg r = a.context r.field.pos) ∧
      c'.sys .cr0 = a.context Field.cr0.pos ∧ c'.sys .cr2 = a.context Field.cr2.pos ∧ c'.sys .cr3 = a.context Field.cr3.pos ∧
      c'.sys .cr4 = a.context Field.cr4.pos ∧ c'.sys .cr8 = a.context Field.cr8.pos ∧
      (∀ s, s ∉ [Sys.cr0, .cr2, .cr3, .cr4, .cr8] → c'.sys s = a.sys s) ∧
      (∀ i : Fin 64, c'.fx i = a.context (Field.fx i).pos) ∧ c'.mem 0 = c.mem 0 := by
  obtain ⟨reg, sys, fx, idtr, gdtr, mem, zf, rfl⟩ : ∃ (reg : Reg → Val) (sys : Sys → Val) (fx idtr gdtr mem : Nat → Val) (zf : Bool),
      c = ⟨fun x => if x = .r15 then .ptr 7 else reg x, sys, fx, idtr, gdtr, 120, mem, zf⟩ := by
    obtain ⟨reg, sys, fx, idtr, gdtr, sp, mem, zf⟩ := c
    simp only at h15 hsp
    subst hsp
    refine ⟨reg, sys, fx, idtr, gdtr, mem, zf, ?_⟩
    congr 1
    funext x
    by_cases hx : x = .r15
    · rw [if_pos hx, hx, h15]
    · rw [if_neg hx]
  refine ⟨_, rfl, ?_, rfl, rfl, rfl, rfl, rfl, ?_, ?_, rfl⟩
  · intro r
    cases r <;> rfl
  · intro s hs
    simp only [List.mem_cons, List.not_mem_nil, or_false, not_or] at hs
    cases s <;> first | rfl | (exfalso; simp at hs)
  · intro i
    have hi := i.isLt
    show ite _ _ _ = _
    rw [if_neg (by show ¬ (115 < 114 - i.val); omega)]
    show ite _ _ _ = _
    rw [if_pos (by show 115 < 114 - i.val + 107; omega)]
    show a.context (115 - (114 - i.val)) = a.context (1 + i.val)
    rw [show 115 - (114 - i.val) = 1 + i.val by omega]

/-- C94, for the same vectors: when the handler returns, the program continues with the registers the context then holds, whatever the handler did
to the registers themselves; debug and data segment registers are as the handler left them. The word above the frame is not touched. -/
theorem program_resumes_partial (c : Cpu) (f : Frame) (code : Option Val) (v here : Nat) (a : After)
    (hv : v < 64 ∨ ¬ hasErrorCode (v % 64)) (hc : code.isSome = true ↔ hasErrorCode v) :
    ∃ c' p c'', enter c f code v here = some c' ∧ c'.reg .rdx = .ptr p ∧
      leave c' p a = some (c'', ⟨a.context Field.ss.pos, a.context Field.rsp.pos, a.context Field.rflags.pos, a.context Field.cs.pos,
        a.context Field.rip.pos⟩) ∧
      (∀ r : Reg, c''.reg r = a.context r.field.pos) ∧
      c''.sys .cr0 = a.context Field.cr0.pos ∧ c''.sys .cr2 = a.context Field.cr2.pos ∧ c''.sys .cr3 = a.context Field.cr3.pos ∧
      c''.sys .cr4 = a.context Field.cr4.pos ∧ c''.sys .cr8 = a.context Field.cr8.pos ∧
      (∀ s, s ∉ [Sys.cr0, .cr2, .cr3, .cr4, .cr8] → c''.sys s = a.sys s) ∧
      (∀ i : Fin 64, c''.fx i = a.context (Field.fx i).pos) ∧ c''.mem 0 = c.mem 0 := by
  obtain ⟨c', h1, ⟨h2, h3, h4, h5, h6, h7, h8⟩⟩ := enter_right (c := c) (f := f) here hv hc
  obtain ⟨c'', g⟩ := leave_spec c' a h5 h2
  rw [h7] at g
  exact ⟨c', 115, c'', h1, h4, g⟩

/-- A handler that changes neither the context nor the system registers. -/
structure Quiet (c' : Cpu) (p : Nat) (a : After) : Prop where
  context : ∀ i, i < 107 → a.context i = c'.mem (p - i)
  sys : a.sys = c'.sys

theorem pos_lt (x : Field) : x.pos < 107 := by
  cases x with
  | fx i => have := i.isLt; show 1 + i.val < 107; omega
  | _ => decide

/-- C94, for the same vectors: a handler that changes nothing is not noticed by the program: it continues where it was, with all its registers, except
for the two bits of control register 4. -/
theorem unnoticed_partial (c : Cpu) (f : Frame) (code : Option Val) (v here cr4 : Nat) (hs : Sane c f cr4)
    (hv : v < 64 ∨ ¬ hasErrorCode (v % 64)) (hc : code.isSome = true ↔ hasErrorCode v) :
    ∃ c' p, enter c f code v here = some c' ∧ c'.reg .rdx = .ptr p ∧ ∀ a, Quiet c' p a →
      ∃ c'', leave c' p a = some (c'', f) ∧ (∀ r, c''.reg r = c.reg r) ∧ (∀ i : Fin 64, c''.fx i = c.fx i) ∧
        (∀ s, s ≠ .cr4 → c''.sys s = c.sys s) ∧ c''.sys .cr4 = .num (cr4 ||| 0x208) := by
  obtain ⟨c', h1, ⟨h2, h3, h4, h5, h6, h7, h8⟩⟩ := enter_right (c := c) (f := f) here hv hc
  refine ⟨c', 115, h1, h4, fun a ha => ?_⟩
  obtain ⟨c'', g1, g2, g3, g4, g5, g6, g7, g8, g9, -⟩ := leave_spec c' a h5 h2
  have hx : ∀ x : Field, a.context x.pos = seen c f code x := fun x => by
    rw [ha.context x.pos (pos_lt x), h6 x]
  simp only [hx] at g1 g2 g3 g4 g5 g6 g7 g9
  have hcs : seen c f code .cs = f.cs := low16_of hs.cs
  have hss : seen c f code .ss = f.ss := low16_of hs.ss
  rw [hcs, hss] at g1
  have h4 : c''.sys .cr4 = .num (cr4 ||| 0x208) := by
    rw [g6]
    show (c.sys .cr4).or 0x208 = _
    rw [hs.cr4]; rfl
  refine ⟨c'', g1, ?_, fun i => g9 i, ?_, h4⟩
  · intro r
    rw [g2 r]
    cases r <;> rfl
  · intro s hs'
    by_cases hm : s ∈ [Sys.cr0, .cr2, .cr3, .cr4, .cr8]
    · simp only [List.mem_cons, List.not_mem_nil, or_false] at hm
      rcases hm with rfl | rfl | rfl | rfl | rfl
      · exact g3
      · exact g4
      · exact g5
      · exact absurd rfl hs'
      · exact g7
    · rw [g8 s hm, ha.sys, h8 s, if_neg hs']

/-! ### What does not hold -/

set_option maxRecDepth 10000 in
theorem shifted_pre (c : Cpu) (f : Frame) (v here : Nat) :
    ∃ c1, exec (stub v here ++ test) (take c f none) = some c1 ∧ c1.zf = noCode v ∧ ∃ c', exec save c1 = some c' ∧
      c'.reg .rcx = .num v ∧ c'.reg .rdx = .ptr 114 ∧
      c'.mem (114 - Field.exceptionData.pos) = f.rip ∧ c'.mem (114 - Field.rip.pos) = f.cs ∧ c'.mem (114 - Field.rflags.pos) = f.rsp ∧
      c'.mem (114 - Field.rsp.pos) = f.ss ∧ c'.mem (114 - Field.ss.pos) = (c.mem 0).low16 ∧ c'.reg .r15 = .ptr 6 ∧ c'.sp = 119 :=
  ⟨_, rfl, rfl, _, rfl, rfl, rfl, rfl, rfl, rfl, rfl, rfl, rfl, rfl⟩

set_option maxRecDepth 10000 in
theorem shifted_leave (c : Cpu) (a : After) (h15 : c.reg .r15 = .ptr 6) (hsp : c.sp = 119) :
    ∃ c' f', leave c 114 a = some (c', f') ∧ f'.rip = a.context Field.rip.pos ∧ f'.rsp = a.context Field.rsp.pos ∧ c'.mem 0 = a.context Field.ss.pos := by
  obtain ⟨reg, sys, fx, idtr, gdtr, mem, zf, rfl⟩ : ∃ (reg : Reg → Val) (sys : Sys → Val) (fx idtr gdtr mem : Nat → Val) (zf : Bool),
      c = ⟨fun x => if x = .r15 then .ptr 6 else reg x, sys, fx, idtr, gdtr, 119, mem, zf⟩ := by
    obtain ⟨reg, sys, fx, idtr, gdtr, sp, mem, zf⟩ := c
    simp only at h15 hsp
    subst hsp
    refine ⟨reg, sys, fx, idtr, gdtr, mem, zf, ?_⟩
    congr 1
    funext x
    by_cases hx : x = .r15
    · rw [if_pos hx, hx, h15]
    · rw [if_neg hx]
  exact ⟨_, _, rfl, rfl, rfl, rfl⟩

/-- The other vectors: one that is 64, 128 or 192 above one with an error code is taken to have one. The handler sees the interrupted instruction
pointer as the error code, the code segment as the instruction pointer, the stack pointer as the flags, and so on; and if it returns without changing
anything, the processor continues at the number of the code segment, with the stack segment as stack pointer, and the word above the frame, which
belongs to the program, has been cut to 16 bits. -/
theorem shifted_frame (c : Cpu) (f : Frame) (v here : Nat) (hv : hasErrorCode (v % 64)) :
    ∃ c', enter c f none v here = some c' ∧ c'.reg .rcx = .num v ∧ c'.reg .rdx = .ptr 114 ∧
      c'.mem (114 - Field.exceptionData.pos) = f.rip ∧ c'.mem (114 - Field.rip.pos) = f.cs ∧ c'.mem (114 - Field.rflags.pos) = f.rsp ∧
      c'.mem (114 - Field.rsp.pos) = f.ss ∧ c'.mem (114 - Field.ss.pos) = (c.mem 0).low16 ∧ c'.sp % 2 = 1 ∧
      ∀ a, (∀ i, i < 107 → a.context i = c'.mem (114 - i)) → ∃ c'' f', leave c' 114 a = some (c'', f') ∧ f'.rip = f.cs ∧ f'.rsp = f.ss ∧
        c''.mem 0 = (c.mem 0).low16 := by
  have hv' : noCode v = false := by
    cases h : noCode v with
    | false => rfl
    | true => exact absurd hv ((noCode_iff v).1 h)
  obtain ⟨c1, h1, h2, h3⟩ := shifted_pre c f v here
  unfold enter
  rw [h1]
  simp only
  rw [if_neg (by rw [h2, hv']; decide)]
  obtain ⟨c', g1, g2, g3, g4, g5, g6, g7, g9, g10, g8⟩ := h3
  refine ⟨c', g1, g2, g3, g4, g5, g6, g7, g9, by rw [g8], fun a ha => ?_⟩
  obtain ⟨c'', f', k1, k2, k3, k4⟩ := shifted_leave c' a g10 g8
  rw [ha _ (pos_lt _)] at k2 k3 k4
  exact ⟨c'', f', k1, k2.trans g5, k3.trans g7, k4.trans g9⟩

/-- Device interrupts use such vectors: 72 to 94, 136 to 158 and 200 to 222 among others. -/
theorem shifted_vectors : (∀ v ∈ [72, 74, 75, 76, 77, 78, 81, 85, 93, 94, 136, 138, 139, 200], v < 256 ∧ 32 ≤ v ∧ ¬ hasErrorCode v ∧ hasErrorCode (v % 64)) := by
  decide

/-- An interrupt changes control register 4 of the program when it had not set both bits: it continues with debugging extensions on. -/
theorem cr4_changed (n : Nat) (h : n.testBit 3 = false) : n ||| 0x208 ≠ n := by
  intro e
  have := congrArg (fun k => k.testBit 3) e
  simp only [Nat.testBit_or, h, Bool.false_or] at this
  revert this
  decide

/-! ### An interrupt -/

def demoCpu : Cpu :=
  { reg := fun r => .num (match r with | .rax => 1 | .rbx => 2 | .rcx => 3 | .r15 => 15 | _ => 0)
    sys := fun s => .num (match s with | .cr4 => 0x668 | .cr3 => 0x1000 | .dr7 => 0x400 | _ => 0)
    fx := fun i => .num i
    idtr := fun _ => .num 0
    gdtr := fun _ => .num 0
    sp := 0
    mem := fun _ => .num 0
    zf := false }
def demoFrame : Frame := ⟨.num 0x30, .num 0x7f000, .num 0x202, .num 0x38, .num 0x401000⟩

theorem demo_sane : Sane demoCpu demoFrame 0x668 := ⟨⟨0x38, by decide, rfl⟩, ⟨0x30, by decide, rfl⟩, rfl⟩

example : Sane demoCpu demoFrame 0x668 ∧ (32 < 64 ∨ ¬ hasErrorCode (32 % 64)) ∧ ((none : Option Val).isSome = true ↔ hasErrorCode 32) ∧
    ((some (Val.num 2)).isSome = true ↔ hasErrorCode 14) ∧ 0x668 ||| 0x208 = 0x668 :=
  ⟨demo_sane, .inl (by decide), by decide, by decide, by decide⟩

end Verif.Entry.X64
