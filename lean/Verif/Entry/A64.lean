import Verif.Prelude
/-!
Model of the entry and exit of exceptions on AArch64, `core/patina_internal_cpu/src/interrupts/aarch64/exception_handler.asm`, instruction by
instruction, at exception level 2.

There are two stacks: number 1 is that of `SP_EL2`, which the processor selects when it takes an exception, number 0 that of `SP_EL0`. The words of a stack
are numbered downwards from where its pointer is when the exception is taken: word `d` is at `top - 8 * d`, and its address is `Val.ptr k d`.
Vector registers are two words. Subtractions of words stop at word 0, which is the word the stack pointer of the program points to: an access above it would
be one to word 0.
-/
namespace Verif.Entry.A64

/-- A value of 64 bits: a number or an address in a stack. -/
inductive Val where
  | num (n : Nat)
  | ptr (k d : Nat)
deriving DecidableEq, Repr

/-- System registers. -/
inductive Sys where
  | elr | spsr | esr | far | fpsr
deriving DecidableEq, Repr

/-- The processor and the stacks: `x i` are the general registers, `q i j` the words of the vector registers, `sp k` the two stack pointers as words of
their stack, `sel` the selected one, `masked` whether interrupts are disabled. -/
structure Cpu where
  x : Nat → Val
  q : Nat → Nat → Val
  sys : Sys → Val
  sp : Nat → Nat
  sel : Nat
  mem : Nat → Nat → Val
  masked : Bool

/-- Addressing: the base is the stack pointer or `x28`; with the offset, or changing the base before or after the access. Offsets in words, those before
the access downwards. -/
inductive Mode where
  | sp (k : Nat)
  | spPre (k : Nat)
  | spPost (k : Nat)
  | x28 (k : Nat)
  | x28Pre (k : Nat)
  | x28Post (k : Nat)
deriving DecidableEq, Repr

/-- The instructions the code uses. -/
inductive Instr where
  | spsel (k : Nat)
  | subSp (k : Nat)
  | addSp (k : Nat)
  | stp (a b : Nat) (m : Mode)
  | ldp (a b : Nat) (m : Mode)
  | str (a : Nat) (m : Mode)
  | ldr (a : Nat) (m : Mode)
  | stpq (a b : Nat) (m : Mode)
  | ldpq (a b : Nat) (m : Mode)
  | addFromSp (a k : Nat)
  | movSp (a : Nat)
  | mov (a b : Nat)
  | movImm (a n : Nat)
  | mrs (a : Nat) (s : Sys)
  | msr (s : Sys) (a : Nat)
  | daifset
deriving DecidableEq, Repr

def Cpu.setX (c : Cpu) (a : Nat) (v : Val) : Cpu := { c with x := fun i => if i = a then v else c.x i }
def Cpu.setQ (c : Cpu) (a : Nat) (v w : Val) : Cpu := { c with q := fun i j => if i = a then (if j = 0 then v else w) else c.q i j }
def Cpu.setMem (c : Cpu) (k d : Nat) (v : Val) : Cpu := { c with mem := fun i j => if i = k then (if j = d then v else c.mem i j) else c.mem i j }
def Cpu.setSp (c : Cpu) (d : Nat) : Cpu := { c with sp := fun k => if k = c.sel then d else c.sp k }

/-- The word an access starts at, and the state with the base changed. -/
def Cpu.at (c : Cpu) : Mode → Option (Nat × Nat × Cpu)
  | .sp k => some (c.sel, c.sp c.sel - k, c)
  | .spPre k => some (c.sel, c.sp c.sel + k, c.setSp (c.sp c.sel + k))
  | .spPost k => some (c.sel, c.sp c.sel, c.setSp (c.sp c.sel - k))
  | .x28 k => match c.x 28 with
    | .ptr s d => some (s, d - k, c)
    | .num _ => none
  | .x28Pre k => match c.x 28 with
    | .ptr s d => some (s, d + k, c.setX 28 (.ptr s (d + k)))
    | .num _ => none
  | .x28Post k => match c.x 28 with
    | .ptr s d => some (s, d, c.setX 28 (.ptr s (d - k)))
    | .num _ => none

/-- One instruction (Arm ARM, C6 and C7). -/
def step (c : Cpu) : Instr → Option Cpu
  | .spsel k => some { c with sel := k }
  | .subSp k => some (c.setSp (c.sp c.sel + k))
  | .addSp k => some (c.setSp (c.sp c.sel - k))
  | .stp a b m => match c.at m with
    | some (s, d, c') => some ((c'.setMem s d (c.x a)).setMem s (d - 1) (c.x b))
    | none => none
  | .ldp a b m => match c.at m with
    | some (s, d, c') => some ((c'.setX a (c.mem s d)).setX b (c.mem s (d - 1)))
    | none => none
  | .str a m => match c.at m with
    | some (s, d, c') => some (c'.setMem s d (c.x a))
    | none => none
  | .ldr a m => match c.at m with
    | some (s, d, c') => some (c'.setX a (c.mem s d))
    | none => none
  | .stpq a b m => match c.at m with
    | some (s, d, c') => some ((((c'.setMem s d (c.q a 0)).setMem s (d - 1) (c.q a 1)).setMem s (d - 2) (c.q b 0)).setMem s (d - 3) (c.q b 1))
    | none => none
  | .ldpq a b m => match c.at m with
    | some (s, d, c') => some ((c'.setQ a (c.mem s d) (c.mem s (d - 1))).setQ b (c.mem s (d - 2)) (c.mem s (d - 3)))
    | none => none
  | .addFromSp a k => some (c.setX a (.ptr c.sel (c.sp c.sel - k)))
  | .movSp a => some (c.setX a (.ptr c.sel (c.sp c.sel)))
  | .mov a b => some (c.setX a (c.x b))
  | .movImm a n => some (c.setX a (.num n))
  | .mrs a s => some (c.setX a (c.sys s))
  | .msr s a => some { c with sys := fun t => if t = s then c.x a else c.sys t }
  | .daifset => some { c with masked := true }

def exec : List Instr → Cpu → Option Cpu
  | [], c => some c
  | i :: is, c => match step c i with
    | some c' => exec is c'
    | none => none

/-- Lines 103-105, in words. -/
def gpSize : Nat := 32
def fpSize : Nat := 64
def sysSize : Nat := 6

/-- `ExceptionEntry`, lines 148-202; `sp0` says whether it is expanded with `SP0`. -/
def entry (val : Nat) (sp0 : Bool) : List Instr :=
  (if sp0 then [.spsel 0] else []) ++
  [.subSp (fpSize + sysSize),
   .stp 0 1 (.spPre gpSize), .stp 2 3 (.sp 2), .stp 4 5 (.sp 4), .stp 6 7 (.sp 6), .stp 8 9 (.sp 8), .stp 10 11 (.sp 10), .stp 12 13 (.sp 12),
   .stp 14 15 (.sp 14), .stp 16 17 (.sp 16), .stp 18 19 (.sp 18), .stp 20 21 (.sp 20), .stp 22 23 (.sp 22), .stp 24 25 (.sp 24),
   .stp 26 27 (.sp 26), .stp 28 29 (.sp 28),
   .addFromSp 28 (gpSize + fpSize + sysSize)] ++
  (if sp0 then [.spsel 1, .movSp 7, .spsel 0] else [.mov 7 28]) ++
  [.stp 30 7 (.sp 30), .movImm 0 val]

/-- `common_exception_routine` up to the call, lines 284-317. -/
def save : List Instr :=
  [.mrs 2 .elr, .mrs 3 .spsr, .mrs 5 .esr, .mrs 6 .far, .mrs 4 .fpsr,
   .stp 2 3 (.x28Pre sysSize), .stp 4 5 (.x28 2), .str 6 (.x28 4),
   .stpq 0 1 (.x28Pre fpSize), .stpq 2 3 (.x28 4), .stpq 4 5 (.x28 8), .stpq 6 7 (.x28 12), .stpq 8 9 (.x28 16), .stpq 10 11 (.x28 20),
   .stpq 12 13 (.x28 24), .stpq 14 15 (.x28 28), .stpq 16 17 (.x28 32), .stpq 18 19 (.x28 36), .stpq 20 21 (.x28 40), .stpq 22 23 (.x28 44),
   .stpq 24 25 (.x28 48), .stpq 26 27 (.x28 52), .stpq 28 29 (.x28 56), .stpq 30 31 (.x28 60),
   .movSp 1]

/-- From the return of the handler to `eret`, lines 322-378; `isb` is left out. -/
def restore : List Instr :=
  [.ldp 2 3 (.sp 2), .ldp 4 5 (.sp 4), .ldp 6 7 (.sp 6), .ldp 8 9 (.sp 8), .ldp 10 11 (.sp 10), .ldp 12 13 (.sp 12), .ldp 14 15 (.sp 14),
   .ldp 16 17 (.sp 16), .ldp 18 19 (.sp 18), .ldp 20 21 (.sp 20), .ldp 22 23 (.sp 22), .ldp 24 25 (.sp 24), .ldp 26 27 (.sp 26),
   .ldp 0 1 (.spPost 28),
   .ldpq 2 3 (.x28 4), .ldpq 4 5 (.x28 8), .ldpq 6 7 (.x28 12), .ldpq 8 9 (.x28 16), .ldpq 10 11 (.x28 20), .ldpq 12 13 (.x28 24),
   .ldpq 14 15 (.x28 28), .ldpq 16 17 (.x28 32), .ldpq 18 19 (.x28 36), .ldpq 20 21 (.x28 40), .ldpq 22 23 (.x28 44), .ldpq 24 25 (.x28 48),
   .ldpq 26 27 (.x28 52), .ldpq 28 29 (.x28 56), .ldpq 30 31 (.x28 60), .ldpq 0 1 (.x28Post fpSize),
   .ldp 29 30 (.x28 0), .ldr 28 (.x28 2), .msr .fpsr 28,
   .daifset,
   .msr .elr 29, .msr .spsr 30,
   .ldr 30 (.sp 2), .ldp 28 29 (.spPost 4),
   .addSp (fpSize + sysSize)]

/-- The sixteen vectors, lines 204-280: offset, kind of exception, and whether the entry switches to the stack of `SP_EL0`. -/
def vectors : List (Nat × Nat × Bool) :=
  [(0x000, 0, false), (0x080, 1, false), (0x100, 2, false), (0x180, 3, false),
   (0x200, 0, true), (0x280, 1, false), (0x300, 2, false), (0x380, 3, false),
   (0x400, 0, false), (0x480, 1, false), (0x500, 2, false), (0x580, 3, false),
   (0x600, 0, false), (0x680, 1, false), (0x700, 2, false), (0x780, 3, false)]

/-- What the processor records of the program: where it was, its state, why it was interrupted. -/
structure Syndrome where
  elr : Val
  spsr : Val
  esr : Val
  far : Val
deriving DecidableEq, Repr

/-- The exception is taken (Arm ARM, D1.3): `SP_EL2` is selected, interrupts are masked. The words of the stacks are counted from the stack pointers. -/
def take (c : Cpu) (y : Syndrome) : Cpu :=
  { c with
    sel := 1
    masked := true
    sp := fun _ => 0
    sys := fun s => match s with | .elr => y.elr | .spsr => y.spsr | .esr => y.esr | .far => y.far | .fpsr => c.sys .fpsr }

/-- From the exception to the call of `exception_handler`, line 320. -/
def enter (c : Cpu) (y : Syndrome) (val : Nat) (sp0 : Bool) : Option Cpu := exec (entry val sp0 ++ save) (take c y)

/-- What a handler leaves: the words of the context, the registers it need not keep, the vector and system registers, and what is below the context. -/
structure After where
  context : Nat → Val
  x : Nat → Val
  q : Nat → Nat → Val
  sys : Sys → Val
  below : Nat → Val
  masked : Bool

/-- The call returns: `x19` to `x29` and the stack pointer are kept (AAPCS64 6.1.1), the context of 102 words at word `d` of stack `k` may be changed, and
everything above it is as it was. The other stack may be used below its pointer. -/
def handled (c : Cpu) (k d : Nat) (a : After) : Cpu :=
  { c with
    x := fun i => if 19 ≤ i ∧ i ≤ 29 then c.x i else a.x i
    q := a.q
    sys := a.sys
    masked := a.masked
    mem := fun s w => if s = k then (if d < w then a.below w else if d < w + 102 then a.context (d - w) else c.mem s w)
      else if w = 0 then c.mem s w else a.below w }

/-- From the return of the handler to the program: the processor takes the address and the state from the two registers (`eret`, line 380). -/
def leave (c : Cpu) (k d : Nat) (a : After) : Option Cpu := exec restore (handled c k d a)

end Verif.Entry.A64
