import Verif.Prelude
/-!
Model of the entry and exit of exceptions on x64, `core/patina_internal_cpu/src/interrupts/x64/interrupt_handler.asm`, instruction by
instruction.

The words of the stack the exception uses are numbered from where the processor starts to push, downwards: word `d` is at `top - 8 * d`, and an
address in it is `Val.ptr d`. All accesses of the code are to whole words. The stored tables `sidt` and `sgdt` are two opaque words each, the
floating point state 64 of them. Instructions that would fault in the model (an address that is not one, shifting an address) give `none`.
-/
namespace Verif.Entry.X64

/-- A value of 64 bits: a number or an address in the stack. -/
inductive Val where
  | num (n : Nat)
  | ptr (d : Nat)
deriving DecidableEq, Repr

/-- The low 16 bits, and the bitwise or; the code uses them for selectors and control registers, which are not addresses in the stack: for these the
value is arbitrary. -/
def Val.low16 : Val → Val
  | .num n => .num (n % 65536)
  | .ptr d => .ptr d
def Val.or : Val → Nat → Val
  | .num k, n => .num (k ||| n)
  | .ptr d, _ => .ptr d

inductive Reg where
  | rax | rbx | rcx | rdx | rsi | rdi | rbp | r8 | r9 | r10 | r11 | r12 | r13 | r14 | r15
deriving DecidableEq, Repr

/-- Control, debug and segment registers. -/
inductive Sys where
  | cr0 | cr2 | cr3 | cr4 | cr8 | dr0 | dr1 | dr2 | dr3 | dr6 | dr7 | ds | es | fs | gs | tr | ldtr
deriving DecidableEq, Repr

/-- The processor and the stack. `rsp` is `ptr sp`. -/
structure Cpu where
  reg : Reg → Val
  sys : Sys → Val
  fx : Nat → Val
  idtr : Nat → Val
  gdtr : Nat → Val
  sp : Nat
  mem : Nat → Val
  zf : Bool

/-- `[rsp + 8 * k]` and `[r15 + 8 * k]`. -/
inductive Addr where
  | rsp (k : Nat)
  | r15 (k : Nat)
deriving DecidableEq, Repr

inductive Src where
  | reg (r : Reg)
  | mem (a : Addr)
  | imm (n : Nat)
deriving DecidableEq, Repr

/-- The instructions the code uses. Displacements and sizes are in words where they concern the stack. -/
inductive Instr where
  | push (s : Src)
  | pop (r : Reg)
  | popMem (a : Addr)
  | mov (r : Reg) (s : Src)
  | movMem (a : Addr) (s : Src)
  | movzx (r : Reg) (a : Addr)
  | movSys (r : Reg) (s : Sys)
  | setSys (s : Sys) (r : Reg)
  | xchg (r : Reg) (a : Addr)
  | subRsp (k : Nat)
  | addRsp (k : Nat)
  | movRsp (r : Reg)
  | addPtr (r : Reg) (k : Nat)
  | zero (r : Reg)
  | shlCl (r : Reg)
  | and (r : Reg) (n : Nat)
  | or (r : Reg) (n : Nat)
  | sidt
  | sgdt
  | fxsave (r : Reg)
  | fxrstor (r : Reg)
deriving DecidableEq, Repr

def Cpu.setReg (c : Cpu) (r : Reg) (v : Val) : Cpu := { c with reg := fun x => if x = r then v else c.reg x }
def Cpu.setMem (c : Cpu) (d : Nat) (v : Val) : Cpu := { c with mem := fun x => if x = d then v else c.mem x }

/-- The word an address names. -/
def Cpu.word (c : Cpu) : Addr → Option Nat
  | .rsp k => some (c.sp - k)
  | .r15 k => match c.reg .r15 with
    | .ptr d => some (d - k)
    | .num _ => none

def Cpu.read (c : Cpu) : Src → Option Val
  | .reg r => some (c.reg r)
  | .imm n => some (.num n)
  | .mem a => match c.word a with
    | some d => some (c.mem d)
    | none => none

/-- One instruction (Intel SDM volume 2). -/
def step (c : Cpu) : Instr → Option Cpu
  | .push s => match c.read s with
    | some v => some ({ c with sp := c.sp + 1 }.setMem (c.sp + 1) v)
    | none => none
  | .pop r => some ({ c with sp := c.sp - 1 }.setReg r (c.mem c.sp))
  | .popMem a => match c.word a with
    | some d => some ({ c with sp := c.sp - 1 }.setMem d (c.mem c.sp))
    | none => none
  | .mov r s => match c.read s with
    | some v => some (c.setReg r v)
    | none => none
  | .movMem a s => match c.word a, c.read s with
    | some d, some v => some (c.setMem d v)
    | _, _ => none
  | .movzx r a => match c.word a with
    | some d => some (c.setReg r (c.mem d).low16)
    | none => none
  | .movSys r s => some (c.setReg r (c.sys s))
  | .setSys s r => some { c with sys := fun x => if x = s then c.reg r else c.sys x }
  | .xchg r a => match c.word a with
    | some d => some ((c.setReg r (c.mem d)).setMem d (c.reg r))
    | none => none
  | .subRsp k => some { c with sp := c.sp + k }
  | .addRsp k => some { c with sp := c.sp - k }
  | .movRsp r => some (c.setReg r (.ptr c.sp))
  | .addPtr r k => match c.reg r with
    | .ptr d => some (c.setReg r (.ptr (d - k)))
    | .num _ => none
  | .zero r => some (c.setReg r (.num 0))
  | .shlCl r => match c.reg r, c.reg .rcx with
    | .num n, .num k => some (c.setReg r (.num ((n <<< (k % 256 % 64)) % 2 ^ 64)))
    | _, _ => none
  | .and r n => match c.reg r with
    | .num k => some { c.setReg r (.num (k &&& n)) with zf := (k &&& n) == 0 }
    | .ptr _ => none
  | .or r n => some (c.setReg r ((c.reg r).or n))
  | .sidt => some { c with mem := fun x => if x = c.sp then c.idtr 0 else if x + 1 = c.sp then c.idtr 1 else c.mem x }
  | .sgdt => some { c with mem := fun x => if x = c.sp then c.gdtr 0 else if x + 1 = c.sp then c.gdtr 1 else c.mem x }
  | .fxsave r => match c.reg r with
    | .ptr p => some { c with mem := fun x => if p - 63 ≤ x ∧ x ≤ p then c.fx (p - x) else c.mem x }
    | .num _ => none
  | .fxrstor r => match c.reg r with
    | .ptr p => some { c with fx := fun i => c.mem (p - i) }
    | .num _ => none

def exec : List Instr → Cpu → Option Cpu
  | [], c => some c
  | i :: is, c => match step c i with
    | some c' => exec is c'
    | none => none

/-- The words the processor pushes, and the stack pointer it starts from is word 0. -/
structure Frame where
  ss : Val
  rsp : Val
  rflags : Val
  cs : Val
  rip : Val
deriving DecidableEq, Repr

/-- The exception is taken (Intel SDM volume 3, 6.14): the frame is pushed, and the error code of the exceptions that have one. -/
def take (c : Cpu) (f : Frame) (code : Option Val) : Cpu :=
  let c := { c with sp := 5, mem := fun x =>
    if x = 1 then f.ss else if x = 2 then f.rsp else if x = 3 then f.rflags else if x = 4 then f.cs else if x = 5 then f.rip else c.mem x }
  match code with
  | none => c
  | some e => { c with sp := 6, mem := fun x => if x = 6 then e else c.mem x }

/-- Lines 22-26: the code of the vector, `here` the address of the common entry. -/
def stub (v here : Nat) : List Instr :=
  [.subRsp 1, .movMem (.rsp 0) (.imm v), .push (.reg .rax), .mov .rax (.imm here)]

/-- Line 32. -/
def vectorsWithErrorCodes : Nat := 0x60227D00

/-- Lines 42-53. -/
def test : List Instr :=
  [.xchg .rcx (.rsp 1), .mov .rax (.imm 1), .shlCl .rax, .and .rax vectorsWithErrorCodes, .pop .rax, .xchg .rcx (.rsp 0)]

/-- Lines 59-60. -/
def inject : List Instr := [.push (.mem (.rsp 0)), .movMem (.rsp 1) (.imm 0)]

/-- Lines 64-208: the context is built and the arguments of the call are set. -/
def save : List Instr :=
  [.push (.imm 0), .push (.reg .r15), .movRsp .r15, .addPtr .r15 2,
   .push (.reg .r14), .push (.reg .r13), .push (.reg .r12), .push (.reg .r11), .push (.reg .r10), .push (.reg .r9), .push (.reg .r8),
   .push (.reg .rax), .push (.reg .rcx), .push (.reg .rdx), .push (.reg .rbx), .push (.mem (.r15 5)), .push (.reg .rbp), .push (.reg .rsi),
   .push (.reg .rdi),
   .movzx .rax (.r15 6), .push (.reg .rax), .movzx .rax (.r15 3), .push (.reg .rax),
   .movSys .rax .ds, .push (.reg .rax), .movSys .rax .es, .push (.reg .rax), .movSys .rax .fs, .push (.reg .rax), .movSys .rax .gs, .push (.reg .rax),
   .push (.mem (.r15 2)),
   .subRsp 2, .sidt, .subRsp 2, .sgdt,
   .zero .rax, .movSys .rax .tr, .push (.reg .rax), .movSys .rax .ldtr, .push (.reg .rax),
   .push (.mem (.r15 4)),
   .movSys .rax .cr8, .push (.reg .rax), .movSys .rax .cr4, .or .rax 0x208, .setSys .cr4 .rax, .push (.reg .rax),
   .movSys .rax .cr3, .push (.reg .rax), .movSys .rax .cr2, .push (.reg .rax), .zero .rax, .push (.reg .rax), .movSys .rax .cr0, .push (.reg .rax),
   .movSys .rax .dr7, .push (.reg .rax), .movSys .rax .dr6, .push (.reg .rax), .movSys .rax .dr3, .push (.reg .rax),
   .movSys .rax .dr2, .push (.reg .rax), .movSys .rax .dr1, .push (.reg .rax), .movSys .rax .dr0, .push (.reg .rax),
   .subRsp 64, .movRsp .rax, .fxsave .rax,
   .push (.mem (.r15 1)),
   .mov .rcx (.mem (.r15 0)), .movRsp .rdx, .subRsp 5]

/-- Lines 210-282: the context is unwound. -/
def restore : List Instr :=
  [.addRsp 5, .addRsp 1, .movRsp .rsi, .fxrstor .rsi, .addRsp 64, .addRsp 6,
   .pop .rax, .setSys .cr0 .rax, .addRsp 1, .pop .rax, .setSys .cr2 .rax, .pop .rax, .setSys .cr3 .rax, .pop .rax, .setSys .cr4 .rax,
   .pop .rax, .setSys .cr8 .rax,
   .popMem (.r15 4), .addRsp 6, .popMem (.r15 2),
   .pop .rax, .pop .rax, .pop .rax, .pop .rax, .popMem (.r15 3), .popMem (.r15 6),
   .pop .rdi, .pop .rsi, .pop .rbp, .popMem (.r15 5), .pop .rbx, .pop .rdx, .pop .rcx, .pop .rax,
   .pop .r8, .pop .r9, .pop .r10, .pop .r11, .pop .r12, .pop .r13, .pop .r14, .pop .r15,
   .addRsp 3]

/-- From the exception to the call of `exception_handler` (line 209). -/
def enter (c : Cpu) (f : Frame) (code : Option Val) (v here : Nat) : Option Cpu :=
  match exec (stub v here ++ test) (take c f code) with
  | some c => if c.zf then exec (inject ++ save) c else exec save c
  | none => none

/-- The registers a function keeps (UEFI 2.3.4.1, Microsoft x64). -/
def kept : Reg → Bool
  | .rbx | .rbp | .rdi | .rsi | .r12 | .r13 | .r14 | .r15 => true
  | _ => false

/-- What a handler leaves: the words of the context, the registers it need not keep, the system registers, the floating point state, and what is below
the context. -/
structure After where
  context : Nat → Val
  reg : Reg → Val
  sys : Sys → Val
  fx : Nat → Val
  below : Nat → Val
  zf : Bool

/-- The call returns. The context has 107 words from word 115, where `rdx` pointed, upwards; everything above it is as it was. -/
def handled (c : Cpu) (p : Nat) (a : After) : Cpu :=
  { c with
    reg := fun r => if kept r then c.reg r else a.reg r
    sys := a.sys
    fx := a.fx
    zf := a.zf
    mem := fun x => if p < x then a.below x else if p < x + 107 then a.context (p - x) else c.mem x }

/-- `iretq` (line 285). -/
def iret (c : Cpu) : Frame := ⟨c.mem (c.sp - 4), c.mem (c.sp - 3), c.mem (c.sp - 2), c.mem (c.sp - 1), c.mem c.sp⟩

/-- From the return of the handler to where the processor continues. -/
def leave (c : Cpu) (p : Nat) (a : After) : Option (Cpu × Frame) :=
  match exec restore (handled c p a) with
  | some c => some (c, iret c)
  | none => none

end Verif.Entry.X64
