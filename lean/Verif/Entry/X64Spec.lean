import Verif.Entry.X64
/-!
What a handler should see, and where the program should continue.
-/
namespace Verif.Entry.X64

/-- The fields of `EFI_SYSTEM_CONTEXT_X64` (UEFI 18.2.5). -/
inductive Field where
  | exceptionData | fx (i : Fin 64)
  | dr0 | dr1 | dr2 | dr3 | dr6 | dr7 | cr0 | cr1 | cr2 | cr3 | cr4 | cr8 | rflags | ldtr | tr | gdtr0 | gdtr1 | idtr0 | idtr1 | rip
  | gs | fs | es | ds | cs | ss | rdi | rsi | rbp | rsp | rbx | rdx | rcx | rax | r8 | r9 | r10 | r11 | r12 | r13 | r14 | r15
deriving DecidableEq, Repr

/-- Where each is, in words from the start of the structure. -/
def Field.pos : Field → Nat
  | .exceptionData => 0
  | .fx i => 1 + i
  | .dr0 => 65 | .dr1 => 66 | .dr2 => 67 | .dr3 => 68 | .dr6 => 69 | .dr7 => 70
  | .cr0 => 71 | .cr1 => 72 | .cr2 => 73 | .cr3 => 74 | .cr4 => 75 | .cr8 => 76
  | .rflags => 77 | .ldtr => 78 | .tr => 79 | .gdtr0 => 80 | .gdtr1 => 81 | .idtr0 => 82 | .idtr1 => 83 | .rip => 84
  | .gs => 85 | .fs => 86 | .es => 87 | .ds => 88 | .cs => 89 | .ss => 90
  | .rdi => 91 | .rsi => 92 | .rbp => 93 | .rsp => 94 | .rbx => 95 | .rdx => 96 | .rcx => 97 | .rax => 98
  | .r8 => 99 | .r9 => 100 | .r10 => 101 | .r11 => 102 | .r12 => 103 | .r13 => 104 | .r14 => 105 | .r15 => 106

/-- The exceptions for which the processor pushes an error code (Intel SDM volume 3, table 6-1; AMD APM volume 2, 8.2 for 29 and 30). -/
def hasErrorCode (v : Nat) : Prop := v ∈ [8, 10, 11, 12, 13, 14, 17, 21, 29, 30]

instance (v : Nat) : Decidable (hasErrorCode v) := inferInstanceAs (Decidable (v ∈ _))

/-- The value of a field when program `c`, `f` is interrupted. Control register 1 does not exist. -/
def actual (c : Cpu) (f : Frame) (code : Option Val) : Field → Val
  | .exceptionData => code.getD (.num 0)
  | .fx i => c.fx i
  | .dr0 => c.sys .dr0 | .dr1 => c.sys .dr1 | .dr2 => c.sys .dr2 | .dr3 => c.sys .dr3 | .dr6 => c.sys .dr6 | .dr7 => c.sys .dr7
  | .cr0 => c.sys .cr0 | .cr1 => .num 0 | .cr2 => c.sys .cr2 | .cr3 => c.sys .cr3 | .cr4 => c.sys .cr4 | .cr8 => c.sys .cr8
  | .rflags => f.rflags | .ldtr => c.sys .ldtr | .tr => c.sys .tr
  | .gdtr0 => c.gdtr 0 | .gdtr1 => c.gdtr 1 | .idtr0 => c.idtr 0 | .idtr1 => c.idtr 1 | .rip => f.rip
  | .gs => c.sys .gs | .fs => c.sys .fs | .es => c.sys .es | .ds => c.sys .ds | .cs => f.cs | .ss => f.ss
  | .rdi => c.reg .rdi | .rsi => c.reg .rsi | .rbp => c.reg .rbp | .rsp => f.rsp
  | .rbx => c.reg .rbx | .rdx => c.reg .rdx | .rcx => c.reg .rcx | .rax => c.reg .rax
  | .r8 => c.reg .r8 | .r9 => c.reg .r9 | .r10 => c.reg .r10 | .r11 => c.reg .r11
  | .r12 => c.reg .r12 | .r13 => c.reg .r13 | .r14 => c.reg .r14 | .r15 => c.reg .r15

/-- The field of a general register. -/
def Reg.field : Reg → Field
  | .rax => .rax | .rbx => .rbx | .rcx => .rcx | .rdx => .rdx | .rsi => .rsi | .rdi => .rdi | .rbp => .rbp
  | .r8 => .r8 | .r9 => .r9 | .r10 => .r10 | .r11 => .r11 | .r12 => .r12 | .r13 => .r13 | .r14 => .r14 | .r15 => .r15

/-- What the model assumes of the program: selectors have 16 bits, the control register is a number. -/
structure Sane (c : Cpu) (f : Frame) (cr4 : Nat) : Prop where
  cs : ∃ n, n < 65536 ∧ f.cs = .num n
  ss : ∃ n, n < 65536 ∧ f.ss = .num n
  cr4 : c.sys .cr4 = .num cr4

end Verif.Entry.X64
