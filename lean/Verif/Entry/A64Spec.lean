import Verif.Entry.A64
/-!
What a handler should see, and how the program should continue, on AArch64.
-/
namespace Verif.Entry.A64

/-- The fields of `EFI_SYSTEM_CONTEXT_AARCH64` (UEFI 18.2.5); `x i` for `i ≤ 28`, `fp` and `lr` are the registers 29 and 30. -/
inductive Field where
  | x (i : Fin 29) | fp | lr | sp | v (i : Fin 32) (j : Fin 2) | elr | spsr | fpsr | esr | far
deriving DecidableEq, Repr

/-- Where each is, in words from the start of the structure. -/
def Field.pos : Field → Nat
  | .x i => i | .fp => 29 | .lr => 30 | .sp => 31 | .v i j => 32 + 2 * i + j
  | .elr => 96 | .spsr => 97 | .fpsr => 98 | .esr => 99 | .far => 100

/-- The value of a field when program `c` is interrupted; its stack pointer is the one it has selected. -/
def actual (c : Cpu) (y : Syndrome) : Field → Val
  | .x i => c.x i | .fp => c.x 29 | .lr => c.x 30 | .sp => .ptr c.sel 0 | .v i j => c.q i j
  | .elr => y.elr | .spsr => y.spsr | .fpsr => c.sys .fpsr | .esr => y.esr | .far => y.far

/-- The offset of the vector the processor takes for an exception of the current level (Arm ARM, D1.3.1.5, table D1-5). -/
def vectorOffset (sel kind : Nat) : Nat := (if sel = 0 then 0 else 0x200) + 0x80 * kind

/-- Program `c` is interrupted: the code at the vector runs up to the call of the handler. -/
def interrupted (c : Cpu) (y : Syndrome) (kind : Nat) : Option Cpu :=
  match vectors.lookup (vectorOffset c.sel kind) with
  | some (val, sp0) => enter c y val sp0
  | none => none

/-- The stack the context is put on: that of `SP_EL0` for synchronous exceptions of programs that use the other one. -/
def contextStack (sel kind : Nat) : Nat := if sel ≠ 0 ∧ kind = 0 then 0 else 1

end Verif.Entry.A64
