import Verif.Bytes
/-!
Model of the registers of the debugger, `core/patina_debugger/src/arch/x64.rs` lines 209-375 and `arch/aarch64.rs` lines 304-452.

* The registers of a context are numbers below 2^64.
* The arrays and fields of `X64CoreRegs` and `Aarch64CoreRegs` are one list of values in the order of their declaration. The floating point registers are
  not in it: they are always zero.
* A failing `gdb_deserialize` leaves registers behind that are not used: it is `none`.
-/
namespace Verif.Debugger

/-- `bytes[off..off + n]`. -/
def slice (bytes : List UInt8) (off n : Nat) : List UInt8 := (bytes.drop off).take n

/-- The macro `read!`, x64.rs lines 274-284 and aarch64.rs lines 352-362, at an offset. -/
def readAt (bytes : List UInt8) (off n : Nat) : Option Nat := if bytes.length < off + n then none else some (leVal (slice bytes off n))

/-- `read!` from the field `i` on, for fields of the sizes `ns`: the offset goes up by eight whatever the size (x64.rs line 282). -/
def readAll (bytes : List UInt8) : Nat → List Nat → Option (List Nat)
  | _, [] => some []
  | off, n :: ns => match readAt bytes off n with
    | none => none
    | some v => match readAll bytes (off + 8) ns with
      | none => none
      | some vs => some (v :: vs)

/-! ### x64 -/

/-- The registers of `ExceptionContext` of x64 that are used, and two that are not. -/
inductive XReg where
  | rax | rbx | rcx | rdx | rsi | rdi | rbp | rsp | r8 | r9 | r10 | r11 | r12 | r13 | r14 | r15 | rip | rflags
  | cs | ss | ds | es | fs | gs | cr0 | cr2 | cr3 | cr4 | cr8 | exceptionData
deriving DecidableEq, Repr

abbrev XCtx := XReg → Nat

namespace XRegs

/-- `from_context`, lines 309-346. -/
def fromContext (c : XCtx) : List Nat :=
  [c .rax, c .rbx, c .rcx, c .rdx, c .rsi, c .rdi, c .rbp, c .rsp, c .r8, c .r9, c .r10, c .r11, c .r12, c .r13, c .r14, c .r15, c .rip, c .rflags,
    c .cs % 2 ^ 32, c .ss % 2 ^ 32, c .ds % 2 ^ 32, c .es % 2 ^ 32, c .fs % 2 ^ 32, c .gs % 2 ^ 32, c .cr0, c .cr2, c .cr3, c .cr4]

/-- `gdb_serialize`, lines 234-266: the floating point registers are 28 and 90 bytes. -/
def serialize (v : List Nat) : List UInt8 :=
  (v.take 18).flatMap (leBytes 8) ++ (((v.drop 18).take 6).flatMap (leBytes 4) ++ ((v.drop 24).flatMap (leBytes 8) ++ (List.replicate 28 0 ++ List.replicate 90 0)))

/-- `gdb_deserialize`, lines 268-304. -/
def deserialize (bytes : List UInt8) : Option (List Nat) := readAll bytes 0 (List.replicate 18 8 ++ List.replicate 6 4 ++ List.replicate 4 8)

/-- `write_to_context`, lines 348-380. -/
def writeToContext (v : List Nat) (c : XCtx) : XCtx := fun r => match r with
  | .rax => v.getD 0 0
  | .rbx => v.getD 1 0
  | .rcx => v.getD 2 0
  | .rdx => v.getD 3 0
  | .rsi => v.getD 4 0
  | .rdi => v.getD 5 0
  | .rbp => v.getD 6 0
  | .rsp => v.getD 7 0
  | .r8 => v.getD 8 0
  | .r9 => v.getD 9 0
  | .r10 => v.getD 10 0
  | .r11 => v.getD 11 0
  | .r12 => v.getD 12 0
  | .r13 => v.getD 13 0
  | .r14 => v.getD 14 0
  | .r15 => v.getD 15 0
  | .rip => v.getD 16 0
  | .rflags => v.getD 17 0
  | .cs => v.getD 18 0
  | .ss => v.getD 19 0
  | .ds => v.getD 20 0
  | .es => v.getD 21 0
  | .fs => v.getD 22 0
  | .gs => v.getD 23 0
  | .cr0 => v.getD 24 0
  | .cr2 => v.getD 25 0
  | .cr3 => v.getD 26 0
  | .cr4 => v.getD 27 0
  | .cr8 => c .cr8
  | .exceptionData => c .exceptionData

/-- `read_registers`, dbg_target.rs lines 116-119: what is sent. -/
def read (c : XCtx) : List UInt8 := serialize (fromContext c)

/-- `write_registers`, dbg_target.rs lines 121-124, of what is received; `none` is refused. -/
def write (bytes : List UInt8) (c : XCtx) : Option XCtx := (deserialize bytes).map (writeToContext · c)

end XRegs

/-! ### AArch64 -/

/-- The registers of `ExceptionContext` of AArch64 that are used, and two that are not. -/
inductive AReg where
  | x (i : Fin 29)
  | fp | lr | sp | elr | fpsr | spsr | esr | far
deriving DecidableEq, Repr

abbrev ACtx := AReg → Nat

namespace ARegs

/-- `from_context`, lines 376-417. -/
def fromContext (c : ACtx) : List Nat :=
  [c (.x 0), c (.x 1), c (.x 2), c (.x 3), c (.x 4), c (.x 5), c (.x 6), c (.x 7), c (.x 8), c (.x 9), c (.x 10), c (.x 11), c (.x 12), c (.x 13), c (.x 14), c (.x 15),
    c (.x 16), c (.x 17), c (.x 18), c (.x 19), c (.x 20), c (.x 21), c (.x 22), c (.x 23), c (.x 24), c (.x 25), c (.x 26), c (.x 27), c (.x 28),
    c .fp, c .lr, c .sp, c .elr, c .fpsr, c .spsr % 2 ^ 32]

/-- `gdb_serialize`, lines 325-344. -/
def serialize (v : List Nat) : List UInt8 := (v.take 34).flatMap (leBytes 8) ++ (v.drop 34).flatMap (leBytes 4)

/-- `gdb_deserialize`, lines 346-373. -/
def deserialize (bytes : List UInt8) : Option (List Nat) := readAll bytes 0 (List.replicate 34 8 ++ [4])

/-- `write_to_context`, lines 419-456. -/
def writeToContext (v : List Nat) (c : ACtx) : ACtx := fun r => match r with
  | .x i => v.getD i.val 0
  | .fp => v.getD 29 0
  | .lr => v.getD 30 0
  | .sp => v.getD 31 0
  | .elr => v.getD 32 0
  | .fpsr => v.getD 33 0
  | .spsr => v.getD 34 0
  | .esr => c .esr
  | .far => c .far

/-- `read_registers`: what is sent. -/
def read (c : ACtx) : List UInt8 := serialize (fromContext c)

/-- `write_registers` of what is received. -/
def write (bytes : List UInt8) (c : ACtx) : Option ACtx := (deserialize bytes).map (writeToContext · c)

end ARegs

end Verif.Debugger
