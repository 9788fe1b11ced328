import Verif.Debugger.Memory
/-!
Model of the software breakpoints of the debugger, `core/patina_debugger/src/dbg_target/breakpoint.rs`, lines 23-77.

`instr` is `BREAKPOINT_INSTRUCTION`: `[0xCC]` on x64 (arch/x64.rs line 37), `[0x00, 0x00, 0x20, 0xD4]` on AArch64 (arch/aarch64.rs line 38).
-/
namespace Verif.Debugger

/-- `Breakpoint`, lines 30-35. -/
structure Bp where
  set : Bool
  addr : Nat
  original : List UInt8
deriving DecidableEq, Repr

/-- `Breakpoint::empty`, lines 37-41, for instructions of `n` bytes. -/
def Bp.empty (n : Nat) : Bp := ⟨false, 0, List.replicate n 0⟩

/-- `BREAKPOINTS`, lines 23-28. -/
def noBreakpoints (n : Nat) : List Bp := List.replicate 25 (Bp.empty n)

/-- What `read_memory` leaves in the buffer. -/
def fill (old new : List UInt8) : List UInt8 := new ++ old.drop new.length

/-- `add_sw_breakpoint`, lines 44-63: the result, memory and the slots. `unchecked` is `disable_checks`. -/
def addBreak (dbg unchecked : Bool) (instr : List UInt8) (a : Nat) (w : World) : List Bp → Outcome Unit Bool × World × List Bp
  | [] => (.ok false, w, [])
  | b :: rest =>
    if b.set then
      let (r, w', rest') := addBreak dbg unchecked instr a w rest
      (r, w', b :: rest')
    else match readMemory dbg w a b.original.length unchecked with
      | .err e => (.err e, w, b :: rest)
      | .panic => (.panic, w, b :: rest)
      | .ok l =>
        let original := fill b.original l
        match writeMemory dbg w a instr with
        | (.err e, w') => (.err e, w', { b with original } :: rest)
        | (.panic, w') => (.panic, w', { b with original } :: rest)
        | (.ok _, w') => (.ok true, w', ⟨true, a, original⟩ :: rest)

/-- `remove_sw_breakpoint`, lines 65-77. -/
def removeBreak (dbg : Bool) (a : Nat) (w : World) : List Bp → Outcome Unit Bool × World × List Bp
  | [] => (.ok false, w, [])
  | b :: rest =>
    if b.set && b.addr == a then
      match writeMemory dbg w a b.original with
      | (.err e, w') => (.err e, w', b :: rest)
      | (.panic, w') => (.panic, w', b :: rest)
      | (.ok _, w') => (.ok true, w', { b with set := false } :: rest)
    else
      let (r, w', rest') := removeBreak dbg a w rest
      (r, w', b :: rest')

end Verif.Debugger
