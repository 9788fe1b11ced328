import Verif.Debugger.Watch
/-!
What the processors watch, from their manuals.
-/
namespace Verif.Debugger

/-- What a program does to a byte. -/
inductive Access where
  | load | store
deriving DecidableEq, Repr

/-! ### x64: Intel SDM, volume 3, 19.2.4 and 19.2.5 -/

/-- Two bits of `dr7`. -/
def bits2 (d : BitVec 64) (off : Nat) : Nat := (d.getLsbD off).toNat + 2 * (d.getLsbD (off + 1)).toNat

/-- LEN: 00 is one byte, 01 two, 10 eight, 11 four. -/
def intelLen : Nat → Nat
  | 0 => 1
  | 1 => 2
  | 2 => 8
  | _ => 4

/-- RW: 01 breaks on writes, 11 on reads and writes; 00 (instructions) and 10 (I/O) do not concern data. -/
def intelRw : Nat → Access → Bool
  | 1, .store => true
  | 3, _ => true
  | _, _ => false

/-- The breakpoint `i` stops an access of kind `x` to the byte `b`: it is enabled, and the byte is in its aligned range. -/
def XStops (s : XDebug) (i : Nat) (x : Access) (b : Nat) : Prop :=
  (s.dr7.getLsbD (2 * i) = true ∨ s.dr7.getLsbD (2 * i + 1) = true) ∧ intelRw (bits2 s.dr7 (16 + 4 * i)) x = true ∧
  b / intelLen (bits2 s.dr7 (18 + 4 * i)) = s.dr i / intelLen (bits2 s.dr7 (18 + 4 * i))

/-- Some breakpoint does. -/
def XWatches (s : XDebug) (x : Access) (b : Nat) : Prop := ∃ i, i < 4 ∧ XStops s i x b

/-! ### AArch64: Arm architecture reference manual, D2.10 and DBGWCR<n>_EL1 -/

/-- LSC: 01 loads, 10 stores, 11 both. -/
def armLsc : Nat → Access → Bool
  | 1, .load => true
  | 2, .store => true
  | 3, _ => true
  | _, _ => false

/-- The watchpoint `i` stops an access of kind `x` to the byte `b`: it is enabled, and the bit of BAS for the byte, counted from the address in the value register, is
set. If bit 2 of the value register is set, only four bits count. -/
def AStops (s : ADebug) (i : Nat) (x : Access) (b : Nat) : Prop :=
  (s.wcr i).enable = true ∧ armLsc (s.wcr i).lsc x = true ∧ s.wvr i ≤ b ∧ b < s.wvr i + (if s.wvr i % 8 = 4 then 4 else 8) ∧
  (s.wcr i).bas.testBit (b - s.wvr i) = true

def AWatches (s : ADebug) (x : Access) (b : Nat) : Prop := ∃ i, i < 4 ∧ AStops s i x b

/-! ### What was asked for -/

/-- A watchpoint that was asked for. -/
structure Req where
  a : Nat
  len : Nat
  k : WatchKind
deriving DecidableEq, Repr

/-- The kind includes the access. -/
def asked : WatchKind → Access → Bool
  | .write, .store => true
  | .read, .load => true
  | .readWrite, _ => true
  | _, _ => false

/-- The same on x64, where there is no watching of loads only. -/
def askedX : WatchKind → Access → Bool
  | .write, .load => false
  | _, _ => true

end Verif.Debugger
