/-!
Model of the watchpoints of the debugger: `core/patina_debugger/src/arch/x64.rs` lines 100-134 and 407-520, `arch/aarch64.rs` lines 198-254 and 489-580.

* The debug registers are state. `mov` to a debug register writes it as it is. Of the registers `dbgwvr<n>_el1` of AArch64, the bits 0 and 1 are reserved and read as
  zero.
* `Wcr` is its fields: the encoding is that of the crate `bitfield_struct`, which is not part of the repository.
-/
namespace Verif.Debugger

/-- `WatchKind` of the crate `gdbstub`. -/
inductive WatchKind where
  | write | read | readWrite
deriving DecidableEq, Repr

/-! ### x64 -/

/-- The debug registers: `dr0` to `dr3`, and `dr7`. -/
structure XDebug where
  dr : Nat → Nat
  dr7 : BitVec 64

namespace XDebug

/-- `clear_all` and `flush`, lines 446-448: `initialize`, lines 93-98. -/
def clear (s : XDebug) : XDebug := { s with dr7 := s.dr7 &&& ~~~(0xFF#64) }

/-- `get_enabled`, lines 450-452. -/
def getEnabled (d : BitVec 64) (i : Nat) : Bool := (d >>> (i * 2)) &&& 1#64 != 0#64

/-- `set_enabled`, lines 454-460. -/
def setEnabled (d : BitVec 64) (i : Nat) (e : Bool) : BitVec 64 := if e then d ||| (1#64 <<< (i * 2)) else d &&& ~~~(1#64 <<< (i * 2))

/-- `set_rw`, lines 462-472. -/
def setRw (d : BitVec 64) (i : Nat) (k : WatchKind) : BitVec 64 :=
  let d := d &&& ~~~(3#64 <<< (i * 4 + 16))
  match k with
  | .read | .readWrite => d ||| (3#64 <<< (i * 4 + 16))
  | .write => d ||| (1#64 <<< (i * 4 + 16))

/-- The code for a length, lines 475-480. -/
def lenCode (len : Nat) : BitVec 64 := if len = 1 then 0#64 else if len = 2 then 1#64 else if len = 4 then 2#64 else 3#64

/-- `set_len`, lines 474-484. -/
def setLen (d : BitVec 64) (i len : Nat) : BitVec 64 := (d &&& ~~~(3#64 <<< (i * 4 + 18))) ||| (lenCode len <<< (i * 4 + 18))

/-- `add_watchpoint`, lines 100-122. -/
def add (s : XDebug) (a len : Nat) (k : WatchKind) : Bool × XDebug :=
  if (List.range 4).any fun i => getEnabled s.dr7 i && s.dr i == a then (true, s)
  else match (List.range 4).find? fun i => !getEnabled s.dr7 i with
    | some i => (true, { dr := fun j => if j = i then a else s.dr j, dr7 := setEnabled (setRw (setLen s.dr7 i len) i k) i true })
    | none => (false, s)

/-- `remove_watchpoint`, lines 124-134. -/
def remove (s : XDebug) (a : Nat) : Bool × XDebug :=
  match (List.range 4).find? fun i => getEnabled s.dr7 i && s.dr i == a with
  | some i => (true, { s with dr7 := setEnabled s.dr7 i false })
  | none => (false, s)

end XDebug

/-! ### AArch64 -/

/-- `Wcr`, lines 489-508: the fields that are used. -/
structure Wcr where
  enable : Bool
  pac : Nat
  lsc : Nat
  bas : Nat
  hmc : Bool
  ssc : Nat
deriving DecidableEq, Repr

/-- `Wcr::from(0)`. -/
def Wcr.zero : Wcr := ⟨false, 0, 0, 0, false, 0⟩

/-- `calculate_bas`, lines 511-515. -/
def calculateBas (len : Nat) : Nat := (0xFF >>> (8 - min 8 len)) % 256

/-- `calculate_lsc`, lines 517-523. -/
def calculateLsc : WatchKind → Nat
  | .write => 2
  | .read => 1
  | .readWrite => 3

/-- The debug registers `dbgwcr<n>_el1` and `dbgwvr<n>_el1`. -/
structure ADebug where
  wcr : Nat → Wcr
  wvr : Nat → Nat

namespace ADebug

/-- `initialize`, lines 186-189: the watchpoints. -/
def clear (s : ADebug) : ADebug := { s with wcr := fun i => if i < 4 then Wcr.zero else s.wcr i }

/-- `write_dbg_wvr`, lines 560-568: the bits 0 and 1 are not stored. -/
def writeWvr (s : ADebug) (i v : Nat) : ADebug := { s with wvr := fun j => if j = i then v / 4 * 4 else s.wvr j }

/-- `write_dbg_wcr`, lines 538-547. -/
def writeWcr (s : ADebug) (i : Nat) (v : Wcr) : ADebug := { s with wcr := fun j => if j = i then v else s.wcr j }

/-- The test in lines 204-207 and 244-247. -/
def isAt (s : ADebug) (a len : Nat) (k : WatchKind) (i : Nat) : Bool :=
  (s.wcr i).enable && (s.wcr i).bas == calculateBas len && (s.wcr i).lsc == calculateLsc k && s.wvr i == a

/-- `add_watchpoint`, lines 198-236. -/
def add (s : ADebug) (a len : Nat) (k : WatchKind) : Bool × ADebug :=
  if (List.range 4).any (isAt s a len k) then (true, s)
  else match (List.range 4).find? fun i => !(s.wcr i).enable with
    | some i => (true, writeWcr (writeWvr s i a) i { Wcr.zero with enable := true, bas := calculateBas len, lsc := calculateLsc k, hmc := true, ssc := 1, pac := 3 })
    | none => (false, s)

/-- `remove_watchpoint`, lines 238-254. -/
def remove (s : ADebug) (a len : Nat) (k : WatchKind) : Bool × ADebug :=
  match (List.range 4).find? (isAt s a len k) with
  | some i => (true, writeWcr s i Wcr.zero)
  | none => (false, s)

end ADebug

end Verif.Debugger
