import Verif.Prelude
/-!
Model of the reports of the x64 exception handlers on the error code of the processor,
`/repo/core/patina_internal_cpu/src/interrupts/x64/interrupt_manager.rs` lines 260-309 (C135). A line of the log is a value; the first line, which prints the
number itself, is left out.
-/
namespace Verif.Cpu.FaultReport

/-- The lines of the log. -/
inductive Line
  | notPresent | protection | read | write | supervisor | user | reservedBit | instructionFetch | invalidSegment | invalidWrite
deriving DecidableEq, Repr

/-- `interpret_page_fault_exception_data`, lines 260-287. -/
def pageFault (code : BitVec 64) : List Line :=
  (if code &&& 0x1 = 0 then [.notPresent] else [.protection]) ++
  (if code &&& 0x2 = 0 then [.read] else [.write]) ++
  (if code &&& 0x4 = 0 then [.supervisor] else [.user]) ++
  (if code &&& 0x8 = 0 then [.reservedBit] else []) ++
  (if code &&& 0x10 = 0 then [.instructionFetch] else [])

/-- `interpret_gp_fault_exception_data`, lines 289-304. -/
def gpFault (code : BitVec 64) : List Line :=
  (if code &&& 0x1 ≠ 0 then [.invalidSegment] else []) ++
  (if code &&& 0x2 ≠ 0 then [.invalidWrite] else []) ++
  (if code &&& 0x4 = 0 then [.supervisor] else [.user])

/-- `get_fault_attributes`, lines 306-309: the page that is looked up for the address of the fault. -/
def faultPage (cr2 : BitVec 64) : BitVec 64 := cr2 &&& ~~~ 0xFFF

/-! ### What the error code says -/

/-- The error code of a page fault, as the manual of the processor has it: bit 0 is set for a protection violation and clear for a page that is not present,
bit 1 for a write, bit 2 for user mode, bit 3 for a reserved bit in an entry, bit 4 for the fetch of an instruction. -/
def Says (code : BitVec 64) : Line → Prop
  | .notPresent => code.getLsbD 0 = false
  | .protection => code.getLsbD 0 = true
  | .read => code.getLsbD 1 = false
  | .write => code.getLsbD 1 = true
  | .supervisor => code.getLsbD 2 = false
  | .user => code.getLsbD 2 = true
  | .reservedBit => code.getLsbD 3 = true
  | .instructionFetch => code.getLsbD 4 = true
  | _ => False

theorem bit (code : BitVec 64) (i : Nat) (hi : i < 64) : code &&& BitVec.twoPow 64 i = 0 ↔ code.getLsbD i = false := by
  constructor
  · intro h
    have := congrArg (fun x : BitVec 64 => x.getLsbD i) h
    simpa [hi] using this
  · intro h
    apply BitVec.eq_of_getLsbD_eq
    intro j hj
    simp only [BitVec.getLsbD_and, BitVec.getLsbD_twoPow, BitVec.ofNat_eq_ofNat, BitVec.getLsbD_zero]
    by_cases hij : i = j
    · subst hij; simp [h]
    · simp [hij]

theorem bit0 (code : BitVec 64) : code &&& 0x1 = 0 ↔ code.getLsbD 0 = false := bit code 0 (by decide)
theorem bit1 (code : BitVec 64) : code &&& 0x2 = 0 ↔ code.getLsbD 1 = false := bit code 1 (by decide)
theorem bit2 (code : BitVec 64) : code &&& 0x4 = 0 ↔ code.getLsbD 2 = false := bit code 2 (by decide)
theorem bit3 (code : BitVec 64) : code &&& 0x8 = 0 ↔ code.getLsbD 3 = false := bit code 3 (by decide)
theorem bit4 (code : BitVec 64) : code &&& 0x10 = 0 ↔ code.getLsbD 4 = false := bit code 4 (by decide)

/-- C135, in part: of presence, access and mode the report says what the error code says, for every error code. Missing: the reserved bit and the fetch of an
instruction, see `reserved_inverted` and `fetch_inverted`. -/
theorem page_fault_partial (code : BitVec 64) (l : Line) (h1 : l ≠ .reservedBit) (h2 : l ≠ .instructionFetch) : l ∈ pageFault code ↔ Says code l := by
  unfold pageFault
  simp only [bit0, bit1, bit2, bit3, bit4]
  cases l <;> (try exact absurd rfl h1) <;> (try exact absurd rfl h2) <;> simp only [Says] <;>
    cases code.getLsbD 0 <;> cases code.getLsbD 1 <;> cases code.getLsbD 2 <;> cases code.getLsbD 3 <;> cases code.getLsbD 4 <;> simp

/-- Finding: the report says that a reserved bit was set in an entry exactly when the error code says it was not. -/
theorem reserved_inverted (code : BitVec 64) : Line.reservedBit ∈ pageFault code ↔ ¬ Says code .reservedBit := by
  unfold pageFault
  simp only [bit0, bit1, bit2, bit3, bit4, Says]
  cases code.getLsbD 0 <;> cases code.getLsbD 1 <;> cases code.getLsbD 2 <;> cases code.getLsbD 3 <;> cases code.getLsbD 4 <;> simp

/-- Finding: the report says that an instruction was fetched exactly when the error code says it was not. -/
theorem fetch_inverted (code : BitVec 64) : Line.instructionFetch ∈ pageFault code ↔ ¬ Says code .instructionFetch := by
  unfold pageFault
  simp only [bit0, bit1, bit2, bit3, bit4, Says]
  cases code.getLsbD 0 <;> cases code.getLsbD 1 <;> cases code.getLsbD 2 <;> cases code.getLsbD 3 <;> cases code.getLsbD 4 <;> simp

/-- So no page fault is reported rightly. -/
theorem never_right (code : BitVec 64) : ¬ ∀ l, l ∈ pageFault code ↔ Says code l := by
  intro h
  have h1 := (h .reservedBit).symm.trans (reserved_inverted code)
  exact absurd h1 (by simp)

/-- The lookup is for the page that holds the address: the start of a page, at most the address and less than 4096 below it. -/
theorem fault_page (cr2 : BitVec 64) :
    (faultPage cr2).toNat % 4096 = 0 ∧ (faultPage cr2).toNat ≤ cr2.toNat ∧ cr2.toNat < (faultPage cr2).toNat + 4096 := by
  have h : (faultPage cr2).toNat = cr2.toNat / 4096 * 4096 := by
    have h1 : faultPage cr2 = (cr2 >>> 12) <<< 12 := by
      apply BitVec.eq_of_getLsbD_eq
      intro j hj
      have hm : ∀ j, j < 64 → (~~~ (0xFFF : BitVec 64)).getLsbD j = decide (12 ≤ j) := by decide +kernel
      unfold faultPage
      rw [BitVec.getLsbD_and, hm j hj]
      simp only [BitVec.getLsbD_shiftLeft, BitVec.getLsbD_ushiftRight, hj, decide_true, Bool.true_and]
      by_cases h12 : j < 12
      · simp [h12]
        try omega
      · simp [h12, show 12 + (j - 12) = j by omega]
        try omega
    rw [h1]
    simp only [BitVec.toNat_shiftLeft, BitVec.toNat_ushiftRight, Nat.shiftLeft_eq, Nat.shiftRight_eq_div_pow]
    have := cr2.isLt
    rw [Nat.mod_eq_of_lt (by omega)]
  rw [h]
  omega

/-- The report of a general protection fault, in terms of the bits it looks at. -/
theorem gp_fault (code : BitVec 64) :
    (.invalidSegment ∈ gpFault code ↔ code.getLsbD 0 = true) ∧ (.invalidWrite ∈ gpFault code ↔ code.getLsbD 1 = true) ∧
    (.supervisor ∈ gpFault code ↔ code.getLsbD 2 = false) ∧ (.user ∈ gpFault code ↔ code.getLsbD 2 = true) := by
  unfold gpFault
  simp only [ne_eq, bit0, bit1, bit2]
  cases code.getLsbD 0 <;> cases code.getLsbD 1 <;> cases code.getLsbD 2 <;> simp

/-- A write to a page that is not present, by the firmware itself. -/
example : pageFault 0x2 = [.notPresent, .write, .supervisor, .reservedBit, .instructionFetch] := by decide
/-- The fetch of an instruction from a page without the right, in user mode. -/
example : pageFault 0x15 = [.protection, .read, .user, .reservedBit] := by decide
example : gpFault 0x3 = [.invalidSegment, .invalidWrite, .supervisor] := by decide
example : faultPage 0x12345678 = 0x12345000 := by decide

end Verif.Cpu.FaultReport
