import Verif.SdkProtocol.StatusCode
import Verif.Guid.Props
/-!
C129: what a driver receives when a status code is reported.
-/
namespace Verif.StatusCode
open Verif.Guid (G fromBytes)

/-! ### Specification -/

/-- What a driver makes of the extended data (PI specification, volume 3, 6.6.2.1): "The data will follow HeaderSize bytes from the beginning of the
structure and is Size bytes long"; both sizes have two bytes and the type of the data comes after them. -/
structure Extended where
  dataType : List UInt8
  data : List UInt8
deriving DecidableEq, Repr

def receive (b : List UInt8) : Extended :=
  ⟨(b.drop 4).take 16, (b.drop (leVal (b.take 2))).take (leVal ((b.drop 2).take 2))⟩

/-! ### The theorems -/

/-- The bytes the driver gets, taken apart. -/
theorem received_general (g : G) (data : List UInt8) (hg : g.bytes.length = 16) :
    receive (header g data.length ++ data) = ⟨g.bytes, data.take (data.length % 65536)⟩ := by
  have h1 : (header g data.length ++ data).take 2 = leBytes 2 HEADER := by
    unfold header
    simp only [List.append_assoc]
    exact List.take_left' (by simp)
  have h2 : ((header g data.length ++ data).drop 2).take 2 = leBytes 2 data.length := by
    unfold header
    simp only [List.append_assoc]
    rw [List.drop_left' (by simp)]
    exact List.take_left' (by simp)
  have h3 : ((header g data.length ++ data).drop 4).take 16 = g.bytes := by
    unfold header
    rw [List.append_assoc, List.drop_left' (by simp)]
    exact List.take_left' hg
  have h4 : (header g data.length ++ data).drop 20 = data := List.drop_left' (by simp [header, hg])
  unfold receive
  rw [h1, h2, h3, leVal_leBytes, leVal_leBytes, show HEADER % 256 ^ 2 = 20 from rfl, h4]

/-- A driver that follows the specification finds the data, all of it and nothing else, and its type, if the data has less than 64 KiB. -/
theorem received (g : G) (data : List UInt8) (hg : g.bytes.length = 16) (h : data.length < 65536) :
    receive (header g data.length ++ data) = ⟨g.bytes, data⟩ := by
  rw [received_general g data hg, Nat.mod_eq_of_lt h, List.take_length]

/-- Everything else the driver gets is what the caller gave, and the data is what it is to receive. -/
theorem reported (fw : Report → Nat) (ty value inst : Nat) (caller dataType : G) (data : List UInt8) :
    let r := (reportWithData fw ty value inst caller dataType data).1
    r.ty = ty ∧ r.value = value ∧ r.inst = inst ∧ r.caller = caller ∧ ∃ b, r.data = some b ∧
      (dataType.bytes.length = 16 → data.length < 65536 → receive b = ⟨dataType.bytes, data⟩ ∧ b.length = 20 + data.length) := by
  refine ⟨rfl, rfl, rfl, rfl, _, rfl, fun hg h => ⟨received _ _ hg h, ?_⟩⟩
  simp [header, hg]
  omega

/-- Without data the driver gets a null pointer. -/
theorem reported_bare (fw : Report → Nat) (ty value inst : Nat) (caller : G) :
    (report fw ty value inst caller).1 = ⟨ty, value, inst, caller, none⟩ := rfl

/-- The caller gets the driver's answer to that very report: success if and only if the highest bit of the status is clear, so that a warning is
success too, and otherwise the status itself. -/
theorem answer (fw : Report → Nat) (ty value inst : Nat) (caller dataType : G) (data : List UInt8) :
    (∀ r, r = reportWithData fw ty value inst caller dataType data ∨ r = report fw ty value inst caller →
      (r.2 = .ok () ↔ (fw r.1).testBit 63 = false) ∧ ∀ s, r.2 = .error s ↔ s = fw r.1 ∧ (fw r.1).testBit 63 = true) := by
  have key : ∀ q, ((send fw q).2 = .ok () ↔ (fw q).testBit 63 = false) ∧ ∀ s, (send fw q).2 = .error s ↔ s = fw q ∧ (fw q).testBit 63 = true := by
    intro q
    unfold send isError
    cases (fw q).testBit 63
    · simp
    · simp [eq_comm]
  rintro r (rfl | rfl)
  · exact key _
  · exact key _

/-- Finding: the size is cut to sixteen bits without a word: of data of 64 KiB or more the driver sees only the length modulo 65536, none at all of
64 KiB exactly, and the caller is told that all is well. -/
theorem long_data_cut (fw : Report → Nat) (ty value inst : Nat) (caller dataType : G) (data : List UInt8) (hg : dataType.bytes.length = 16)
    (h : 65536 ≤ data.length) (hf : ∀ r, fw r = 0) :
    ∃ b, (reportWithData fw ty value inst caller dataType data) = (⟨ty, value, inst, caller, some b⟩, .ok ()) ∧
      (receive b).data = data.take (data.length % 65536) ∧ (receive b).data ≠ data := by
  refine ⟨header dataType data.length ++ data, ?_, ?_, ?_⟩
  · unfold reportWithData send isError
    rw [hf]
    simp
  · rw [received_general _ _ hg]
  · rw [received_general _ _ hg]
    intro hc
    have := congrArg List.length hc
    simp only [List.length_take] at this
    have := Nat.mod_lt data.length (show 65536 > 0 by decide)
    omega

/-! ### The hypotheses are met -/

/-- d2b2b828-0826-48a7-b3df-983c006024f0. -/
def someGuid : G := ⟨0xD2B2B828, 0x0826, 0x48A7, 0xB3, 0xDF, [0x98, 0x3C, 0x00, 0x60, 0x24, 0xF0]⟩

example : someGuid.bytes.length = 16 ∧
    (reportWithData (fun _ => 0x8000000000000003) 1 2 3 someGuid someGuid [9, 8]).1.data =
      some ([20, 0, 2, 0] ++ [0x28, 0xB8, 0xB2, 0xD2, 0x26, 0x08, 0xA7, 0x48, 0xB3, 0xDF, 0x98, 0x3C, 0x00, 0x60, 0x24, 0xF0] ++ [9, 8]) ∧
    receive ([20, 0, 2, 0] ++ someGuid.bytes ++ [9, 8]) = ⟨someGuid.bytes, [9, 8]⟩ := by decide +kernel

example : (reportWithData (fun _ => 0x8000000000000003) 1 2 3 someGuid someGuid [9, 8]).2 = .error 0x8000000000000003 := by rfl

end Verif.StatusCode
