import Verif.Depex.Spec
import Verif.Dispatcher.Model
/-!
Vocabulary for the properties of the driver dispatcher, in terms of the log of what happened.
-/
namespace Verif.Dispatcher
open Verif.Depex (Guid Opcode Expr)

/-- The drivers started, in order. -/
def startedIn : List Ev → List Nat
  | [] => []
  | .handled u .started :: l => u :: startedIn l
  | _ :: l => startedIn l

/-- The drivers loaded, in order. -/
def loadedIn : List Ev → List Nat
  | [] => []
  | .loaded u _ :: l => u :: loadedIn l
  | _ :: l => loadedIn l

/-- The volumes searched, in order. -/
def scannedIn : List Ev → List Nat
  | [] => []
  | .scanned h :: l => h :: scannedIn l
  | _ :: l => scannedIn l

/-- The driver files found, in order. -/
def foundIn : List Ev → List Nat
  | [] => []
  | .found u _ _ _ :: l => u :: foundIn l
  | _ :: l => foundIn l

/-- At the end of the history `l` the image of `u` may run: it was loaded without objection, or it was
loaded with a security violation and trusted since. -/
def Cleared (l : List Ev) (u : Nat) : Prop :=
  ∃ a sec b, l = a ++ .loaded u sec :: b ∧
    (sec = none ∨ (sec = some .securityViolation ∧ .trusted u ∈ b))

/-- A dependency section that says BEFORE or AFTER the driver `g` (opcodes 0x00 and 0x01), possibly behind
SOR opcodes (0x09). -/
def SaysBeforeOrAfter (depex : List UInt8) (g : Guid) : Prop :=
  ∃ k op rest, depex = List.replicate k 0x09 ++ op :: (g.bytes ++ rest) ∧ (op = 0x00 ∨ op = 0x01)

/-- At the end of the history `l` there was a reason to start `u`: its dependency was found true, or it
says BEFORE or AFTER a driver whose dependency was found true. -/
def Eligible (l : List Ev) (u : Nat) : Prop :=
  (∃ protos, .judged u protos true ∈ l) ∨
  ∃ fv name depex g t fv' depex' protos,
    .found u fv name (some depex) ∈ l ∧ SaysBeforeOrAfter depex g ∧
    .found t fv' g depex' ∈ l ∧ .judged t protos true ∈ l

/-- All twelve architectural protocols were registered at the start of some pass of `l`. -/
def ArchSeen (l : List Ev) : Prop := ∃ protos, .pass protos ∈ l ∧ ∀ g ∈ archGuids, g ∈ protos

/-- The protocols seen registered by evaluations of the dependency of `u`. -/
def Seen (l : List Ev) (u : Nat) (g : Guid) : Prop := ∃ protos v, .judged u protos v ∈ l ∧ g ∈ protos

end Verif.Dispatcher
