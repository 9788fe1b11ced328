import Verif.Perf.Logging
/-!
What the functions that measure should record.
-/
namespace Verif.Perf

/-- The bit of the mask that enables a function, if there is one: 0 for starting images, 1 for loading them, 2 to 4 for the functions of driver bindings. -/
def Fn.maskBit : Fn → Option Nat
  | .image .. => some 0
  | .load .. => some 1
  | .support .. => some 2
  | .start .. => some 3
  | .stop .. => some 4
  | _ => none

/-- The function is enabled. -/
def Fn.Enabled (mask : Nat) (f : Fn) : Prop := ∀ b, f.maskBit = some b → mask.testBit b = true

instance (mask : Nat) (f : Fn) : Decidable (f.Enabled mask) :=
  match h : f.maskBit with
  | none => isTrue fun b hb => by rw [h] at hb; cases hb
  | some b => if hb : mask.testBit b = true then isTrue fun c hc => by rw [h] at hc; cases hc; exact hb else isFalse fun he => hb (he b h)

/-- The string that is recorded. -/
def Fn.string : Fn → Option Bytes
  | .event s _ | .signal _ _ s _ | .callback _ _ s _ | .function _ s _ | .inModule _ s _ | .crossModule _ s _ => some s
  | _ => none

/-- The record of an enabled function other than `perf_start`, `perf_end` and their extended forms, with the id the platform knows it by. `none`: the handle leads to no module. -/
def Fn.record (e : Env) (loads : Nat) : Fn → Option Rec
  | .image b h => (e.module h).map fun g => .guid (if b then 2 else 1) 0 (e.time 0) g
  | .load b h => (e.module h).map fun g => if b then .qword 4 0 (e.time 0) g loads else .qword 3 0 (e.time 0) g ((loads + 1) % 2 ^ 32)
  | .support b d c => (e.module d).map fun g => .qword (if b then 8 else 7) 0 (e.time 0) g c
  | .start b d c => (e.module d).map fun g => .qword (if b then 6 else 5) 0 (e.time 0) g c
  | .stop b d c => (e.module d).map fun g => if b then .qwordString 10 0 (e.time 0) g c [] else .qword 9 0 (e.time 0) g c
  | .event s c => some (.string 0 0 (e.time 0) (e.there c) s)
  | .signal b g s c => some (.dual (if b then 0x11 else 0x10) 0 (e.time 0) (e.there c) g s)
  | .callback b g s c => some (.dual (if b then 0x21 else 0x20) 0 (e.time 0) (e.there c) g s)
  | .function b s c => some (.string (if b then 0x31 else 0x30) 0 (e.time 0) (e.there c) s)
  | .inModule b s c => some (.string (if b then 0x41 else 0x40) 0 (e.time 0) (e.there c) s)
  | .crossModule b s c => some (.string (if b then 0x51 else 0x50) 0 (e.time 0) (e.there c) s)
  | .mark .. | .markEx .. => none

/-- The number of loaded images after a function. -/
def Fn.loaded (mask loads : Nat) (f : Fn) : Nat :=
  match f with
  | .load false _ => if f.Enabled mask then (loads + 1) % 2 ^ 32 else loads
  | _ => loads

/-- Functions other than `perf_start`, `perf_end` and their extended forms. -/
def Fn.Plain : Fn → Prop
  | .mark .. | .markEx .. => False
  | _ => True

/-- Strings that can be recorded: at most 204 bytes. -/
def Fn.Short (f : Fn) : Prop := ∀ s, f.string = some s → s.length ≤ 204 ∧ 0 ∉ s

/-- What the records should be after calls, and the number of loaded images. -/
def expected : List Rec → Nat → List (Env × Fn) → List Rec × Nat
  | l, n, [] => (l, n)
  | l, n, (e, f) :: fs => expected (l ++ if f.Enabled e.mask then (f.record e n).toList else []) (f.loaded e.mask n) fs

end Verif.Perf
