import Verif.Events.TplModel
/-!
Model of the guards of the SDK that raise the TPL: `raise_tpl_guarded`, `/repo/sdk/patina/src/boot_services.rs` lines 280-282, and `TplGuard`,
`/repo/sdk/patina/src/boot_services/tpl.rs` lines 17-26, on the model of the core's TPL services (`Verif.Events`).

`StandardBootServices::raise_tpl` and `restore_tpl` (boot_services.rs) only call the services of the core. Programs are those in which a guard lives for
a scope: `guarded t body rest` is a block `{ let _g = bs.raise_tpl_guarded(t); body }` with `rest` after it. Interrupts can come between any two
statements, as in the model of the core.
-/
namespace Verif.SdkBoot.Guard
open Verif.Events

/-- A program that changes the TPL with guards only. -/
inductive Prog where
  | done
  | call (a : Act) (rest : Prog)
  | guarded (t : Nat) (body rest : Prog)

/-- The run of a program; `f` is the fuel for each call of a service. The guard keeps what `raise_tpl` returned (boot_services.rs line 281) and `drop`
restores it (tpl.rs lines 22-26). -/
def run (beh : Nat → List Act) (irq : Nat → List Nat) (f : Nat) : Prog → Sys → Res Sys
  | .done, s => .ok s
  | .call a rest, s =>
    (exec beh irq f (.act a) s).bind fun s =>
    (exec beh irq f .poll s).bind fun s =>
    run beh irq f rest s
  | .guarded t body rest, s =>
    (s.raise .misuse t).bind fun (old, s) =>
    (exec beh irq f .poll s).bind fun s =>
    (run beh irq f body s).bind fun s =>
    (exec beh irq f (.act (.restore old)) s).bind fun s =>
    (exec beh irq f .poll s).bind fun s =>
    run beh irq f rest s

/-- Two guards that are dropped in the order they were made: `{ let a = raise_tpl_guarded(t1); let b = raise_tpl_guarded(t2); drop(a); drop(b); }`. This
is also what happens to two guards in the fields of a structure, which are dropped in the order of declaration. -/
def crossed (beh : Nat → List Act) (irq : Nat → List Nat) (f t1 t2 : Nat) (s : Sys) : Res Sys :=
  (s.raise .misuse t1).bind fun (old1, s) =>
  (exec beh irq f .poll s).bind fun s =>
  (s.raise .misuse t2).bind fun (old2, s) =>
  (exec beh irq f .poll s).bind fun s =>
  (exec beh irq f (.act (.restore old1)) s).bind fun s =>
  (exec beh irq f .poll s).bind fun s =>
  exec beh irq f (.act (.restore old2)) s

end Verif.SdkBoot.Guard
