import Verif.Component.StorageLemmas
import Verif.Component.CoreModel
/-!
The specification of the component properties C32, C33 and C50: when a parameter is available, and which
parameters must not be combined.
-/
namespace Verif.Component
variable {V : Type}

mutual
/-- A parameter is available in a storage: a `Config` when it is locked, a `ConfigMut` when it is not, a
service or HOB when there is one, an `Option` always, a tuple when all its members are. -/
def Available (s : Storage V) : Param → Prop
  | .config t => ∃ c, s.cfg t = some c ∧ c.locked = true
  | .configMut t => ∃ c, s.cfg t = some c ∧ c.locked = false
  | .service t => ∃ b, s.svc t = some b
  | .hob _ t => ∃ b l, s.hob t = some (b :: l)
  | .bootServices => s.bootInit = true
  | .runtimeServices => s.runtimeInit = true
  | .commands => True
  | .storage => True
  | .storageMut => True
  | .opt _ => True
  | .tuple ps => AllAvailable s ps
/-- All of the parameters are available. -/
def AllAvailable (s : Storage V) : List Param → Prop
  | [] => True
  | p :: ps => Available s p ∧ AllAvailable s ps
end

mutual
/-- No tuple inside. (The parameter list of a component is itself a tuple; this is about further ones.) -/
def Param.Flat : Param → Prop
  | .opt p => p.Flat
  | .tuple _ => False
  | _ => True
end

mutual
/-- The parameters inside, without `Option` and tuples. -/
def Param.leaves : Param → List Param
  | .opt p => p.leaves
  | .tuple ps => paramLeaves ps
  | p => [p]
/-- The same for a list. -/
def paramLeaves : List Param → List Param
  | [] => []
  | p :: ps => p.leaves ++ paramLeaves ps
end

/-- Two accesses that must not be held at the same time, as documented: a configuration is read by many or
written by one, `&mut Storage` is a write to all configurations and `&Storage` a read of all, and there is one
`Commands`. -/
def Conflict : Param → Param → Prop
  | .config t, .configMut u => t = u
  | .configMut t, .config u => t = u
  | .configMut t, .configMut u => t = u
  | .configMut _, .storage => True
  | .storage, .configMut _ => True
  | .config _, .storageMut => True
  | .storageMut, .config _ => True
  | .configMut _, .storageMut => True
  | .storageMut, .configMut _ => True
  | .storage, .storageMut => True
  | .storageMut, .storage => True
  | .storageMut, .storageMut => True
  | .commands, .commands => True
  | _, _ => False

end Verif.Component
