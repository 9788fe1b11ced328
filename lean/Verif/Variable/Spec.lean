import Verif.Variable.Model
/-!
What the UEFI specification (2.10, section 8.2) says the firmware does, and what the wrappers should
make of it. Nothing here mentions how the wrappers work.
-/
namespace Verif.Variable.Spec
open Verif.Variable

/-- The characters before the first NUL; nothing if there is no NUL. -/
def cstr : Str → Option Str
  | [] => none
  | c :: cs => if c = 0 then some [] else (cstr cs).map (c :: ·)

/-- A variable. -/
structure Var where
  name : Str
  ns : Nat
  data : List UInt8
  attrs : Nat
deriving DecidableEq, Repr

/-- The variables there are, in the order in which the firmware lists them. -/
abbrev Vars := List Var

/-- Names are not empty and contain no NUL, no two variables share name and namespace, and a variable
without data does not exist (writing no data deletes it). -/
def Vars.Valid (vs : Vars) : Prop :=
  (∀ v ∈ vs, v.name ≠ [] ∧ 0 ∉ v.name ∧ v.data ≠ []) ∧ vs.Pairwise fun a b => ¬ (a.name = b.name ∧ a.ns = b.ns)

/-- The variable of that name and namespace. -/
def Vars.lookup (vs : Vars) (name : Str) (ns : Nat) : Option Var := vs.find? fun v => v.name = name ∧ v.ns = ns

/-- The variables listed after that one; all of them for the empty name; nothing if there is no such
variable. -/
def Vars.after (vs : Vars) (name : Str) (ns : Nat) : Option Vars :=
  if name = [] then some vs
  else match vs.dropWhile fun v => ¬ (v.name = name ∧ v.ns = ns) with
    | [] => none
    | _ :: rest => some rest

/-- `GetVariable`, given a buffer of `size` bytes. -/
def GetOk (vs : Vars) (name : Str) (ns size : Nat) (r : GetReply) : Prop :=
  match vs.lookup name ns with
  | none => r.status = NOT_FOUND
  | some v => r.attrs = v.attrs ∧ r.size = v.data.length ∧
    (if size < v.data.length then r.status = BUFFER_TOO_SMALL ∧ r.written = []
     else r.status = SUCCESS ∧ r.written = v.data)

/-- `GetNextVariableName`, given a buffer and its `size`. `unit` is how much of `size` one character
takes: 2 in the specification, which counts bytes; 1 in the mock the project's tests use. -/
def NextOk (unit : Nat) (vs : Vars) (size : Nat) (buf : Str) (ns : Nat) (r : NextReply) : Prop :=
  match cstr (buf.take (size / unit)) with
  | none => r.status = INVALID_PARAMETER
  | some name => match vs.after name ns with
    | none => r.status = INVALID_PARAMETER
    | some [] => r.status = NOT_FOUND
    | some (v :: _) =>
      if size < unit * (v.name.length + 1) then
        r.status = BUFFER_TOO_SMALL ∧ r.size = unit * (v.name.length + 1) ∧ r.written.length ≤ size / unit
      else r.status = SUCCESS ∧ r.written = v.name ++ [0] ∧ r.ns = v.ns

/-- The firmware in state `s` has the variables `vs`. -/
structure Has {σ : Type} (unit : Nat) (fw : Firmware σ) (s : σ) (vs : Vars) : Prop where
  valid : vs.Valid
  get : ∃ f, fw.get = some f ∧ ∀ buf name ns size, cstr buf = some name → GetOk vs name ns size (f s buf ns size)
  next : ∃ f, fw.next = some f ∧ ∀ size buf ns, NextOk unit vs size buf ns (f s size buf ns)

/-- `SetVariable` on plain variables: a success makes the variable what was written, and changes
no other one. Writing no data deletes. -/
structure Sets {σ : Type} (unit : Nat) (fw : Firmware σ) : Prop where
  set : ∃ f, fw.set = some f ∧ ∀ s vs buf name ns attrs data, Has unit fw s vs → cstr buf = some name →
    isError (f s buf ns attrs data).1 = false →
    ∃ vs', Has unit fw (f s buf ns attrs data).2 vs' ∧
      vs'.lookup name ns = (if data = [] then none else some ⟨name, ns, data, attrs⟩) ∧
      ∀ name' ns', ¬ (name' = name ∧ ns' = ns) → vs'.lookup name' ns' = vs.lookup name' ns'

end Verif.Variable.Spec
