import Verif.Tables.DebugImage
/-!
What a debugger finds when it stops the processor.
-/
namespace Verif.Tables.Debug

/-- Following the pointers of a list: `none` if one of them leads nowhere. -/
def follow (infos : Nat → Option Info) : List Nat → Option (List Info)
  | [] => some []
  | p :: l =>
    match infos p, follow infos l with
    | some i, some r => some (i :: r)
    | _, _ => none

/-- The images a debugger finds: `size` entries of the array the header points to, each a pointer to an entry. `none` if the header or one
of the pointers leads to memory that is not in use or too short. -/
def Table.seen (t : Table) : Option (List Info) :=
  match t.arrays t.array with
  | some l => if t.size ≤ l.length then follow t.infos (l.take t.size) else none
  | none => none

/-- The debugger is told that an update is in progress. -/
def Busy (t : Table) : Prop := t.status % 2 = 1

/-- The debugger is told that the table has been modified. -/
def Modified (t : Table) : Prop := t.status.testBit 1 = true

/-- The images loaded after a history. -/
def loaded : List Op → List Info → List Info
  | [], l => l
  | .add i _ _ :: ops, l => loaded ops (l ++ [i])
  | .remove h :: ops, l => loaded ops (l.filter fun i => i.handle ≠ h)

/-- Handles are those of one image at a time, and memory the allocator hands out is not in use. -/
def Allowed : List Op → Table → List Info → Prop
  | [], _, _ => True
  | .add i a b :: ops, t, l =>
    i.handle ∉ l.map Info.handle ∧ t.arrays a = none ∧ t.infos b = none ∧ Allowed ops (t.step (.add i a b)) (l ++ [i])
  | .remove h :: ops, t, l => Allowed ops (t.step (.remove h)) (l.filter fun i => i.handle ≠ h)

def Table.run (t : Table) (ops : List Op) : Table := ops.foldl Table.step t

end Verif.Tables.Debug
