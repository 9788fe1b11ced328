import Verif.Runtime.Model
/-!
What the driver that switches to virtual addresses finds when it walks the lists.
-/
namespace Verif.Runtime

/-- Follow links (`next`) from `a` until `head` is reached, reading the entry around every link on the way; at most `n` links. `none`: something that
is not an entry in use was met, or the head was not reached. -/
def walk (next : Nat → Nat) (entry : Nat → Option α) (head : Nat) : Nat → Nat → Option (List α)
  | 0, _ => none
  | n + 1, a =>
    if next a = head then some []
    else match entry (next a), walk next entry head n (next a) with
      | some x, some l => some (x :: l)
      | _, _ => none

/-- The driver finds just the entries `l`, in this order, forward, and in the other order backward. -/
def Finds (next prev : Nat → Nat) (entry : Nat → Option α) (head : Nat) (l : List α) : Prop :=
  ∀ n, l.length < n → walk next entry head n head = some l ∧ walk prev entry head n head = some l.reverse

/-- The images and events there should be after a history. -/
def images : List Op → List Image → List Image
  | [], l => l
  | .addImage _ i :: ops, l => images ops (l ++ [i])
  | .removeImage h :: ops, l => images ops (l.filter fun i => i.handle ≠ h)
  | _ :: ops, l => images ops l

def events : List Op → List Event → List Event
  | [], l => l
  | .addEvent _ e ty tpl (some f) g c :: ops, l =>
    events ops (l ++ [⟨if g = some GROUP_VIRTUAL_ADDRESS_CHANGE then VIRTUAL_ADDRESS_CHANGE else ty, tpl, f, c.getD 0, e⟩])
  | .removeEvent e :: ops, l => events ops (l.filter fun x => x.event ≠ e)
  | _ :: ops, l => events ops l

/-- The protocol installed last. -/
def protocol : List Op → Nat → Nat
  | [], p => p
  | .notify p :: ops, _ => protocol ops p
  | _ :: ops, p => protocol ops p

/-- Memory not in use, by an entry or by the protocol. -/
def Free (d : Data) (a : Nat) : Prop :=
  d.mem.image a = none ∧ d.mem.event a = none ∧ (d.protocol ≠ 0 → a ≠ imageHead d.protocol ∧ a ≠ eventHead d.protocol)

/-- Entries are put in memory that is not in use; so is the protocol. -/
def Op.Proper (d : Data) : Op → Prop
  | .notify p => p ≠ 0 ∧ (d.mem.image (imageHead p) = none ∧ d.mem.event (imageHead p) = none)
      ∧ (d.mem.image (eventHead p) = none ∧ d.mem.event (eventHead p) = none)
  | .addEvent a .. => Free d a
  | .addImage a _ => Free d a
  | _ => True

def Allowed : List Op → Data → Prop
  | [], _ => True
  | o :: l, d => o.Proper d ∧ Allowed l (d.step o)

end Verif.Runtime
