import Verif.Connect.Model
import Verif.Protocol.Props
/-!
Vocabulary for the properties of connecting and disconnecting.
-/
namespace Verif.Connect
open Verif.Protocol (Db Usage users lookup)
variable {W : Type}

/-- `l` records exactly the calls of drivers that took the machine from `w` to `w'`: each binding was asked whether
it supports the controller, and started at once if it said so. -/
inductive Performed (env : Env W) (c : Nat) (path : Option Nat) : W → List Try → W → Prop where
  | nil (w : W) : Performed env c path w [] w
  | declined {w w1 w' : W} {b : Nat} {l : List Try} : env.supported w b c path = (w1, false) →
      Performed env c path w1 l w' → Performed env c path w (⟨b, none⟩ :: l) w'
  | started {w w1 w2 w' : W} {b : Nat} {ok : Bool} {l : List Try} : env.supported w b c path = (w1, true) →
      env.start w1 b c path = (w2, ok) → Performed env c path w2 l w' → Performed env c path w (⟨b, some ok⟩ :: l) w'

/-- Rounds of tries over the candidates `cs`: each round tries all of them in order; while some accept, the others
are tried again in a further round. -/
def Rounds : List Nat → List (List Try) → Prop
  | _, [] => False
  | cs, r :: l => r.map (·.binding) = cs ∧
      if ∃ t ∈ r, t.answer ≠ none then
        Rounds (cs.filter fun b => decide (∀ t ∈ r, t.binding = b → t.answer = none)) l
      else l = []

/-- How often `b` was started. -/
def starts (b : Nat) (l : List (List Try)) : Nat := l.flatten.countP (fun t => t.binding == b && t.answer.isSome)

/-- Five lists of candidates in order of precedence, without those of an earlier list. -/
def Precedence (s1 s2 s3 s4 s5 cs : List Nat) : Prop :=
  cs = s1 ++ s2.filter (fun b => decide (b ∉ s1)) ++ s3.filter (fun b => decide (b ∉ s1 ++ s2)) ++
    s4.filter (fun b => decide (b ∉ s1 ++ s2 ++ s3)) ++ s5.filter (fun b => decide (b ∉ s1 ++ s2 ++ s3 ++ s4))

/-- The driver bindings installed on these handles, in order. -/
def installed (env : Env W) (w : W) (hs : List Nat) : List Nat := hs.filterMap (fun h => lookup (env.db w) h env.bindingGuid)

/-- The answers `hs` of an override protocol, asked again and again with its previous answer until it fails. -/
inductive Asked (get : W → Nat → W × Option Nat) : W → Nat → List Nat → W → Prop where
  | done {w w' : W} {prev : Nat} : get w prev = (w', none) → Asked get w prev [] w'
  | more {w w1 w' : W} {prev h : Nat} {hs : List Nat} : get w prev = (w1, some h) → Asked get w1 h hs w' →
      Asked get w prev (h :: hs) w'

/-- The drivers of the platform driver override protocol, if it is there. -/
def PlatformSource (env : Env W) (c : Nat) (w : W) (s : List Nat) (w' : W) : Prop :=
  (¬ (∃ i, (env.db w).locateProtocol env.platformGuid = .ok i) ∧ s = [] ∧ w' = w) ∨
  ∃ i hs, (env.db w).locateProtocol env.platformGuid = .ok i ∧
    Asked (fun w prev => env.platform w i c prev) w 0 hs w' ∧ s = installed env w' hs

/-- The drivers of the bus specific driver override protocol on the controller, if it is there. -/
def BusSource (env : Env W) (c : Nat) (w : W) (s : List Nat) (w' : W) : Prop :=
  (lookup (env.db w) c env.busGuid = none ∧ s = [] ∧ w' = w) ∨
  ∃ i hs, lookup (env.db w) c env.busGuid = some i ∧
    Asked (fun w prev => env.bus w i prev) w 0 hs w' ∧ s = installed env w' hs

/-- The pairs of version and handle reported by the family override protocols on these handles. -/
inductive Reported (env : Env W) : W → List Nat → List (Nat × Nat) → W → Prop where
  | nil (w : W) : Reported env w [] [] w
  | skip {w w' : W} {h : Nat} {hs : List Nat} {l : List (Nat × Nat)} : lookup (env.db w) h env.familyGuid = none →
      Reported env w hs l w' → Reported env w (h :: hs) l w'
  | report {w w1 w' : W} {h i v : Nat} {hs : List Nat} {l : List (Nat × Nat)} :
      lookup (env.db w) h env.familyGuid = some i → env.family w i = (w1, v) → Reported env w1 hs l w' →
      Reported env w (h :: hs) ((v, h) :: l) w'

/-- The handles that carry a driver binding. -/
def driverHandles (env : Env W) (w : W) : List Nat :=
  match (env.db w).locateHandles (some env.bindingGuid) with
  | .ok hs => hs
  | _ => []

/-- The drivers with a family override protocol, highest version first; of several that report the same version,
the last one in the order of the handles. -/
def FamilySource (env : Env W) (w : W) (s : List Nat) (w' : W) : Prop :=
  ∃ (reports rs : List (Nat × Nat)), Reported env w (driverHandles env w) reports w' ∧ s = installed env w' (rs.map (·.2)) ∧
    rs.Pairwise (fun a b => b.1 < a.1) ∧ ∀ v h, (v, h) ∈ rs ↔ reports.reverse.lookup v = some h

/-- All installed drivers, highest version first. -/
def AllSource (env : Env W) (w : W) (s : List Nat) : Prop :=
  s.Perm (installed env w (driverHandles env w)) ∧ s.Pairwise (fun a b => env.version w b ≤ env.version w a)

/-- The sort orders by decreasing version. -/
structure SortOk (env : Env W) : Prop where
  perm : ∀ w l, (env.sort w l).Perm l
  sorted : ∀ w l, (env.sort w l).Pairwise (fun a b => env.version w b ≤ env.version w a)

/-- `d` manages controller `c`: it has a protocol on it open by driver. -/
def Manages (db : Db) (d c : Nat) : Prop :=
  ∃ g u, u ∈ users db c g ∧ u.agent = some d ∧ (u.attrs = 0x10 ∨ u.attrs = 0x30)

/-- `k` is a child that driver `d` created on controller `c`. -/
def ChildOf (db : Db) (d c k : Nat) : Prop :=
  ∃ g u, u ∈ users db c g ∧ u.agent = some d ∧ u.attrs = 0x08 ∧ u.controller = some k

/-- The calls of `stop` that a driver gets which has the children `kids`: first for them, if there are any, then
if that succeeded and `self` says so, for the controller itself. -/
def StopCalls (kids : List Nat) (self : Bool) (calls : List Stop) : Prop :=
  (kids = [] ∧ self = false ∧ calls = []) ∨
  (kids = [] ∧ self = true ∧ ∃ b, calls = [⟨[], b⟩]) ∨
  (kids ≠ [] ∧ calls = [⟨kids, false⟩]) ∨
  (kids ≠ [] ∧ self = false ∧ calls = [⟨kids, true⟩]) ∨
  (kids ≠ [] ∧ self = true ∧ ∃ b, calls = [⟨kids, true⟩, ⟨[], b⟩])

/-- `calls` are the calls of `stop` of binding `b` on controller `c` that took the machine from `w` to `w'`. -/
inductive Stopped (env : Env W) (b c : Nat) : W → List Stop → W → Prop where
  | nil (w : W) : Stopped env b c w [] w
  | cons {w w1 w' : W} {kids : List Nat} {ok : Bool} {l : List Stop} : env.stop w b c kids = (w1, ok) →
      Stopped env b c w1 l w' → Stopped env b c w (⟨kids, ok⟩ :: l) w'

/-- The driver has no binding through which it could be stopped, though it manages the controller. -/
def Missing (env : Env W) (c : Nat) (t : Turn W) : Prop :=
  Manages (env.db t.before) t.driver c ∧ lookup (env.db t.before) t.driver env.bindingGuid = none

/-- What happens to a driver when its turn comes. If it does not manage the controller any more, or cannot be stopped,
nothing. Otherwise its children, or only the one selected, are stopped, and then the driver itself, unless a
child was selected and there are others. -/
def TurnOk (env : Env W) (c : Nat) (child : Option Nat) (t : Turn W) (w' : W) : Prop :=
  (¬ Manages (env.db t.before) t.driver c ∧ t.calls = [] ∧ w' = t.before) ∨
  (Missing env c t ∧ t.calls = [] ∧ w' = t.before) ∨
  (Manages (env.db t.before) t.driver c ∧ ∃ b kids self, lookup (env.db t.before) t.driver env.bindingGuid = some b ∧
    Stopped env b c t.before t.calls w' ∧ kids.Nodup ∧
    (∀ k, k ∈ kids ↔ ChildOf (env.db t.before) t.driver c k ∧ (child = none ∨ child = some k)) ∧
    (self = true ↔ child = none ∨ ∀ k, ChildOf (env.db t.before) t.driver c k → child = some k) ∧
    StopCalls kids self t.calls)

/-- The drivers get their turns one after the other; one that cannot be stopped ends it all. -/
inductive Turns (env : Env W) (c : Nat) (child : Option Nat) : List Nat → W → List (Turn W) → W → Prop where
  | nil (w : W) : Turns env c child [] w [] w
  | cons {d : Nat} {ds : List Nat} {w1 w' : W} {t : Turn W} {l : List (Turn W)} : t.driver = d →
      TurnOk env c child t w1 → ¬ Missing env c t → Turns env c child ds w1 l w' →
      Turns env c child (d :: ds) t.before (t :: l) w'
  | stuck {d : Nat} {ds : List Nat} {t : Turn W} : t.driver = d → Missing env c t → t.calls = [] →
      Turns env c child (d :: ds) t.before [t] t.before

end Verif.Connect
