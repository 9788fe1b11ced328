import Verif.Images.Model
/-!
What images and those who start them rely on.
-/
namespace Verif.Images

/-- The images whose entry points are running, the innermost first. -/
def running : List Frame → List Nat
  | [] => []
  | .entry h _ _ _ :: k => h :: running k
  | .unload _ _ :: k => running k

/-- Calls that have not returned: the image, whether its starter wants exit data, and with what it has ended, if it has. -/
abbrev Open := List (Nat × Bool × Option (Nat × Option Nat))

/-- How calls nest. An image that is entered is the innermost. Only the innermost one of those that have not ended can end; calls that were made from
within it and have not returned will not return. A call returns only when those made from within it are gone, to the one who started the image, with
the status the image ended with and, if wanted, its exit data. -/
def replay (o : Open) : Ev → Option Open
  | .entered h w => some ((h, w, none) :: o)
  | .exited h st d =>
    match o.dropWhile fun x => x.2.2.isSome with
    | (h', w, none) :: r => if h' = h then some ((h, w, some (st, d)) :: r) else none
    | _ => none
  | .returned h st d =>
    match o with
    | (h', w, some (st', d')) :: r => if h' = h ∧ st' = st ∧ d = (if w then d' else none) then some r else none
    | _ => none
  | _ => some o

def replayAll : Open → List Ev → Option Open
  | o, [] => some o
  | o, e :: l =>
    match replay o e with
    | some o => replayAll o l
    | none => none

/-- The calls in the record nest. -/
def Nested (l : List Ev) : Prop := replayAll [] l ≠ none

def isLoaded (h : Nat) : Ev → Bool
  | .loaded h' => h' = h
  | _ => false

def isEntered (h : Nat) : Ev → Bool
  | .entered h' _ => h' = h
  | _ => false

/-- New images have new handles. -/
def Fresh : List Act → Sys → Prop
  | [], _ => True
  | a :: l, s => (∀ h app, a = .load h app → s.log.any (isLoaded h) = false) ∧ ∀ s', s.step a = .go s' → Fresh l s'

/-- Images are not unloaded while they are running, and not while they are being unloaded already. -/
def Polite : List Act → Sys → Prop
  | [], _ => True
  | a :: l, s =>
    (∀ h why k, s.stack = .unload h why :: k → a = .ret SUCCESS → s.images h ≠ none) ∧
    ∀ s', s.step a = .go s' → (∀ h ∈ running s'.stack, s'.images h ≠ none) ∧ Polite l s'

/-- Image `h` ends now, with status `st`: it is the one that is running, and calls `Exit` or returns from its entry point. -/
def Ends (s : Sys) (a : Act) (h st : Nat) : Prop :=
  (s.current = some h ∧ ∃ d, a = .exit h st d) ∨ (∃ p w v k, s.stack = .entry h p w v :: k) ∧ a = .ret st

/-- The exit data that come with it. -/
def dataOf : Act → Option Nat
  | .exit _ _ d => d
  | _ => none

/-- `h` has been started by `StartImage`, not by the dispatcher. -/
def ByService (s : Sys) (h : Nat) : Prop := ∃ p w k, innermost s.stack = some ((h, p, w, true), k)

/-- What makes an image go away. -/
inductive Cause (s : Sys) (h : Nat) (i : Img) : Act → Prop where
  /-- It has not been started, and `UnloadImage` is called for it, or `Exit`. -/
  | unstarted (h1 : i.started = false) : Cause s h i (.unload h)
  | given_up (st : Nat) (d : Option Nat) (h1 : i.started = false) : Cause s h i (.exit h st d)
  /-- Its unload function, having been called, agrees. -/
  | agreed (why : Why) (k : List Frame) (h1 : s.stack = .unload h why :: k) : Cause s h i (.ret SUCCESS)
  /-- It ends; it is an application or has failed, and has no unload function. -/
  | ended {a : Act} {st : Nat} (h1 : Ends s a h st) (h2 : ByService s h) (h3 : st ≠ SUCCESS ∨ i.app = true) (h4 : i.unload = false) : Cause s h i a
  /-- `StartImage` is called for it, and fails for want of memory, or because it has been started before, and it has no unload function. -/
  | refused (w m : Bool) (h1 : i.started = true ∧ i.unload = false ∨ i.started = false ∧ m = false) : Cause s h i (.start h w true m)

/-- A state such histories lead to. -/
def Reached (s : Sys) : Prop := ∃ l, Fresh l Sys.init ∧ Polite l Sys.init ∧ Sys.init.run l = .go s

def logOf : Next → Option (List Ev)
  | .go s => some s.log
  | _ => none

end Verif.Images
