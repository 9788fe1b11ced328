import Verif.Prelude
/-!
Model of `StartImage`, `Exit` and `UnloadImage`: `/repo/patina_dxe_core/src/image.rs`, lines 1211-1490.

Images are programs that call these services while they run, from their entry point and from their unload functions, so the model is a machine:
the top of its stack is the code that is running, and each step is something this code does. An entry point runs on a stack of its own (a coroutine);
`Exit` switches back to where the coroutine was resumed, and what was above on the stack is never returned to.

Left out: memory and protocols of images (see `ImageMem`, `Tables.Debug`, `Runtime`), performance records, null handles. The handle of an image
that is loaded is taken to be valid (`validate_handle`, lines 1247 and 1336).
-/
namespace Verif.Images

def SUCCESS : Nat := 0
def INVALID_PARAMETER : Nat := 2 ^ 63 + 2
def UNSUPPORTED : Nat := 2 ^ 63 + 3
def OUT_OF_RESOURCES : Nat := 2 ^ 63 + 9
def ACCESS_DENIED : Nat := 2 ^ 63 + 15

/-- `PrivateImageData`, lines 155-180: `started`; whether it is an application; whether `image_info.unload` is set; `exit_data`. -/
structure Img where
  started : Bool
  app : Bool
  unload : Bool
  data : Option Nat
deriving DecidableEq, Repr

/-- What the callers see, oldest first: an image is loaded; its entry point is called, by a
caller who wants exit data or not; it ends, by `Exit` or by returning, with a status and exit data;
the call that started it returns; a call to start it is refused; it is unloaded; another call returns a status. -/
inductive Ev where
  | loaded (h : Nat)
  | entered (h : Nat) (want : Bool)
  | exited (h st : Nat) (d : Option Nat)
  | returned (h st : Nat) (d : Option Nat)
  | refused (h st : Nat)
  | unloaded (h : Nat)
  | answered (st : Nat)
deriving DecidableEq, Repr

/-- Where an unload goes on when it is done: to the caller of `UnloadImage`, who gets its status, or to the end of `start_image` or `exit`, where only
this is left to happen. -/
inductive Why where
  | service
  | event (e : Ev)
deriving DecidableEq, Repr

/-- What is on the stack: the entry point of `h`, started by `start_image` (`service`) or by the dispatcher, with or without room for exit data
(`want`), while `prev` was running; or the unload function of `h`. -/
inductive Frame where
  | entry (h : Nat) (prev : Option Nat) (want service : Bool)
  | unload (h : Nat) (why : Why)
deriving DecidableEq, Repr

/-- `DxeCoreGlobalImageData`, lines 314-320, the stack and the record of what happened. A yielder is known by the image it was made for. -/
structure Sys where
  images : Nat → Option Img
  current : Option Nat
  contexts : List Nat
  stack : List Frame
  log : List Ev

/-- What a step leads to: a state, a panic, or a jump into a coroutine that is not there any more. -/
inductive Next where
  | go (s : Sys)
  | panics
  | undefined

def put (f : Nat → Option Img) (a : Nat) (v : Option Img) : Nat → Option Img := fun x => if x = a then v else f x

def Sys.say (s : Sys) (e : Ev) : Sys := { s with log := s.log ++ [e] }

/-- The end of an unload with status `st`. -/
def Sys.answer (s : Sys) (why : Why) (st : Nat) : Sys :=
  match why with
  | .service => s.say (.answered st)
  | .event e => s.say e

/-- Lines 1367-1420: the image is removed; that it is not there any more is a panic (`unwrap`, line 1396). -/
def Sys.finish (s : Sys) (h : Nat) (why : Why) : Next :=
  match s.images h with
  | none => .panics
  | some _ => .go (({ s with images := put s.images h none }.say (.unloaded h)).answer why SUCCESS)

/-- `core_unload_image`, lines 1335-1423. -/
def Sys.unload (s : Sys) (h : Nat) (force : Bool) (why : Why) : Next :=
  match s.images h with
  | none => .go (s.answer why INVALID_PARAMETER)
  | some i =>
    if i.started then
      if i.unload then .go { s with stack := .unload h why :: s.stack }
      else if force then s.finish h why
      else .go (s.answer why UNSUPPORTED)
    else s.finish h why

/-- `start_image` after `core_start_image`, lines 1216-1243: `e` is what is left to happen. -/
def Sys.after (s : Sys) (h st : Nat) (service : Bool) (e : Ev) : Next :=
  if service ∧ (st ≠ SUCCESS ∨ (s.images h).any Img.app) then s.unload h true (.event e)
  else .go (s.say e)

/-- The exit data that `start_image` hands out, lines 1219-1233. -/
def Sys.data (s : Sys) (h : Nat) (want service : Bool) : Option Nat :=
  if want ∧ service then (s.images h).bind Img.data else none

/-- `core_start_image` up to the call of the entry point, lines 1246-1309. `memory`: there is memory for the stack. -/
def Sys.start (s : Sys) (h : Nat) (want service memory : Bool) : Next :=
  match s.images h with
  | none => s.after h INVALID_PARAMETER service (.refused h INVALID_PARAMETER)
  | some i =>
    if i.started then s.after h INVALID_PARAMETER service (.refused h INVALID_PARAMETER)
    else if ¬ memory then s.after h OUT_OF_RESOURCES service (.refused h OUT_OF_RESOURCES)
    else .go ({ s with images := put s.images h (some { i with started := true }), current := some h, contexts := h :: s.contexts,
                       stack := .entry h s.current want service :: s.stack }.say (.entered h (want && service)))

/-- Lines 1309-1332: the coroutine has yielded or returned; `k` is the stack below. -/
def Sys.leave (s : Sys) (h st : Nat) (d : Option Nat) (prev : Option Nat) (want service : Bool) (k : List Frame) : Next :=
  let s := ({ s with stack := k, current := prev }.say (.exited h st d))
  s.after h st service (.returned h st (s.data h want service))

/-- The innermost coroutine and the stack below it. -/
def innermost : List Frame → Option ((Nat × Option Nat × Bool × Bool) × List Frame)
  | [] => none
  | .entry h p w v :: k => some ((h, p, w, v), k)
  | .unload _ _ :: k => innermost k

/-- `suspend` on the yielder of `c`: possible only from within its coroutine. -/
def Sys.suspend (s : Sys) (c st : Nat) (d : Option Nat) : Next :=
  match innermost s.stack with
  | some ((h, p, w, v), k) => if h = c then s.leave h st d p w v k else .undefined
  | none => .undefined

/-- Lines 1464-1468: exit data are kept with the image. -/
def Sys.store (s : Sys) (h : Nat) (i : Img) : Option Nat → Sys
  | some d => { s with images := put s.images h (some { i with data := some d }) }
  | none => s

/-- `exit`, lines 1439-1494. `d`: exit data, if there are any. -/
def Sys.exit (s : Sys) (h st : Nat) (d : Option Nat) : Next :=
  match s.images h with
  | none => .go (s.say (.answered INVALID_PARAMETER))
  | some i =>
    if ¬ i.started then s.unload h true .service
    else if s.current ≠ some h then .go (s.say (.answered INVALID_PARAMETER))
    else
      match s.contexts with
      | [] => .go ((s.store h i d).say (.answered ACCESS_DENIED))
      | c :: cs => { s.store h i d with contexts := cs }.suspend c st d

/-- The running code returns. An entry point returns to the closure of lines 1265-1297, which calls `exit`; if that is refused the coroutine returns and
leaves its yielder behind. An unload function returns to lines 1356-1359. The core itself never returns. -/
def Sys.ret (s : Sys) (st : Nat) : Next :=
  match s.stack with
  | [] => .go s
  | .entry h p w v :: k =>
    if (s.images h).any Img.started ∧ s.current = some h ∧ s.contexts ≠ [] then s.exit h st none
    else s.leave h st none p w v k
  | .unload h why :: k =>
    if st = SUCCESS then { s with stack := k }.finish h why else .go ({ s with stack := k }.answer why st)

/-- What running code does. -/
inductive Act where
  | load (h : Nat) (app : Bool)
  | setUnload (h : Nat) (b : Bool)
  | start (h : Nat) (want service memory : Bool)
  | exit (h st : Nat) (d : Option Nat)
  | unload (h : Nat)
  | ret (st : Nat)
deriving DecidableEq, Repr

def Sys.step (s : Sys) : Act → Next
  | .load h app => .go ({ s with images := put s.images h (some ⟨false, app, false, none⟩) }.say (.loaded h))
  | .setUnload h b => .go { s with images := put s.images h ((s.images h).map fun i => { i with unload := b }) }
  | .start h w v m => s.start h w v m
  | .exit h st d => s.exit h st d
  | .unload h => s.unload h false .service
  | .ret st => s.ret st

/-- The core is running; the image of the core itself is loaded and started (lines 246-262), its handle is 1. -/
def Sys.init : Sys := ⟨put (fun _ => none) 1 (some ⟨true, false, false, none⟩), none, [], [], [.loaded 1]⟩

def Sys.run (s : Sys) : List Act → Next
  | [] => .go s
  | a :: l =>
    match s.step a with
    | .go s => s.run l
    | .panics => .panics
    | .undefined => .undefined

end Verif.Images
