import Verif.Dispatcher.Effects
import Verif.Dispatcher.Props
/-!
Concrete boots: the hypotheses of the theorems about the dispatcher are met, and the surprises found in the code.
-/
namespace Verif.Dispatcher
open Verif.Depex (Guid Opcode Expr)

/-- A file name. -/
def guidOf (n : UInt8) : Guid := ⟨List.replicate 16 n, rfl⟩

/-- Dependency sections `TRUE END`, `BEFORE g END`, `AFTER g END`, `SOR TRUE END`, `PUSH g END`. -/
def dxTrue : List UInt8 := [0x06, 0x08]
def dxBefore (n : UInt8) : List UInt8 := 0x00 :: (List.replicate 16 n ++ [0x08])
def dxAfter (n : UInt8) : List UInt8 := 0x01 :: (List.replicate 16 n ++ [0x08])
def dxSor : List UInt8 := [0x09, 0x06, 0x08]
def dxPush (n : UInt8) : List UInt8 := 0x02 :: (List.replicate 16 n ++ [0x08])

/-- A machine whose state is the registered protocols; starting driver number `u` runs `start`, loading it gives
the status `sec u`. -/
def envOf (sec : Nat → Option EfiError) (start : List Guid → Nat → Code (List Guid) Unit) : Env (List Guid) where
  dbg := false
  protos := id
  load := fun w d => .ret w (some (d.uid, sec d.uid))
  start := start
  tick := fun w => .ret w ()
  auth := fun w _ => (w, true)
  install := fun w _ _ => (w, false)

/-- Nothing objects, and drivers do nothing. -/
def plain : Env (List Guid) := envOf (fun _ => none) (fun w _ => .ret w ())

def logOf {α : Type} (r : Res (List Guid) α) : List Ev := match r with | some (_, s) => s.log | none => []
def outOf {α : Type} (r : Res (List Guid) α) : Option (Outcome EfiError α) := r.map (·.1)
def ctxOf {α : Type} (r : Res (List Guid) α) : Ctx := match r with | some (_, s) => s.ctx | none => .new

theorem returned {α : Type} {r : Res (List Guid) α} {o : Outcome EfiError α} (h : outOf r = some o) :
    ∃ s, r = some (o, s) ∧ s.ctx = ctxOf r ∧ s.log = logOf r := by
  cases r with
  | none => cases h
  | some q => injection h with h; subst h; exact ⟨q.2, rfl, rfl, rfl⟩

/-- Announce volume 1 with these files and dispatch. -/
def once (fs : List FileEntry) : Code (List Guid) Bool :=
  .volumes [(1, some fs)] (.dispatch false [] (fun w r => .ret w (match r with | .ok b => b | _ => false)))

/-- C35 in action: B says BEFORE A, C says AFTER A; C34's theorems apply to this boot. -/
def trio : List FileEntry :=
  [.driver (guidOf 3) (some (dxAfter 1)) true, .driver (guidOf 1) (some dxTrue) true,
   .driver (guidOf 2) (some (dxBefore 1)) true]

example : startedIn (logOf (boot plain 9 (once trio) [])) = [2, 1, 0] := by decide +kernel
example : outOf (boot plain 9 (once trio) []) = some (.ok true) := by decide +kernel

/-- The state just before the dispatcher runs on `trio`. -/
def trioSt : St (List Guid) := (addFvs [(1, some trio)] ⟨[], .new, []⟩).2

/-- The hypotheses of `before_in_same_pass` and `after_in_same_pass`. -/
example : ∃ b s' x t y u v, entry plain 5 true trioSt = some (.ok b, s') ∧ trioSt.ctx.pending = x ++ t :: y ∧
    Met false [] false t ∧ (∀ d ∈ x, d.name = t.name → ¬ Met false [] false d) ∧
    Waits true t.name u trioSt.ctx ∧ Waits false t.name v trioSt.ctx := by
  obtain ⟨s', h, _⟩ := returned (r := entry plain 5 true trioSt) (o := .ok true) (by decide +kernel)
  refine ⟨true, s', [newDriver 0 1 (guidOf 3) (some (dxAfter 1)) true], newDriver 1 1 (guidOf 1) (some dxTrue) true,
    [newDriver 2 1 (guidOf 2) (some (dxBefore 1)) true], newDriver 2 1 (guidOf 2) (some (dxBefore 1)) true,
    newDriver 0 1 (guidOf 3) (some (dxAfter 1)) true, h, rfl, ?_, ?_, ?_, ?_⟩
  · show (Depex.eval _ _ _).1 = _; decide +kernel
  · intro d hd; simp only [List.mem_singleton] at hd; subst hd; intro e; exact absurd e (by decide)
  · refine .inl ⟨by decide +kernel, ?_⟩
    exact ⟨[.fin], by decide +kernel⟩
  · refine .inl ⟨by decide +kernel, ?_⟩
    exact ⟨[.fin], by decide +kernel⟩

/-- C36: the environment is calm and flat, and the dispatcher ends with a driver whose protocol is missing. -/
theorem plain_calm : Calm plain where
  tick := fun w => ⟨w, rfl, rfl⟩
  load := fun w _ => ⟨w, _, rfl, rfl⟩
  auth := fun _ _ => rfl
  install := fun _ _ _ _ => rfl

theorem plain_flat : FlatEnv plain := ⟨fun _ _ => trivial, fun _ _ => trivial, fun _ => trivial⟩

def waitingSt : St (List Guid) :=
  (addFvs [(1, some [.driver (guidOf 1) (some (dxPush 9)) true, .driver (guidOf 2) (some dxTrue) true])]
    ⟨[], .new, []⟩).2

example : ∃ s', entry plain 5 false waitingSt = some (.ok true, s') ∧ s'.ctx.pending.map (·.uid) = [0] ∧
    startedIn s'.log = [1] := by
  obtain ⟨s', h, h1, h2⟩ := returned (r := entry plain 5 false waitingSt) (o := .ok true) (by decide +kernel)
  exact ⟨s', h, by rw [h1]; decide +kernel, by rw [h2]; decide +kernel⟩

/-- A driver that registers the protocol the other one waits for: both run, in dependency order. -/
def provider : Env (List Guid) := envOf (fun _ => none) (fun w h => .ret (if h = 1 then guidOf 9 :: w else w) ())

example : startedIn (logOf (boot provider 9 (once [.driver (guidOf 1) (some (dxPush 9)) true,
    .driver (guidOf 2) (some dxTrue) true]) [])) = [1, 0] := by decide +kernel

/-- A driver with SOR waits until it is scheduled. -/
example : startedIn (logOf (boot plain 9 (.volumes [(1, some [.driver (guidOf 1) (some dxSor) true])]
    (.dispatch false [] (fun w _ => .ret w ()))) [])) = [] ∧
  startedIn (logOf (boot plain 9 (.volumes [(1, some [.driver (guidOf 1) (some dxSor) true])]
    (.dispatch false [] (fun w _ => .schedule 1 (guidOf 1) (fun _ => .dispatch false w (fun w _ => .ret w ()))))) [])) =
    [0] := by decide +kernel

/-- A driver that draws a security violation waits until it is trusted. -/
def suspicious : Env (List Guid) := envOf (fun _ => some .securityViolation) (fun w _ => .ret w ())

example : startedIn (logOf (boot suspicious 9 (.volumes [(1, some [.driver (guidOf 1) (some dxTrue) true])]
    (.dispatch false [] (fun w _ => .ret w ()))) [])) = [] ∧
  startedIn (logOf (boot suspicious 9 (.volumes [(1, some [.driver (guidOf 1) (some dxTrue) true])]
    (.dispatch false [] (fun w _ => .trust 1 (guidOf 1) (fun _ => .dispatch false w (fun w _ => .ret w ()))))) [])) =
    [0] := by decide +kernel

/-- Discovery: the hypotheses of `volume_discovered`. -/
example : 1 ∉ (⟨[], .new, []⟩ : St (List Guid)).ctx.processed ∧ (∀ f ∈ trio, f ≠ .bad) ∧
    (driversOf trio).length = 3 := by
  refine ⟨by decide, ?_, rfl⟩
  intro f hf
  simp only [trio, List.mem_cons, List.not_mem_nil, or_false] at hf
  rcases hf with rfl | rfl | rfl <;> simp

/-! ### Findings -/

/-- Finding: C says BEFORE B, B says BEFORE A, A is eligible. A and B run, C never does: associated drivers are
only scheduled along with drivers whose own dependency was found true. -/
theorem chained_before_never_runs :
    let r := boot plain 9 (once [.driver (guidOf 1) (some dxTrue) true,
      .driver (guidOf 2) (some (dxBefore 1)) true, .driver (guidOf 3) (some (dxBefore 2)) true]) []
    outOf r = some (.ok true) ∧ startedIn (logOf r) = [1, 0] ∧ (ctxOf r).before.map (·.2.uid) = [2] := by
  decide +kernel

/-- Finding: a driver that says AFTER A and is discovered when A has already run is never started. -/
theorem late_after_never_runs :
    let r := boot plain 9 (.volumes [(1, some [.driver (guidOf 1) (some dxTrue) true])]
      (.dispatch false [] (fun w _ => .volumes [(2, some [.driver (guidOf 2) (some (dxAfter 1)) true])]
        (.dispatch false w (fun w _ => .dispatch false w (fun w r => .ret w r)))))) []
    outOf r = some (.ok (.err .notFound)) ∧ startedIn (logOf r) = [0] ∧ (ctxOf r).after.map (·.2.uid) = [1] := by
  decide +kernel

/-- Finding: a driver that says BEFORE A and draws a security violation goes back among the pending drivers, and
from there to those waiting for A, which has run: `core_trust` no longer finds it and it never starts. -/
theorem deferred_before_never_runs :
    let env := envOf (fun u => if u = 1 then some .securityViolation else none) (fun w _ => .ret w ())
    let r := boot env 9 (.volumes [(1, some [.driver (guidOf 1) (some dxTrue) true,
        .driver (guidOf 2) (some (dxBefore 1)) true])]
      (.dispatch false [] (fun w _ => .trust 1 (guidOf 2) (fun b =>
        .dispatch false w (fun w _ => .ret w b))))) []
    outOf r = some (.ok false) ∧ startedIn (logOf r) = [0] ∧ (ctxOf r).before.map (·.2.uid) = [1] := by
  decide +kernel

/-- Finding: when the PE32 section of a scheduled driver cannot be read, `?` leaves the loop and the remaining
drivers of the schedule are forgotten: they are neither started nor pending. -/
theorem unreadable_drops_schedule :
    let r := boot plain 9 (.volumes [(1, some [.driver (guidOf 1) (some dxTrue) false,
        .driver (guidOf 2) (some dxTrue) true])]
      (.dispatch false [] (fun w r => .ret w r))) []
    outOf r = some (.ok (.err .invalidParameter)) ∧ startedIn (logOf r) = [] ∧ (ctxOf r).known = [] := by
  decide +kernel

/-- Finding: a malformed file hides every file behind it, the volume counts as processed, and the notification
panics. -/
theorem bad_file_hides_rest :
    let r := boot plain 9 (.volumes [(1, some [.bad, .driver (guidOf 1) (some dxTrue) true])] (.ret [] ())) []
    outOf r = some .panic ∧ foundIn (logOf r) = [] ∧ (ctxOf r).processed = [1] := by
  decide +kernel

/-- Finding: nothing stops a driver's entry point from calling the dispatcher while it runs (the flag meant to
prevent this is never set): the inner call runs a pass in the middle of the outer one. -/
theorem nested_dispatch_runs :
    let env := envOf (fun _ => none) (fun w h =>
      if h = 0 then .volumes [(2, some [.driver (guidOf 3) (some dxTrue) true])]
        (.dispatch false w (fun w _ => .ret w ())) else .ret w ())
    let r := boot env 9 (once [.driver (guidOf 1) (some dxTrue) true, .driver (guidOf 2) (some dxTrue) true]) []
    outOf r = some (.ok true) ∧ startedIn (logOf r) = [0, 2, 1] := by
  decide +kernel

/-- Finding: with two eligible drivers of the same file name, a driver that says AFTER that name runs after the
first of them, not after both. -/
theorem duplicate_name_after_first :
    let r := boot plain 9 (once [.driver (guidOf 1) (some dxTrue) true, .driver (guidOf 1) (some dxTrue) true,
      .driver (guidOf 2) (some (dxAfter 1)) true]) []
    startedIn (logOf r) = [0, 2, 1] := by
  decide +kernel

/-- Three volume images: one whose dependency is not met, one that is not authenticated, and one with two volumes, of
which the second cannot be installed. -/
def picky : Env (List Guid) := { plain with
  auth := fun w c => (w, c.name != guidOf 2)
  install := fun w _ i => (guidOf 9 :: w, i == 0) }

def threeImages : List FileEntry :=
  [.image (guidOf 1) (some (dxPush 7)) [true], .image (guidOf 2) none [true], .image (guidOf 3) (some dxTrue) [true, true],
   .image (guidOf 4) none []]

def imagesSt : St (List Guid) := (addFvs [(1, some threeImages)] ⟨[], .new, []⟩).2

example : imagesSt.ctx.images.map (·.name) = [guidOf 1, guidOf 2, guidOf 3] := by decide +kernel

/-- The hypothesis of `images_fate`. -/
example : (imagePhase picky false imagesSt).1 = .ok true ∧
    (imagePhase picky false imagesSt).2.ctx.images.map (·.name) = [guidOf 1, guidOf 2] ∧
    (imagePhase picky false imagesSt).2.log = [.scanned 1, .installed 2] := by decide +kernel

/-- The hypotheses of `dispatcher_result`, with progress and without. -/
example : outOf (entry plain 9 false trioSt) = some (.ok true) ∧
    outOf (entry plain 9 false (⟨[], .new, []⟩ : St (List Guid))) = some (.err .notFound) := by decide +kernel

/-- Only the first of two files of the same name is trusted. -/
example : ((trust 1 (guidOf 1) (addFvs [(1, some [.driver (guidOf 1) none true, .driver (guidOf 1) none true])]
    (⟨[], .new, []⟩ : St (List Guid))).2).2.ctx.pending.map (·.sec)) = [none, some .notReady] := by decide +kernel

end Verif.Dispatcher
