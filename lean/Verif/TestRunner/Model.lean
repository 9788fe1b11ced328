import Verif.Prelude
/-!
Model of the component that runs the tests of a platform, `/repo/sdk/patina/src/test.rs` lines 160-233 and `/repo/sdk/patina/src/test/__private_api.rs` lines 44-118.

A test is an arbitrary function of the storage and of the level of the log. Names and messages are lists of characters. The runs of tests are kept (`World.ran`), with what they gave. Left out: what is
logged.
-/
namespace Verif.TestRunner

abbrev Text := List Char

/-- What the function of a test gives: `Result<bool, &str>`. -/
inductive Ret where
  | ok (ran : Bool)
  | err (msg : Text)
deriving DecidableEq, Repr

/-- What is around: the storage, the level of the log (0 is `Off`), and the runs so far: number of the test, level while it ran, result. -/
structure World (σ : Type) where
  storage : σ
  level : Nat
  ran : List (Nat × Nat × Ret)

/-- `TestCase`, __private_api.rs lines 46-53, with the function of its `FunctionTest`: `init` gets the parameters ready, `valid` says whether they are there. `id` is its place in the list. -/
structure Case (σ : Type) where
  id : Nat
  name : Text
  skip : Bool
  shouldFail : Bool
  failMsg : Option Text
  init : σ → σ
  valid : σ → Bool
  /-- storage and level before; result, storage and level after -/
  body : σ → Nat → Except Text Unit × σ × Nat

variable {σ : Type}

/-- `str::contains`. -/
def contains (name pattern : Text) : Bool :=
  match name with
  | [] => pattern.isPrefixOf []
  | c :: cs => pattern.isPrefixOf (c :: cs) || contains cs pattern

/-- `TestCase::should_run`, __private_api.rs lines 56-61. -/
def shouldRun (t : Case σ) (filters : List Text) : Bool :=
  if filters.isEmpty then !t.skip else filters.any (fun p => contains t.name p) && !t.skip

/-- `FunctionTest::run`, __private_api.rs lines 104-117. -/
def callFunc (t : Case σ) (w : World σ) : Ret × World σ :=
  let s := t.init w.storage
  if t.valid s then
    match t.body s w.level with
    | (.ok _, s, l) => (.ok true, ⟨s, l, w.ran ++ [(t.id, w.level, .ok true)]⟩)
    | (.error m, s, l) => (.err m, ⟨s, l, w.ran ++ [(t.id, w.level, .err m)]⟩)
  else (.ok false, { w with storage := s, ran := w.ran ++ [(t.id, w.level, .ok false)] })

def UNRETRIEVABLE : Text := "Test failed to run due to un-retrievable parameters.".toList
def PASSED : Text := "Test passed when it should have failed".toList

/-- `TestCase::run`, __private_api.rs lines 63-86: `none` is `Ok(())`. -/
def run (t : Case σ) (debug : Bool) (w : World σ) : Option Text × World σ :=
  let (ret, w) :=
    if debug then callFunc t w
    else
      let (ret, w') := callFunc t { w with level := 0 }
      (ret, { w' with level := w.level })
  match t.shouldFail, ret with
  | _, .ok false => (some UNRETRIEVABLE, w)
  | true, .ok true => (some PASSED, w)
  | true, .err m =>
    match t.failMsg with
    | some f => if m ≠ f then (some m, w) else (none, w)
    | none => (none, w)
  | false, .ok true => (none, w)
  | false, .err m => (some m, w)

/-- The loop of `TestRunner::entry_point`, test.rs lines 207-225: `did_error`, and whether the loop ended early. -/
def loop (filters : List Text) (debug failFast : Bool) : List (Case σ) → Bool → World σ → Bool × World σ
  | [], e, w => (e, w)
  | t :: ts, e, w =>
    if shouldRun t filters then
      match run t debug w with
      | (none, w) => loop filters debug failFast ts e w
      | (some _, w) => if failFast then (true, w) else loop filters debug failFast ts true w
    else loop filters debug failFast ts e w

/-- `TestRunner::entry_point`, test.rs lines 198-231. -/
def entry (filters : List Text) (debug failFast : Bool) (tests : List (Case σ)) (w : World σ) : Except EfiError Unit × World σ :=
  match loop filters debug failFast tests false w with
  | (true, w) => (.error .aborted, w)
  | (false, w) => (.ok (), w)

end Verif.TestRunner
