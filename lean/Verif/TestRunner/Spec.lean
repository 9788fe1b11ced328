import Verif.TestRunner.Model
/-! What is said of tests: which are selected, which runs are good. -/
namespace Verif.TestRunner

variable {σ : Type}

/-- Selected: not to be skipped, and with one of the filters, if there are any, in its name. -/
def Selected (t : Case σ) (filters : List Text) : Prop :=
  t.skip = false ∧ (filters = [] ∨ ∃ p ∈ filters, ∃ a b, t.name = a ++ p ++ b)

/-- A run is good: the test passed and was to pass, or it failed and was to fail, with the message that was expected, if one was. Without its parameters no run is good. -/
def Good (t : Case σ) : Ret → Prop
  | .ok true => t.shouldFail = false
  | .ok false => False
  | .err m => t.shouldFail = true ∧ ∀ f, t.failMsg = some f → m = f

end Verif.TestRunner
