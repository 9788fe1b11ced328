/-!
Shared vocabulary of the models.

A Rust function returning `Result<T, E>` that may also panic is modelled as a function into
`Outcome E T`. `panic` stands for every way the Rust code can abort: `unwrap`/`expect` on the wrong
variant, out-of-bounds slice access, `assert!`, `debug_assert!` (dev profile) and arithmetic
overflow (dev profile).
-/
namespace Verif

/-- Result of a Rust call: success, a returned error, or a panic. -/
inductive Outcome (ε α : Type) where
  | ok (a : α)
  | err (e : ε)
  | panic
deriving DecidableEq, Repr

namespace Outcome
variable {ε α β : Type}

/-- Rust's `?` operator. -/
def bind (x : Outcome ε α) (f : α → Outcome ε β) : Outcome ε β :=
  match x with
  | ok a => f a
  | err e => err e
  | panic => panic

instance : Monad (Outcome ε) where
  pure := ok
  bind := bind

@[simp] theorem pure_eq (a : α) : (pure a : Outcome ε α) = ok a := rfl
@[simp] theorem ok_bind (a : α) (f : α → Outcome ε β) : (ok a >>= f) = f a := rfl
@[simp] theorem err_bind (e : ε) (f : α → Outcome ε β) : ((err e : Outcome ε α) >>= f) = err e := rfl
@[simp] theorem panic_bind (f : α → Outcome ε β) : ((panic : Outcome ε α) >>= f) = panic := rfl

/-- The call returned (did not panic). -/
def Returns (x : Outcome ε α) : Prop := x ≠ panic

end Outcome

/-- `efi::Status`-like errors used across the models (`sdk/patina/src/error.rs`, `EfiError`).
Only the variants that the modelled functions produce are listed. -/
inductive EfiError where
  | invalidParameter
  | unsupported
  | notFound
  | accessDenied
  | alreadyStarted
  | outOfResources
  | notReady
  | bufferTooSmall
  | notStarted
  | volumeCorrupted
  | securityViolation
  | loadError
  | deviceError
  | writeProtected
  | endOfMedia
  | aborted
deriving DecidableEq, Repr

end Verif
