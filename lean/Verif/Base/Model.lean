import Verif.Prelude
/-!
Model of the alignment helpers in `/repo/sdk/patina/src/base.rs`.

The Rust functions are generic over `num_traits::PrimInt`; we model the unsigned instances of every
width `w` (`u8` … `u64`, `usize`) as natural numbers below `2^w`.
Simplification: signed instances are not modelled.
-/
namespace Verif.Base

/-- `!x` on a `w`-bit unsigned integer. -/
def compl (w x : Nat) : Nat := (2 ^ w - 1) ^^^ x

/-- `is_power_of_two`, base.rs lines 168-173: `x > 0 && x & (x - 1) == 0`. -/
def isPowerOfTwo (x : Nat) : Bool := decide (x > 0) && (x &&& (x - 1)) == 0

/-- `align_down`, base.rs lines 211-219. -/
def alignDown (w addr align : Nat) : Outcome EfiError Nat :=
  if !isPowerOfTwo align then .err .invalidParameter
  else .ok (addr &&& compl w (align - 1))

/-- `align_up`, base.rs lines 260-273. `checked_add` fails when the sum does not fit in `w` bits. -/
def alignUp (w addr align : Nat) : Outcome EfiError Nat :=
  if !isPowerOfTwo align then .err .invalidParameter
  else
    let mask := align - 1
    if (addr &&& mask) == 0 then .ok addr
    else if (addr ||| mask) + 1 < 2 ^ w then .ok ((addr ||| mask) + 1)
    else .err .invalidParameter

/-- `align_range`, base.rs lines 309-321. `base + length` is an unchecked addition: it panics with
overflow checks (dev/test profile) and wraps without (release profile). `checks` selects the profile.
The subtraction `aligned_end - aligned_base` is unchecked in the same way. -/
def alignRange (checks : Bool) (w base length align : Nat) : Outcome EfiError (Nat × Nat) :=
  if !isPowerOfTwo align then .err .invalidParameter
  else if checks && decide (2 ^ w ≤ base + length) then .panic
  else do
    let alignedEnd ← alignUp w ((base + length) % 2 ^ w) align
    let alignedBase ← alignDown w base align
    if checks && decide (alignedEnd < alignedBase) then .panic
    else .ok (alignedBase, (alignedEnd + 2 ^ w - alignedBase) % 2 ^ w)

end Verif.Base
