import Verif.Perf.Exchange
/-!
What the management mode has to do to hand over its performance records, as EDK II defines it: the communication buffer has a header of GUID and length, then five fields of eight bytes (function,
status, size, data address, offset), then the data.
-/
namespace Verif.Perf.Exchange

/-- The eight bytes at `i` of the message behind the header. -/
def field (b : Bytes) (i : Nat) : Nat := leVal ((b.drop (24 + 8 * i)).take 8)

/-- The buffer asks the handler of performance records for this function. -/
structure Asks (b : Bytes) (function : Nat) : Prop where
  guid : b.take 16 = GUID
  length : 24 + 40 ≤ b.length
  function : field b 0 = function

/-- A management mode with the records `d`: asked for their size (function 1) it tells it; asked for data (function 3) at an offset it gives some, not more than asked for. It does not
change the function. -/
structure Serves (mm : Mm) (d : Bytes) : Prop where
  size : ∀ s b, Asks b 1 →
    let r := mm.handle s b
    r.2.2 = true ∧ field r.2.1 0 = 1 ∧ field r.2.1 1 = 0 ∧ field r.2.1 2 = d.length
  data : ∀ s b, Asks b 3 → field b 4 < d.length → 0 < field b 2 → 24 + 40 + field b 2 ≤ b.length →
    let r := mm.handle s b
    r.2.2 = true ∧ field r.2.1 0 = 3 ∧ field r.2.1 1 = 0 ∧ 0 < field r.2.1 2 ∧ field r.2.1 2 ≤ field b 2 ∧ field b 4 + field r.2.1 2 ≤ d.length ∧
      (r.2.1.drop 64).take (field r.2.1 2) = (d.drop (field b 4)).take (field r.2.1 2)

end Verif.Perf.Exchange
