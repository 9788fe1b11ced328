import Verif.Perf.Model
/-!
Model of how performance records are fetched from the management mode: `/repo/sdk/patina/src/performance/_smm.rs` and `fetch_and_add_mm_performance_records` of
`measurement.rs`, on the bytes of the communication buffer.

The management mode is any program with its own state that is given the buffer and leaves another one of the same length. `dbg` says whether debug assertions are on. `none` is a panic.
-/
namespace Verif.Perf.Exchange

/-- `MmCommRegion`, lines 29-33. -/
structure Region where
  type : Nat
  address : Nat
  pages : Nat
deriving DecidableEq, Repr

/-- `parse`, lines 39-41. -/
def Region.parse (b : Bytes) : Option Region :=
  if b.length < 24 then none else some ⟨leVal (b.take 8), leVal ((b.drop 8).take 8), leVal ((b.drop 16).take 8)⟩

/-- `is_user_type`, lines 49-51. -/
def Region.user (r : Region) : Bool := r.type == 1

/-- `EFI_FIRMWARE_PERFORMANCE_GUID`, lines 143-144, as bytes. -/
def GUID : Bytes := [0x1a, 0x79, 0x95, 0xc0, 0x01, 0x30, 0xb2, 0x47, 0x80, 0xc9, 0xea, 0xc7, 0x31, 0x9f, 0x2f, 0xa4]

/-- The management mode: its states, and what it makes of the buffer; `true`: it returned no error. The buffer is memory, so its length stays. -/
structure Mm where
  State : Type
  handle : State → Bytes → State × Bytes × Bool
  keeps : ∀ s b, (handle s b).2.1.length = b.length

/-- What a request writes: `try_into_ctx` of `SmmGetRecordSize`, lines 169-177, for `new()`. -/
def sizeRequest : List Bytes := [leBytes 8 1, leBytes 8 0, leBytes 8 0, leBytes 8 0, leBytes 8 0]

/-- `try_into_ctx` of `SmmGetRecordDataByOffset<1024>`, lines 225-233, for `new(offset)`. -/
def dataRequest (offset : Nat) : List Bytes := [leBytes 8 3, leBytes 8 0, leBytes 8 1024, leBytes 8 0, leBytes 8 offset]

/-- The buffer of a request, lines 118-131: the GUID, a place for the size, the data, and then the size into its place. -/
def request (b : Bytes) (data : List Bytes) : Option Bytes :=
  match writeAll b 0 [GUID, leBytes 8 0] with
  | (_, none) => none
  | (b, some o) =>
    match writeAll b o data with
    | (_, none) => none
    | (b, some o) => some (splice b 16 (leBytes 8 o))

/-- `communicate`, lines 106-141: the state and the buffer afterwards, and the data of the answer if there was no error. -/
def communicate (mm : Mm) (s : mm.State) (r : Region) (b : Bytes) (data : List Bytes) : Option (mm.State × Bytes × Option Bytes) :=
  if r.address = 0 ∨ r.pages = 0 then none
  else
    match request b data with
    | none => none
    | some b =>
      match mm.handle s b with
      | (s, b, true) => some (s, b, some (b.drop 24))
      | (s, b, false) => some (s, b, none)

/-- `try_from_ctx` of `SmmGetRecordSize`, lines 183-193: the status and the size. -/
def parseSize (dbg : Bool) (d : Bytes) : Option (Nat × Nat) :=
  if d.length < 40 then none
  else if dbg ∧ leVal (d.take 8) ≠ 1 then none
  else some (leVal ((d.drop 8).take 8), leVal ((d.drop 16).take 8))

/-- `try_from_ctx` of `SmmGetRecordDataByOffset<1024>`, lines 239-250: the status, the size, and the 1024 bytes behind the fields. -/
def parseData (dbg : Bool) (d : Bytes) : Option (Nat × Nat × Bytes) :=
  if d.length < 40 then none
  else if dbg ∧ leVal (d.take 8) ≠ 3 then none
  else if d.length < 40 + 1024 then none
  else some (leVal ((d.drop 8).take 8), leVal ((d.drop 16).take 8), (d.drop 40).take 1024)

/-- The loop, `measurement.rs` lines 151-176. The outcomes: the data, given up, or a panic; `none` if it is still asking after `fuel` requests. -/
def fetchLoop (dbg : Bool) (mm : Mm) (r : Region) (total : Nat) : Nat → mm.State → Bytes → Bytes → Option (Res Bytes)
  | 0, _, _, _ => none
  | fuel + 1, s, b, got =>
    if got.length < total then
      match communicate mm s r b (dataRequest got.length) with
      | none => some .panic
      | some (_, _, none) => some (.err .efi)
      | some (s, b, some d) =>
        match parseData dbg d with
        | none => some .panic
        | some (status, size, data) =>
          if status ≠ 0 then some (.err .efi)
          else if 1024 < size then some .panic
          else fetchLoop dbg mm r total fuel s b (got ++ data.take size)
    else some (.ok got)

/-- Lines 127-176: the size is asked for, room is made for it (`Vec::with_capacity` panics for more than `isize::MAX` bytes), and the data are fetched. -/
def fetchRecords (dbg : Bool) (mm : Mm) (r : Region) (fuel : Nat) (s : mm.State) (b : Bytes) : Option (Res Bytes) :=
  match communicate mm s r b sizeRequest with
  | none => some .panic
  | some (_, _, none) => some (.err .efi)
  | some (s, b, some d) =>
    match parseSize dbg d with
    | none => some .panic
    | some (status, size) =>
      if status ≠ 0 then some (.err .efi)
      else if 2 ^ 63 ≤ size then some .panic
      else fetchLoop dbg mm r size fuel s b []

/-- `fetch_and_add_mm_performance_records`, lines 110-189, with the communicate protocol if there is one. The outer `none`: it does not end; the inner: it panics. -/
def fetchAndAdd (dbg : Bool) (mm : Option ((mm : Mm) × mm.State)) (r : Region) (fuel : Nat) (b : Bytes) (t : Fbpt) : Option (Option Fbpt) :=
  match mm with
  | none => some (some t)
  | some ⟨mm, s⟩ =>
    match fetchRecords dbg mm r fuel s b with
    | none => none
    | some .panic => some none
    | some (.err _) => some (some t)
    | some (.ok d) =>
      match iter d with
      | none => some none
      | some rs => some (t.addAll dbg rs)

end Verif.Perf.Exchange
