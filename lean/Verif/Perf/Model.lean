import Verif.Prelude
import Verif.Bytes
/-!
Model of the performance records and the boot performance table: `/repo/sdk/patina/src/performance/record.rs`, `record/extended.rs`, `record/hob.rs`,
`table.rs`, and of the event callbacks of `measurement.rs`.

`dbg` says whether debug assertions and overflow checks are on. Left out: the locks around the table (see `Mutex`), the status code that reports the address.
-/
namespace Verif.Perf

abbrev Bytes := List UInt8

/-- `Pwrite::gwrite_with` of the `scroll` crate, for values that become the bytes `x`: writes at `off`, which has to be in the buffer, if there is room. -/
def gwrite (b : Bytes) (off : Nat) (x : Bytes) : Option (Bytes × Nat) :=
  if off < b.length ∧ off + x.length ≤ b.length then some (b.take off ++ x ++ b.drop (off + x.length), off + x.length) else none

/-- A performance record: the types of `extended.rs`, `FirmwareBasicBootPerfDataRecord` of `table.rs`, lines 224-243, which is always written with zeroes, and
`GenericPerformanceRecord` of `record.rs`, lines 63-77. Strings are their bytes, GUIDs are numbers. -/
inductive Rec where
  | guid (id acpi time guid : Nat)
  | string (id acpi time guid : Nat) (s : Bytes)
  | dual (id acpi time guid1 guid2 : Nat) (s : Bytes)
  | qword (id acpi time guid q : Nat)
  | qwordString (id acpi time guid q : Nat) (s : Bytes)
  | boot
  | generic (typ rev : Nat) (data : Bytes)
deriving DecidableEq, Repr

/-- `record_type`. -/
def Rec.typ : Rec → Nat
  | .guid .. => 0x1010
  | .string .. => 0x1011
  | .dual .. => 0x1012
  | .qword .. => 0x1013
  | .qwordString .. => 0x1014
  | .boot => 2
  | .generic t _ _ => t

/-- `revision`. -/
def Rec.rev : Rec → Nat
  | .boot => 2
  | .generic _ r _ => r
  | _ => 1

/-- `write_data_into`: what is written, one after the other. `extended.rs` lines 55-61, 119-127, 184-193, 232-239, 284-292; `table.rs` lines 277-285;
`record.rs` lines 88-91. -/
def Rec.chunks : Rec → List Bytes
  | .guid id a t g => [leBytes 2 id, leBytes 4 a, leBytes 8 t, leBytes 16 g]
  | .string id a t g s => [leBytes 2 id, leBytes 4 a, leBytes 8 t, leBytes 16 g, s, [0]]
  | .dual id a t g g' s => [leBytes 2 id, leBytes 4 a, leBytes 8 t, leBytes 16 g, leBytes 16 g', s, [0]]
  | .qword id a t g q => [leBytes 2 id, leBytes 4 a, leBytes 8 t, leBytes 16 g, leBytes 8 q]
  | .qwordString id a t g q s => [leBytes 2 id, leBytes 4 a, leBytes 8 t, leBytes 16 g, leBytes 8 q, s, [0]]
  | .boot => [[0, 0, 0, 0], leBytes 8 0, leBytes 8 0, leBytes 8 0, leBytes 8 0, leBytes 8 0]
  | .generic _ _ d => [d]

/-- Writes one after the other, until one fails; what was written stays. -/
def writeAll (b : Bytes) (off : Nat) : List Bytes → Bytes × Option Nat
  | [] => (b, some off)
  | x :: l =>
    match gwrite b off x with
    | some (b, off) => writeAll b off l
    | none => (b, none)

/-- `write_into`, `record.rs` lines 38-59. The size of the record is written last, into the place kept for it, as one byte. -/
def writeInto (b : Bytes) (off : Nat) (r : Rec) : Bytes × Option Nat :=
  match writeAll b off ([leBytes 2 r.typ, [0], leBytes 1 r.rev] ++ r.chunks) with
  | (b, none) => (b, none)
  | (b, some e) =>
    match gwrite b (off + 2) (leBytes 1 (e - off)) with
    | some (b, _) => (b, some (e - off))
    | none => (b, none)

inductive Err where
  | outOfResources
  | bufferTooSmall
  | efi
  | debugAssert
deriving DecidableEq, Repr

/-- What a call leads to. -/
inductive Res (α : Type) where
  | ok (a : α)
  | err (e : Err)
  | panic
deriving DecidableEq, Repr

/-- `FPDT_MAX_PERF_RECORD_SIZE`, line 20. -/
def MAX : Nat := 255

/-- `push_record` while the buffer is not published, `record.rs` lines 107-117. -/
def pushOwned (dbg : Bool) (b : Bytes) (r : Rec) : Bytes × Res Nat :=
  match writeInto (b ++ List.replicate MAX 0) b.length r with
  | (b', some n) => (b'.take (b.length + n), .ok n)
  | (b', none) => (b', if dbg then .panic else .err .debugAssert)

/-- `push_record` when it is, line 118: the records are in the first `used` bytes of `b`. -/
def pushPublished (b : Bytes) (used : Nat) (r : Rec) : (Bytes × Nat) × Res Nat :=
  match writeInto b used r with
  | (b, some n) => ((b, used + n), .ok n)
  | (b, none) => ((b, used), .err .outOfResources)

/-- A record as the iterator returns it. -/
structure Raw where
  typ : Nat
  length : Nat
  rev : Nat
  data : Bytes
deriving DecidableEq, Repr

/-- `Iter::next`, `record.rs` lines 210-223: `none` is a panic. A record is at least four bytes, so that `fuel` as large as the buffer is enough. -/
def iterate : Nat → Bytes → Option (List Raw)
  | 0, b => if b = [] then some [] else none
  | fuel + 1, b =>
    if b = [] then some []
    else if b.length < 4 then none
    else
      let length := leVal ((b.drop 2).take 1)
      if length < 4 ∨ b.length < length then none
      else (iterate fuel (b.drop length)).map (⟨leVal (b.take 2), length, leVal ((b.drop 3).take 1), (b.take length).drop 4⟩ :: ·)

def iter (b : Bytes) : Option (List Raw) := iterate b.length b

/-- A record from the iterator, to be pushed again. -/
def Raw.again (r : Raw) : Rec := .generic r.typ r.rev r.data

/-! ### The table -/

/-- `size_of_empty_table`, `table.rs` lines 105-110. -/
def EMPTY : Nat := 56

/-- `SIGNATURE`. -/
def SIGNATURE : Bytes := [0x46, 0x42, 0x50, 0x54]

inductive Recs where
  | owned (b : Bytes)
  | published (table used : Nat)
deriving DecidableEq, Repr

/-- `FBPT`, `table.rs` lines 70-80, and the memory of the tables that were allocated, by address. -/
structure Fbpt where
  address : Nat
  len : Nat
  ptr : Option Nat
  recs : Recs
  mem : Nat → Bytes

def putMem (m : Nat → Bytes) (a : Nat) (b : Bytes) : Nat → Bytes := fun x => if x = a then b else m x

def splice (b : Bytes) (off : Nat) (x : Bytes) : Bytes := b.take off ++ x ++ b.drop (off + x.length)

/-- `new`. -/
def Fbpt.new (mem : Nat → Bytes) : Fbpt := ⟨0, EMPTY, none, .owned [], mem⟩

/-- `length`, lines 97-99. -/
def Fbpt.length (t : Fbpt) : Nat :=
  match t.ptr with
  | some a => leVal (((t.mem a).drop 4).take 4)
  | none => t.len

/-- Storing through `length_mut`, lines 101-103. -/
def Fbpt.setLength (t : Fbpt) (v : Nat) : Fbpt :=
  match t.ptr with
  | some a => { t with mem := putMem t.mem a (splice (t.mem a) 4 (leBytes 4 v)) }
  | none => { t with len := v % 2 ^ 32 }

/-- `size`. -/
def Recs.size : Recs → Nat
  | .owned b => b.length
  | .published _ n => n

/-- `set_perf_records`, lines 154-157, with a buffer that is not published. -/
def Fbpt.setRecords (t : Fbpt) (b : Bytes) : Fbpt := { t.setLength ((EMPTY + b.length) % 2 ^ 32) with recs := .owned b }

/-- `add_record`, lines 159-163. The length is 32 bits; with overflow checks it panics when these are not enough. -/
def Fbpt.add (dbg : Bool) (t : Fbpt) (r : Rec) : Fbpt × Res Unit :=
  match t.recs with
  | .owned b =>
    match pushOwned dbg b r with
    | (b, .ok n) =>
      let t := { t with recs := .owned b }
      if dbg ∧ 2 ^ 32 ≤ t.length + n then (t, .panic) else (t.setLength ((t.length + n) % 2 ^ 32), .ok ())
    | (b, .err e) => ({ t with recs := .owned b }, .err e)
    | (b, .panic) => ({ t with recs := .owned b }, .panic)
  | .published a used =>
    match pushPublished ((t.mem a).drop EMPTY) used r with
    | ((b, used), .ok n) =>
      let t := { t with recs := .published a used, mem := putMem t.mem a ((t.mem a).take EMPTY ++ b) }
      if dbg ∧ 2 ^ 32 ≤ t.length + n then (t, .panic) else (t.setLength ((t.length + n) % 2 ^ 32), .ok ())
    | ((b, used), .err e) => ({ t with recs := .published a used, mem := putMem t.mem a ((t.mem a).take EMPTY ++ b) }, .err e)
    | (_, .panic) => (t, .panic)

/-- The pages that `allocate_table_buffer` asks for, lines 117-119. -/
def pagesFor (size : Nat) : Nat := (EMPTY + size + 0x10000 + 0xFFF) / 0x1000

/-- What the two calls of `allocate_pages` give, lines 121-138: the second is made only if there is no previous address or the first fails. -/
def allocated (previous : Option Nat) (at' : Nat → Option Nat) (below : Option Nat) : Option Nat :=
  match previous.bind at' with
  | some a => some a
  | none => below

/-- `report_table`, lines 165-190, with the memory of `pagesFor` pages at the address that was allocated, if there was one. -/
def Fbpt.report (dbg : Bool) (t : Fbpt) (a : Option Nat) : Fbpt × Res Nat :=
  match a with
  | none => (t, .err .efi)
  | some a =>
    let t := { t with address := a }
    match writeAll (t.mem a) 0 [SIGNATURE, leBytes 4 t.length] with
    | (b, none) => ({ t with mem := putMem t.mem a b }, .err .bufferTooSmall)
    | (b, some o) =>
      match writeInto b o .boot with
      | (b, none) => ({ t with mem := putMem t.mem a b }, .err .bufferTooSmall)
      | (b, some n) =>
        let o := o + n
        let t := { t with mem := putMem t.mem a b }
        if dbg ∧ o ≠ EMPTY then (t, .panic)
        else
          match t.recs with
          | .published _ _ => (t, if dbg then .panic else .err .debugAssert)
          | .owned r =>
            if b.length - o < r.length then (t, .err .bufferTooSmall)
            else ({ t with mem := putMem t.mem a (b.take o ++ r ++ b.drop (o + r.length)), recs := .published a r.length, ptr := some a }, .ok a)

/-! ### Records from before -/

/-- `HobPerformanceData::parse`, `hob.rs` lines 47-57: `none` is a panic. -/
def parseHob (b : Bytes) : Option (Nat × Bytes) :=
  if b.length < 12 then some (0, [])
  else
    let size := leVal (b.take 4)
    if (b.drop 12).length < size then none else some (leVal ((b.drop 4).take 4), (b.drop 12).take size)

def pushAll (dbg : Bool) : Bytes → List Raw → Bytes × Res Unit
  | b, [] => (b, .ok ())
  | b, r :: l =>
    match pushOwned dbg b r.again with
    | (b, .ok _) => pushAll dbg b l
    | (b, .err e) => (b, .err e)
    | (b, .panic) => (b, .panic)

/-- `merge_hob_performance_buffer`, lines 67-83. -/
def merge (dbg : Bool) : Nat → Bytes → List (Nat × Bytes) → Res (Nat × Bytes)
  | n, b, [] => .ok (n, b)
  | n, b, (k, h) :: l =>
    if dbg ∧ 2 ^ 32 ≤ n + k then .panic
    else
      match iter h with
      | none => .panic
      | some rs =>
        match pushAll dbg b rs with
        | (b, .ok _) => merge dbg ((n + k) % 2 ^ 32) b l
        | (_, .err e) => .err e
        | (_, .panic) => .panic

/-- An answer of the management mode: a status, and how many bytes of the buffer are data. -/
structure Answer where
  ok : Bool
  size : Nat
  data : Bytes

/-- The loop of `fetch_and_add_mm_performance_records`, `measurement.rs` lines 146-176. `ask` answers the request for data at an offset. The outcomes: the
data, given up, or a panic (`boot_record_data`, `_smm.rs` line 214); `none` if it is still asking after `fuel` requests. -/
def fetch (ask : Nat → Answer) (total : Nat) : Nat → Bytes → Option (Res Bytes)
  | 0, _ => none
  | fuel + 1, got =>
    if got.length < total then
      let a := ask got.length
      if ¬ a.ok then some (.err .efi)
      else if 1024 < a.size then some .panic
      else fetch ask total fuel (got ++ a.data.take a.size)
    else some (.ok got)

/-- Lines 178-184: what was fetched is added; errors are ignored. -/
def Fbpt.addAll (dbg : Bool) (t : Fbpt) : List Raw → Option Fbpt
  | [] => some t
  | r :: l =>
    match t.add dbg r.again with
    | (_, .panic) => none
    | (t, _) => t.addAll dbg l

end Verif.Perf
