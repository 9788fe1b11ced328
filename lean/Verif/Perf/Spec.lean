import Verif.Perf.Model
/-!
The layout of performance records and of the boot performance table, and what readers find.
-/
namespace Verif.Perf

/-- What follows the header of a record. -/
def Rec.data : Rec → Bytes
  | .guid id a t g => leBytes 2 id ++ leBytes 4 a ++ leBytes 8 t ++ leBytes 16 g
  | .string id a t g s => leBytes 2 id ++ leBytes 4 a ++ leBytes 8 t ++ leBytes 16 g ++ s ++ [0]
  | .dual id a t g g' s => leBytes 2 id ++ leBytes 4 a ++ leBytes 8 t ++ leBytes 16 g ++ leBytes 16 g' ++ s ++ [0]
  | .qword id a t g q => leBytes 2 id ++ leBytes 4 a ++ leBytes 8 t ++ leBytes 16 g ++ leBytes 8 q
  | .qwordString id a t g q s => leBytes 2 id ++ leBytes 4 a ++ leBytes 8 t ++ leBytes 16 g ++ leBytes 8 q ++ s ++ [0]
  | .boot => List.replicate 44 0
  | .generic _ _ d => d

/-- The size of a record with its header. -/
def Rec.size (r : Rec) : Nat := 4 + r.data.length

/-- The type of each kind of record. -/
def Rec.kind : Rec → Nat
  | .guid .. => 0x1010
  | .string .. => 0x1011
  | .dual .. => 0x1012
  | .qword .. => 0x1013
  | .qwordString .. => 0x1014
  | .boot => 2
  | .generic t _ _ => t

/-- The revision of each kind of record. -/
def Rec.revision : Rec → Nat
  | .boot => 2
  | .generic _ r _ => r
  | _ => 1

/-- A record in memory: type, length, revision, data. -/
def Rec.bytes (r : Rec) : Bytes := leBytes 2 r.kind ++ leBytes 1 r.size ++ leBytes 1 r.revision ++ r.data

/-- A record whose length fits its length field, and whose type and revision fit theirs. -/
structure Fits (r : Rec) : Prop where
  size : r.size ≤ 255
  typ : r.kind < 2 ^ 16
  rev : r.revision < 2 ^ 8

/-- What a reader of the record sees. -/
def Rec.raw (r : Rec) : Raw := ⟨r.kind, r.size, r.revision, r.data⟩

def allBytes (l : List Rec) : Bytes := l.flatMap Rec.bytes

/-- The table in memory: signature, length, the basic boot record, and then exactly these records, to the length that the table gives. -/
structure Holds (b : Bytes) (l : List Rec) : Prop where
  signature : b.take 4 = SIGNATURE
  length : leVal ((b.drop 4).take 4) = 56 + (allBytes l).length
  boot : (b.drop 8).take 48 = Rec.boot.bytes
  records : (b.drop 56).take (allBytes l).length = allBytes l

/-- What is done to the table: records that come from before are set; a record is added; it is published, in memory at an address, if there is any. -/
inductive Op where
  | set (l : List Rec)
  | add (r : Rec)
  | report (a : Option Nat)
deriving DecidableEq, Repr

/-- Does the table have room for the record? Until it is published, always. -/
def room (t : Fbpt) (r : Rec) : Bool :=
  match t.recs with
  | .owned _ => true
  | .published a used => EMPTY + used + r.size + (if r.data = [] then 1 else 0) ≤ (t.mem a).length

/-- Records are small enough; there is one publication, after which no records from before are set; the memory is as large as was asked for; the table stays below
4 GiB. -/
def Proper (t : Fbpt) (l : List Rec) : Op → Prop
  | .set rs => t.ptr = none ∧ (∀ r ∈ rs, Fits r) ∧ 56 + (allBytes rs).length < 2 ^ 32
  | .add r => Fits r ∧ 56 + (allBytes l).length + r.size < 2 ^ 32
  | .report a => t.ptr = none ∧ ∀ x, a = some x → (t.mem x).length = pagesFor (allBytes l).length * 0x1000

/-- The step in the code, and the records that the table should have after it. -/
def step (dbg : Bool) (t : Fbpt) (l : List Rec) : Op → Fbpt × List Rec
  | .set rs => (t.setRecords (allBytes rs), rs)
  | .add r => ((t.add dbg r).1, if room t r then l ++ [r] else l)
  | .report a => ((t.report dbg a).1, l)

def run (dbg : Bool) : Fbpt → List Rec → List Op → Fbpt × List Rec
  | t, l, [] => (t, l)
  | t, l, o :: os => run dbg (step dbg t l o).1 (step dbg t l o).2 os

def AllProper (dbg : Bool) : Fbpt → List Rec → List Op → Prop
  | _, _, [] => True
  | t, l, o :: os => Proper t l o ∧ AllProper dbg (step dbg t l o).1 (step dbg t l o).2 os

end Verif.Perf
