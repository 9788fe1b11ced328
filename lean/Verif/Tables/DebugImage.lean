import Verif.Prelude
/-!
Model of the table of loaded images a debugger reads: `/repo/patina_dxe_core/src/config_tables/debug_image_info_table.rs`.

A debugger may stop the processor between any two writes, so adding and removing an entry are sequences of writes to memory. Memory
has arrays of pointers and entries, each at an address; what has been freed is `none`. The counters are numbers: more than 2^32
images do not fit in memory. Running out of memory is a panic and left out. Only the status is written with `write_volatile`; the order of
the other writes is taken to be that of the program text.
-/
namespace Verif.Tables.Debug

/-- `EfiDebugImageInfoNormal`, lines 36-43. -/
structure Info where
  kind : Nat
  protocol : Nat
  handle : Nat
deriving DecidableEq, Repr

/-- The header the configuration table points to (`DebugImageInfoTableHeader`, lines 58-65), what the core keeps beside it
(`DebugImageInfoTableMetadata`, lines 98-104: `actual_table_size` and `slice`), and memory. -/
structure Table where
  status : Nat
  size : Nat
  array : Nat
  capacity : Nat
  slice : Nat
  arrays : Nat → Option (List Nat)
  infos : Nat → Option Info

/-- `EFI_DEBUG_IMAGE_INFO_UPDATE_IN_PROGRESS` and `EFI_DEBUG_IMAGE_INFO_TABLE_MODIFIED`, lines 72-73. -/
def IN_PROGRESS : Nat := 1
def MODIFIED : Nat := 2

/-- `IMAGE_INFO_TABLE_SIZE`, line 96. -/
def INITIAL : Nat := 128

def put {α : Type} (f : Nat → α) (a : Nat) (v : α) : Nat → α := fun x => if x = a then v else f x

/-- The array the core holds. -/
def Table.held (t : Table) : List Nat := (t.arrays t.slice).getD []

/-- `initialize_debug_image_info_table`, lines 112-135: the array was put at `a`. -/
def initial (a : Nat) : Table :=
  { status := 0, size := 0, array := a, capacity := INITIAL, slice := a
    arrays := put (fun _ => none) a (some (List.replicate INITIAL 0)), infos := fun _ => none }

/-- Lines 200-207 and 262-269 -/
def mark (t : Table) : Table := { t with status := t.status ||| IN_PROGRESS }

/-- Lines 237-244 and 307-314: `status & !1 | 2`. -/
def unmark (t : Table) : Table := { t with status := ((t.status / 2) * 2) ||| MODIFIED }

def setSlot (i p : Nat) (t : Table) : Table := { t with arrays := put t.arrays t.slice (some (t.held.set i p)) }

/-- Lines 209-226: a longer array is made at `a`, the old one is freed when it is replaced, then the header is changed. -/
def growSteps (t : Table) (a : Nat) : List (Table → Table) :=
  if t.capacity ≤ t.size then
    [fun t => { t with arrays := put t.arrays a (some (t.held.take t.size ++ List.replicate INITIAL 0)) },
     fun t => { t with arrays := put t.arrays t.slice none, slice := a },
     fun t => { t with capacity := t.size + INITIAL },
     fun t => { t with array := t.slice }]
  else []

/-- `core_new_debug_image_info_entry`, lines 181-245: the entry is put at `b`. -/
def addSteps (t : Table) (i : Info) (a b : Nat) : List (Table → Table) :=
  mark :: (growSteps t a ++
    [fun t => { t with infos := put t.infos b (some i) },
     fun t => setSlot t.size b t,
     fun t => { t with size := t.size + 1 },
     unmark])

/-- The loop, lines 280-305: the first entry with the handle. -/
def findSlot (t : Table) (h : Nat) : Option Nat :=
  (List.range t.size).find? fun i => ((t.infos (t.held.getD i 0)).map Info.handle) == some h

/-- Lines 286-303: the entry is freed, the last one takes its place. -/
def dropSteps (t : Table) (i : Nat) : List (Table → Table) :=
  (fun t : Table => { t with infos := put t.infos (t.held.getD i 0) none }) ::
    ((if i ≠ t.size - 1 then [setSlot i (t.held.getD (t.size - 1) 0)] else []) ++
      [(fun t : Table => setSlot (t.size - 1) 0 t), (fun t : Table => { t with size := t.size - 1 })])

/-- `core_remove_debug_image_info_entry`, lines 247-315. -/
def removeSteps (t : Table) (h : Nat) : List (Table → Table) :=
  mark :: ((match findSlot t h with | some i => dropSteps t i | none => []) ++ [unmark])

/-- Memory after some writes. -/
def after (t : Table) (l : List (Table → Table)) : Table := l.foldl (fun t f => f t) t

/-- Images are loaded (`a`, `b`: where the array and the entry are put) and unloaded. -/
inductive Op where
  | add (i : Info) (a b : Nat)
  | remove (handle : Nat)

def Op.steps (t : Table) : Op → List (Table → Table)
  | .add i a b => addSteps t i a b
  | .remove h => removeSteps t h

def Table.step (t : Table) (o : Op) : Table := after t (o.steps t)

end Verif.Tables.Debug
