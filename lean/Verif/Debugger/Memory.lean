import Verif.Prelude
/-!
Model of the memory accesses of the debugger, `core/patina_debugger/src/memory.rs`.

* Addresses are below `W`. `dbg` says whether overflow checks are on.
* The page tables are what they mean: the attributes of each page, if it is mapped, and whether it is part of a larger mapping. The crate
  `patina_paging` is not part of the repository: a query gives the attributes of the page; changing the attributes of a page that is part of a larger
  mapping needs another page for the tables, and the allocator of the debugger panics (lines 150-156); otherwise it succeeds.
* `there` says which addresses have memory behind them: access to others raises an exception although they are mapped.
* `Outcome.panic` is a panic or an exception inside the debugger, after which it never continues (debugger.rs, `debugger_crash`).
-/
namespace Verif.Debugger

/-- The size of the address space. -/
def W : Nat := 18446744073709551616

/-- The attributes that matter here; `other` are the rest. -/
structure Attrs where
  readProtect : Bool
  readOnly : Bool
  other : Nat
deriving DecidableEq, Repr

structure World where
  mem : Nat → UInt8
  page : Nat → Option Attrs
  large : Nat → Bool
  there : Nat → Bool

/-- The page of an address, `& PAGE_MASK`. -/
def pageOf (a : Nat) : Nat := a / 4096 * 4096

/-- Lines 127-131: mapped and not read protected. -/
def valid (w : World) (page : Nat) : Bool :=
  match w.page page with
  | some at' => !at'.readProtect
  | none => false

/-- A byte can be read. -/
def readable (w : World) (a : Nat) : Bool := valid w (pageOf a) && w.there a

/-- A byte can be written. -/
def writable (w : World) (a : Nat) : Bool :=
  match w.page (pageOf a) with
  | some at' => !at'.readProtect && !at'.readOnly && w.there a
  | none => false

/-- Lines 126-148, the loop. `last` is the last address of the range. -/
def checkFrom (w : World) (start length last page : Nat) : Outcome Unit Nat :=
  if page ≤ last then
    if valid w page then
      if page + 4096 < W then checkFrom w start length last (page + 4096) else .ok length
    else if start < page then .ok (page - start) else .err ()
  else .ok length
termination_by W - page
decreasing_by omega

/-- `a + b` of 64 bits. -/
def add (dbg : Bool) (a b : Nat) : Option Nat := if a + b < W then some (a + b) else if dbg then none else some ((a + b) % W)

/-- `length - 1` of 64 bits. -/
def pred (dbg : Bool) (a : Nat) : Option Nat := if a = 0 then (if dbg then none else some (W - 1)) else some (a - 1)

/-- `check_paging_range`, lines 119-149. -/
def checkPagingRange (dbg : Bool) (w : World) (start length : Nat) : Outcome Unit Nat :=
  match pred dbg length with
  | none => .panic
  | some l => match add dbg start l with
    | none => .panic
    | some last => checkFrom w start length last (pageOf start)

/-- `memory_poke_test`, arch/x64.rs lines 178-195 and arch/aarch64.rs: eight bytes are read; an exception is caught. -/
def poke (w : World) (a : Nat) : Bool := (List.range 8).all fun i => readable w ((a + i) % W)

/-- `check_range_access`, lines 97-114. -/
def checkRangeAccess (dbg : Bool) (w : World) (a length : Nat) : Outcome Unit Nat :=
  match checkPagingRange dbg w a length with
  | .ok n => if poke w a then .ok n else .err ()
  | x => x

/-- The bytes from `a` on. -/
def bytes (w : World) (a n : Nat) : List UInt8 := (List.range n).map fun i => w.mem (a + i)

/-- `read_memory`, lines 26-42, into a buffer of `length` bytes: the bytes read. More bytes than the buffer has are written past its end: `panic`. -/
def readMemory (dbg : Bool) (w : World) (a length : Nat) (unsafeRead : Bool) : Outcome Unit (List UInt8) :=
  match (if unsafeRead then .ok length else checkRangeAccess dbg w a length) with
  | .ok n =>
    if n = 0 then .err ()
    else if length < n then .panic
    else if (List.range n).all fun i => readable w (a + i) then .ok (bytes w a n) else .panic
  | .err e => .err e
  | .panic => .panic

/-- Writes bytes to memory. -/
def store (w : World) (a : Nat) (l : List UInt8) : World := { w with mem := fun x => if a ≤ x ∧ x < a + l.length then l.getD (x - a) 0 else w.mem x }

/-- `map_memory_region(page, PAGE_SIZE, attributes)`. -/
def mapPage (w : World) (page : Nat) (at' : Attrs) : Option World :=
  if w.large page then none else some { w with page := fun p => if p = page then some at' else w.page p }

/-- The copy in lines 82-85: an access that is not allowed raises an exception. -/
def copy (w : World) (a : Nat) (l : List UInt8) : Outcome Unit Unit × World :=
  if (List.range l.length).all fun i => writable w (a + i) then (.ok (), store w a l) else (.panic, w)

/-- Lines 68-93: one page. `chunk` is what is written to it; the destination is `address`, the start of the whole range (line 82). -/
def writePage (w : World) (address page : Nat) (chunk : List UInt8) : Outcome Unit Unit × World :=
  match w.page page with
  | none => (.panic, w)
  | some at' =>
    if at'.readOnly then
      match mapPage w page { at' with readOnly := false } with
      | none => (.panic, w)
      | some w1 => match copy w1 address chunk with
        | (.ok _, w2) => match mapPage w2 page at' with
          | none => (.panic, w2)
          | some w3 => (.ok (), w3)
        | x => x
    else copy w address chunk

/-- The loop, lines 61-93, for a range that does not reach the last page of the address space. -/
def writeFrom (w : World) (address : Nat) (buffer : List UInt8) (current : Nat) : Outcome Unit Unit × World :=
  if _h : current < address + buffer.length then
    let page := pageOf current
    let e := min (page + 4096) (address + buffer.length)
    match writePage w address page ((buffer.drop (current - address)).take (e - current)) with
    | (.ok _, w') => writeFrom w' address buffer e
    | x => x
  else (.ok (), w)
termination_by address + buffer.length - current
decreasing_by
  simp only [pageOf] at *
  omega

/-- `write_memory`, lines 51-95. A range that reaches the last page of the address space makes a debug build panic, and `page + PAGE_SIZE` or the end wrap
to zero otherwise: if the end does, nothing is written. If it is only the page, the length of the piece wraps and the copy raises an exception. -/
def writeMemory (dbg : Bool) (w : World) (a : Nat) (buffer : List UInt8) : Outcome Unit Unit × World :=
  match add dbg a buffer.length with
  | none => (.panic, w)
  | some e => match checkRangeAccess dbg w a buffer.length with
    | .ok n =>
      if n ≠ buffer.length then (.err (), w)
      else if e ≤ a then (.ok (), w)
      else if W - 4096 < e then (.panic, w)
      else writeFrom w a buffer a
    | .err e => (.err e, w)
    | .panic => (.panic, w)

end Verif.Debugger
