import Verif.Prelude
import Verif.Bytes
/-!
Model of the in-memory log of `/repo/components/patina_adv_logger/src/memory_log.rs`.

Writers are modelled at the granularity of their shared-memory actions: the initial atomic load, each
compare-exchange, the discard counter update, and each byte store into the reserved region.
Any number of writers may be interleaved arbitrarily.

Simplifications:
* Atomics are sequentially consistent here (the code uses `Relaxed` on a single location each).
* The three writes of an entry (header, payload, zero fill: lines 230-236) are done byte by byte in
  increasing address order.
* The data region is a function from offset (relative to the log header, like
  `log_current_offset`) to byte; it has `size` bytes starting at `bufOffset`.
* Release-profile arithmetic (wrapping `u32` addition) is used for `current_offset + message_size`.
-/
namespace Verif.AdvLog

/-- `LogEntry` (lines 24-40). -/
structure Entry where
  phase : Nat
  level : Nat
  timestamp : Nat
  data : List UInt8
deriving DecidableEq, Repr

/-- `size_of::<AdvLoggerMessageEntry>()`: 4+1+1+4+8+2+2+2, packed (lines 387-409). -/
def headerSize : Nat := 24

/-- `align_up(x, 8)` on values that do not overflow (`Verif.Base.alignUp_spec`). -/
def align8 (x : Nat) : Nat := (x + 7) / 8 * 8

/-- `message_size`, lines 190-192. -/
def Entry.size (e : Entry) : Nat := align8 (headerSize + e.data.length)

/-- `AdvLoggerMessageEntry::from_log_entry(..).write_to(header_slice)`, lines 411-447: packed
little-endian fields; `message_length` is the payload length truncated to 16 bits (line 446). -/
def encodeHeader (e : Entry) : List UInt8 :=
  leBytes 4 0x324D4C41 ++ leBytes 1 2 ++ leBytes 1 0 ++ leBytes 4 e.level ++ leBytes 8 e.timestamp ++
  leBytes 2 e.phase ++ leBytes 2 e.data.length ++ leBytes 2 headerSize

/-- The bytes stored for an entry: header, payload, zero fill (lines 227-236). -/
def encode (e : Entry) : List UInt8 :=
  encodeHeader e ++ e.data ++ List.replicate (e.size - (headerSize + e.data.length)) 0

/-- Program counter of a writer executing `add_log_entry` (lines 180-240). -/
inductive Pc where
  /-- about to load `log_current_offset` (line 198) -/
  | start (e : Entry)
  /-- at the loop head with the last value seen (lines 199-209) -/
  | loop (e : Entry) (cur : Nat)
  /-- space reserved at `off`, first `k` bytes stored (lines 219-236) -/
  | writing (e : Entry) (off k : Nat)
  /-- returned `Ok(())` -/
  | done (e : Entry) (off : Nat)
  /-- returned `Err(OutOfResources)` after counting the bytes as discarded (lines 212-217) -/
  | failed (e : Entry)
deriving DecidableEq, Repr

/-- Shared state: header fields (lines 274-315), log memory, and the writers. -/
structure State where
  bufOffset : Nat
  bufSize : Nat
  current : Nat
  discarded : Nat
  mem : Nat → UInt8
  pcs : List Pc

/-- `full_size`, lines 352-354. -/
def State.full (s : State) : Nat := s.bufOffset + s.bufSize

/-- Wrapping `u32` addition. -/
def add32 (a b : Nat) : Nat := (a + b) % 2 ^ 32

/-- One byte store. -/
def store (mem : Nat → UInt8) (a : Nat) (b : UInt8) : Nat → UInt8 := fun x => if x = a then b else mem x

/-- One atomic step of writer `t` (lines 180-240); finished writers do nothing. -/
def step (s : State) (t : Nat) : State :=
  match s.pcs[t]? with
  | none => s
  | some (.start e) => { s with pcs := s.pcs.set t (.loop e s.current) }
  | some (.loop e cur) =>
    if add32 cur e.size ≤ s.full then
      -- compare_exchange(cur, cur + size)
      if s.current = cur then
        { s with current := add32 cur e.size, pcs := s.pcs.set t (.writing e cur 0) }
      else
        { s with pcs := s.pcs.set t (.loop e s.current) }
    else
      { s with discarded := add32 s.discarded e.size, pcs := s.pcs.set t (.failed e) }
  | some (.writing e off k) =>
    if h : k < (encode e).length then
      { s with mem := store s.mem (off + k) ((encode e)[k]), pcs := s.pcs.set t (.writing e off (k + 1)) }
    else
      { s with pcs := s.pcs.set t (.done e off) }
  | some (.done _ _) => s
  | some (.failed _) => s

/-- Run a schedule: the list of writers taking the next step. -/
def run (s : State) (schedule : List Nat) : State := schedule.foldl step s

/-- Bytes `[a, a+n)` of the log memory. -/
def readBytes (mem : Nat → UInt8) (a n : Nat) : List UInt8 := (List.range n).map (fun i => mem (a + i))

/-- `AdvLogIterator::next`, lines 474-517: the entry at `offset` and the following offset. The
`get(..)?` range checks are against the data region (`bufSize` bytes). No signature is checked. -/
def next (mem : Nat → UInt8) (bufOffset bufSize current offset : Nat) : Option (Entry × Nat) :=
  if offset + headerSize > current then none
  else if offset - bufOffset + headerSize > bufSize then none
  else
    let h := readBytes mem offset headerSize
    let level := leVal ((h.drop 6).take 4)
    let timestamp := leVal ((h.drop 10).take 8)
    let phase := leVal ((h.drop 18).take 2)
    let len := leVal ((h.drop 20).take 2)
    if offset + headerSize + len > current then none
    else if offset - bufOffset + headerSize + len > bufSize then none
    else some ({ phase, level, timestamp, data := readBytes mem (offset + headerSize) len },
      offset + align8 (headerSize + len))

/-- The iterator run to exhaustion (`iter()`, line 246, and `next` until `None`). -/
def readFrom (mem : Nat → UInt8) (bufOffset bufSize current offset : Nat) : List Entry :=
  match h : next mem bufOffset bufSize current offset with
  | none => []
  | some (e, offset') => e :: readFrom mem bufOffset bufSize current offset'
termination_by current - offset
decreasing_by
  simp only [next] at h
  split at h
  · cases h
  · split at h
    · cases h
    · split at h
      · cases h
      · split at h
        · cases h
        · simp only [Option.some.injEq, Prod.mk.injEq] at h
          have h2 := h.2
          simp only [headerSize, align8] at *
          omega

/-- All entries the iterator yields in a state. -/
def State.entries (s : State) : List Entry := readFrom s.mem s.bufOffset s.bufSize s.current s.bufOffset

end Verif.AdvLog
