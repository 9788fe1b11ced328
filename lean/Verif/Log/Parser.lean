import Verif.Prelude
import Verif.AdvLog.Model

/-!
# The parser of logs

Model of `components/patina_adv_logger/src/parser.rs` and of `open_log`
(`components/patina_adv_logger/src/memory_log.rs` 137-178): a log that was saved from memory is turned into text.
-/

namespace Verif.Log.Parser

open Verif.AdvLog (Entry)

/-- The fields of `AdvLoggerInfo` the parser looks at (components/patina_adv_logger/src/memory_log.rs 270-312); all are
`u32`, but the frequency, which is `u64`. -/
structure Header where
  signature : Nat
  version : Nat
  bufOffset : Nat
  current : Nat
  bufSize : Nat
  frequency : Nat

/-- `size_of::<AdvLoggerInfo>()` (components/patina_adv_logger/src/memory_log.rs 273-312). -/
def headerSize : Nat := 80

/-- `open_log` and the texts of `Parser::open` for its errors.  The header is the one at the beginning of the bytes, of
which there are `len`.  That the bytes are aligned as the header has to be is not checked by the code and not modelled.
components/patina_adv_logger/src/memory_log.rs 137-178; components/patina_adv_logger/src/parser.rs 24-34. -/
def openLog (dbg : Bool) (h : Header) (len : Nat) : Outcome EfiError Unit :=
  if len < headerSize then .err .bufferTooSmall
  else if h.signature ≠ 0x474F4C41 then .err .invalidParameter
  else if h.version ≠ 5 then .err .unsupported
  else if h.current < h.bufOffset then .err .invalidParameter
  else if dbg ∧ 2 ^ 32 ≤ h.bufOffset + h.bufSize then .panic
  else if h.current > (h.bufOffset + h.bufSize) % 2 ^ 32 then .err .invalidParameter
  else if h.bufOffset < headerSize then .err .invalidParameter
  else if h.current > len % 2 ^ 32 then .err .bufferTooSmall
  else if len < h.bufOffset then .panic
  else .ok ()

/-- `iter()` of a log opened for reading: the data are all bytes behind the header.
components/patina_adv_logger/src/memory_log.rs 175-177, 246-248, 474-517. -/
def entriesIn (h : Header) (bytes : List UInt8) : List Entry :=
  AdvLog.readFrom (fun a => bytes.getD a 0) h.bufOffset (bytes.length - h.bufOffset) h.current h.bufOffset

/-- The text of a number with at least `w` digits, as `{:02}` and `{:03}` give it. -/
def digits (w n : Nat) : List Char :=
  List.replicate (w - (Nat.toDigits 10 n).length) '0' ++ Nat.toDigits 10 n

/-- A text filled up with blanks on the right, as `{:<5}` and `{:<8}` give it. -/
def padded (w : Nat) (l : List Char) : List Char := l ++ List.replicate (w - l.length) ' '

/-- `phase_name`. components/patina_adv_logger/src/parser.rs 102-118. -/
def phaseName : Nat → String
  | 0 => "UNSPEC"
  | 1 => "SEC"
  | 2 => "PEI"
  | 3 => "PEI64"
  | 4 => "DXE"
  | 5 => "RUNTIME"
  | 6 => "MM_CORE"
  | 7 => "MM"
  | 8 => "SMM_CORE"
  | 9 => "SMM"
  | 10 => "TFA"
  | 11 => "CNT"
  | _ => "UNKNOWN"

/-- `level_name`. components/patina_adv_logger/src/parser.rs 120-132. -/
def levelName (level : Nat) : String :=
  if level &&& 0x80000000 ≠ 0 then "ERR"
  else if level &&& 0x00000002 ≠ 0 then "WARN"
  else if level &&& 0x00000040 ≠ 0 then "INFO"
  else if level &&& 0x00400000 ≠ 0 then "VERB"
  else "UNKN"

/-- The fields of a time of day. -/
structure Clock where
  hours : Nat
  minutes : Nat
  seconds : Nat
  milliseconds : Nat
deriving DecidableEq, Repr

/-- The arithmetic of `get_time_str`; `none` is a division by zero, a panic.
components/patina_adv_logger/src/parser.rs 88-97. -/
def clockOf (timestamp frequency : Nat) : Option Clock :=
  if frequency / 1000 = 0 then none
  else
    let ms := timestamp / (frequency / 1000)
    some { milliseconds := ms % 1000, seconds := ms / 1000 % 60, minutes := ms / 1000 / 60 % 60,
           hours := ms / 1000 / 60 / 60 % 24 }

/-- `get_time_str`. components/patina_adv_logger/src/parser.rs 82-100. -/
def timeText (timestamp frequency : Nat) : Option (List Char) :=
  if frequency = 0 then some (Nat.toDigits 10 timestamp)
  else (clockOf timestamp frequency).map fun c =>
    digits 2 c.hours ++ ":".toList ++ digits 2 c.minutes ++ ":".toList ++ digits 2 c.seconds ++ ".".toList ++
      digits 3 c.milliseconds

/-- The bytes of a text of ASCII characters. -/
def ascii (l : List Char) : List UInt8 := l.map fun c => UInt8.ofNat c.toNat

/-- The metadata of an entry, as they are printed; `none` is a panic.
components/patina_adv_logger/src/parser.rs 60-68. -/
def metaText (frequency : Nat) (e : Entry) : Option (List UInt8) :=
  (timeText e.timestamp frequency).map fun t =>
    ascii (padded 5 (levelName e.level).toList ++ "|".toList ++ padded 8 (phaseName e.phase).toList ++ "|".toList ++ t ++
      "| ".toList)

/-- The output: what it has got, and how many bytes it takes of each write that it is given, or an error
(`std::io::Write::write`). -/
structure Out where
  got : List UInt8
  takes : List UInt8 → Option Nat

/-- `out.write(..)`: the count of bytes written is not looked at.
components/patina_adv_logger/src/parser.rs 69, 73. -/
def Out.write (o : Out) (data : List UInt8) : Option Out :=
  (o.takes data).map fun n => { o with got := o.got ++ data.take n }

/-- How `write_log` ends. -/
inductive Result where
  | done (o : Out)
  | failed
  | panics

/-- An entry carried over from another phase is dropped. components/patina_adv_logger/src/parser.rs 52-58. -/
def dropOther (carry : Option Entry) (e : Entry) : Option Entry :=
  match carry with
  | some c => if c.phase ≠ e.phase then none else some c
  | none => none

/-- One round of the loop of `write_log`: the entry carried over is the one before when its line is not finished.
components/patina_adv_logger/src/parser.rs 51-75. -/
def writeEntry (withMeta : Bool) (frequency : Nat) (carry : Option Entry) (e : Entry) (o : Out) : Result :=
  if withMeta ∧ dropOther carry e = none then
    match metaText frequency e with
    | none => .panics
    | some t =>
      match o.write t with
      | none => .failed
      | some o =>
        match o.write e.data with
        | none => .failed
        | some o => .done o
  else
    match o.write e.data with
    | none => .failed
    | some o => .done o

/-- What is carried over to the next entry. components/patina_adv_logger/src/parser.rs 74. -/
def carryOf (e : Entry) : Option Entry := if e.data.getLast? = some 10 then none else some e

/-- The loop of `write_log`. components/patina_adv_logger/src/parser.rs 47-79. -/
def writeEntries (withMeta : Bool) (frequency : Nat) (carry : Option Entry) : List Entry → Out → Result
  | [], o => .done o
  | e :: es, o =>
    match writeEntry withMeta frequency carry e o with
    | .done o => writeEntries withMeta frequency (carryOf e) es o
    | r => r

/-- `write_log`. components/patina_adv_logger/src/parser.rs 47-79. -/
def writeLog (withMeta : Bool) (h : Header) (bytes : List UInt8) (o : Out) : Result :=
  writeEntries withMeta h.frequency none (entriesIn h bytes) o

end Verif.Log.Parser
