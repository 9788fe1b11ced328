import Verif.Log.Format
import Verif.AdvLog.Model

/-!
# The loggers

Model of `sdk/patina/src/log/serial_logger.rs` and `components/patina_adv_logger/src/logger.rs`: which records are
logged, and what of them reaches the serial port and the log in memory.

The log in memory is the one of `Verif.AdvLog`; here only its result for a single writer is used: an entry is stored
when it fits and counted as discarded otherwise.  The formatter hands a line to the writer in pieces of its own choice
(`core::fmt`); everything here is for any pieces.
-/

namespace Verif.Log

open Verif.AdvLog (Entry)

/-- `log::LevelFilter` and `Level::to_level_filter`, as numbers in their order (off, error, warn, info, debug, trace). -/
def Level.filter : Level → Nat
  | .error => 1
  | .warn => 2
  | .info => 3
  | .debug => 4
  | .trace => 5

/-- What a logger is made with: filters for targets, and the level for all others.
sdk/patina/src/log/serial_logger.rs 20-43; components/patina_adv_logger/src/logger.rs 25-56. -/
structure Config where
  filters : List (List Char × Nat)
  maxLevel : Nat

/-- `enabled`, the same in both loggers.  sdk/patina/src/log/serial_logger.rs 50-58;
components/patina_adv_logger/src/logger.rs 106-114. -/
def Config.enabled (c : Config) (target : List Char) (l : Level) : Bool :=
  decide (l.filter ≤ (((c.filters.find? fun f => f.1.isPrefixOf target).map (·.2)).getD c.maxLevel))

/-- The log in memory: its entries, the room left, the bytes discarded, and the two fields of its header that say
whether the port is written too.  components/patina_adv_logger/src/memory_log.rs 180-244. -/
structure MemLog where
  entries : List Entry
  room : Nat
  discarded : Nat
  portDisabled : Bool
  portLevels : BitVec 32

/-- `hardware_write_enabled`. components/patina_adv_logger/src/memory_log.rs 242-244. -/
def MemLog.portEnabled (m : MemLog) (level : BitVec 32) : Bool := !m.portDisabled && (level &&& m.portLevels != 0)

/-- `add_log_entry` by a single writer. components/patina_adv_logger/src/memory_log.rs 180-240. -/
def MemLog.add (m : MemLog) (e : Entry) : MemLog :=
  if e.size ≤ m.room then { m with entries := m.entries ++ [e], room := m.room - e.size }
  else { m with discarded := m.discarded + e.size }

/-- What a logger writes to: the port, the log in memory once its address is known, and the counter of the processor,
with how often it was read.  components/patina_adv_logger/src/logger.rs 25-34. -/
structure Sinks where
  port : List UInt8
  mem : Option MemLog
  clock : Nat → Nat
  reads : Nat

/-- `log_level_to_debug_level`. components/patina_adv_logger/src/logger.rs 131-139. -/
def Level.debugLevel : Level → BitVec 32
  | .error => 0x80000000
  | .warn => 0x00000002
  | .info => 0x00000040
  | .trace => 0x00400000
  | .debug => 0x00400000

/-- `log_write`. components/patina_adv_logger/src/logger.rs 59-75. -/
def Sinks.logWrite (s : Sinks) (level : BitVec 32) (data : List UInt8) : Sinks :=
  match s.mem with
  | none => { s with port := s.port ++ data }
  | some m =>
    { s with
      mem := some (m.add { phase := 4, level := level.toNat, timestamp := s.clock s.reads, data })
      reads := s.reads + 1
      port := if m.portEnabled level then s.port ++ data else s.port }

/-- `BufferedWriter`: the bytes waiting, and the logger behind it. components/patina_adv_logger/src/logger.rs 144-163. -/
structure Writer where
  waiting : List UInt8
  sinks : Sinks

/-- `flush`. components/patina_adv_logger/src/logger.rs 166-174. -/
def Writer.flush (w : Writer) (level : BitVec 32) : Writer :=
  if w.waiting.length = 0 then w
  else { waiting := [], sinks := w.sinks.logWrite level w.waiting }

/-- `write_str`, with a buffer of 128 bytes. components/patina_adv_logger/src/logger.rs 141-142, 181-203. -/
def Writer.writeStr (w : Writer) (level : BitVec 32) (data : List UInt8) : Writer :=
  if data.length < 128 then
    let w := if data.length > 128 - w.waiting.length then w.flush level else w
    { w with waiting := w.waiting ++ data }
  else
    let w := w.flush level
    { w with sinks := w.sinks.logWrite level data }

/-- `log` of the advanced logger: the line comes in pieces. components/patina_adv_logger/src/logger.rs 116-123. -/
def logAdvanced (c : Config) (target : List Char) (l : Level) (pieces : List (List UInt8)) (s : Sinks) : Sinks :=
  if c.enabled target l then
    ((pieces.foldl (fun (w : Writer) p => w.writeStr l.debugLevel p) ⟨[], s⟩).flush l.debugLevel).sinks
  else s

/-- `log` of the serial logger. sdk/patina/src/log/serial_logger.rs 60-65, 78-86. -/
def logSerial (c : Config) (target : List Char) (l : Level) (pieces : List (List UInt8)) (port : List UInt8) :
    List UInt8 :=
  if c.enabled target l then pieces.foldl (fun port p => port ++ p) port else port

/-- `adv_log_write`: the protocol through which other modules log; the level is given by the caller.
components/patina_adv_logger/src/component.rs 90-106. -/
def protocolWrite (level : Nat) (data : List UInt8) (s : Sinks) : Sinks := s.logWrite (BitVec.ofNat 32 level) data

end Verif.Log
