import Verif.Prelude

/-!
# The lines of a log

Model of `sdk/patina/src/log.rs` 41-99: how a log record becomes text, in the three formats a logger can be given.
-/

namespace Verif.Log

/-- `log::Level`; its `Display` text is used in the line. -/
inductive Level where
  | error
  | warn
  | info
  | debug
  | trace
deriving DecidableEq, Repr

/-- The text of a level (`Display` of the `log` crate). -/
def Level.text : Level → List Char
  | .error => "ERROR".toList
  | .warn => "WARN".toList
  | .info => "INFO".toList
  | .debug => "DEBUG".toList
  | .trace => "TRACE".toList

/-- A record: level, target, formatted arguments, and the place in the source, if known (`log::Record`). -/
structure Record where
  level : Level
  target : List Char
  args : List Char
  file : Option (List Char)
  line : Option Nat
deriving DecidableEq, Repr

/-- `Format` (sdk/patina/src/log.rs 43-50). -/
inductive Format where
  | standard
  | json
  | verboseJson
deriving DecidableEq, Repr

/-- `record.file().unwrap_or("unknown")`. sdk/patina/src/log.rs 65, 91. -/
def Record.fileText (r : Record) : List Char := r.file.getD "unknown".toList

/-- `record.line().unwrap_or(0)`, in decimal. sdk/patina/src/log.rs 66, 92. -/
def Record.lineText (r : Record) : List Char := Nat.toDigits 10 (r.line.getD 0)

/-- `Format::write`: the text of the line.  In how many pieces it is handed to the writer is left open; the loggers are
modelled for any pieces.  sdk/patina/src/log.rs 54-98. -/
def Format.write (f : Format) (r : Record) : List Char :=
  match f with
  | .standard =>
    if r.level = .trace then
      "TRACE - ".toList ++ r.fileText ++ ":".toList ++ r.lineText ++ ": ".toList ++ r.args ++ "\n".toList
    else r.level.text ++ " - ".toList ++ r.args ++ "\n".toList
  | .json => "{\"level\": \"".toList ++ r.level.text ++ "\" \"message\": \"".toList ++ r.args ++ "\"}\n".toList
  | .verboseJson =>
    "{\"level\": \"".toList ++ r.level.text ++ "\", \"target\": \"".toList ++ r.target ++ "\", \"message\": \"".toList ++
      r.args ++ "\", \"file\": \"".toList ++ r.fileText ++ "\", \"line\": \"".toList ++ r.lineText ++ "\"}\n".toList

end Verif.Log
