import Verif.Prelude
/-!
Model of the monitor commands, the register description and the modules of the debugger: `core/patina_debugger/src/dbg_target/monitor.rs`, `dbg_target.rs` lines 217-249,
`system.rs`.

* Strings are the bytes of their UTF-8 form.
* Tokens are the words of `split_whitespace`, which are not empty and have no white space in them: `trim` in line 105 of system.rs changes nothing.
-/
namespace Verif.Debugger

/-! ### The buffer for output -/

/-- `MonitorBuffer`, monitor.rs lines 167-172: the bytes in the buffer, the bytes still to be skipped and what was sent. -/
structure MonBuf where
  buf : List UInt8
  skip : Nat
  sent : List (List UInt8)

/-- `new` and `set_start_offset`, lines 176-183. -/
def MonBuf.new (skip : Nat) : MonBuf := ⟨[], skip, []⟩

/-- `flush`, lines 186-192. -/
def MonBuf.flush (b : MonBuf) : MonBuf := if b.buf.length > 0 then { b with buf := [], sent := b.sent ++ [b.buf] } else b

/-- `write_str`, lines 196-228, for a buffer of `n` bytes; `none` if a range is out of bounds. -/
def MonBuf.write (n : Nat) (b : MonBuf) (s : List UInt8) : Option MonBuf :=
  if b.skip > 0 && b.skip ≥ s.length then some { b with skip := b.skip - s.length }
  else
    let data := s.drop b.skip
    let b := { b with skip := 0 }
    if data.length < n then
      let b := if data.length > n - b.buf.length then b.flush else b
      if b.buf.length + data.length ≤ n then some { b with buf := b.buf ++ data } else none
    else some { b.flush with sent := b.flush.sent ++ [data] }

/-- All the writes of a command, then `drop`, lines 231-235. -/
def MonBuf.all (n : Nat) : MonBuf → List (List UInt8) → Option MonBuf
  | b, [] => some b.flush
  | b, s :: ss => match b.write n s with
    | none => none
    | some b => MonBuf.all n b ss

/-! ### The description of the registers -/

/-- `target_description_xml`, dbg_target.rs lines 218-248, for the text `bytes` and a buffer of `room` bytes: the bytes written. A range whose end is before its start
panics, and so does an overflow if checks are on. -/
def describe (dbg : Bool) (bytes : List UInt8) (offset length room : Nat) : Outcome Unit (List UInt8) :=
  if bytes.length ≤ offset then .ok []
  else if 2 ^ 64 ≤ offset + length ∧ dbg then .panic
  else
    let e := min ((offset + length) % 2 ^ 64) bytes.length
    if e < offset then .panic else .ok (((bytes.drop offset).take (e - offset)).take room)

/-! ### Modules -/

structure Module where
  name : List UInt8
  base : Nat
  size : Nat
deriving DecidableEq, Repr

/-- `Modules`, system.rs lines 72-76. -/
structure Modules where
  modules : List Module
  breakpoints : List (List UInt8)
  breakAll : Bool
deriving DecidableEq, Repr

/-- `.efi` -/
def efi : List UInt8 := [0x2E, 0x65, 0x66, 0x69]

/-- `trim_end_matches(".efi")`. -/
def trimEfi (s : List UInt8) : List UInt8 :=
  if _h : 4 ≤ s.length ∧ s.drop (s.length - 4) = efi then trimEfi (s.take (s.length - 4)) else s
termination_by s.length
decreasing_by
  simp only [List.length_take]
  omega

/-- `to_ascii_lowercase` of a byte. -/
def lower (b : UInt8) : UInt8 := if 0x41 ≤ b ∧ b ≤ 0x5A then b + 0x20 else b

/-- `eq_ignore_ascii_case`. -/
def sameIgnoringCase (a b : List UInt8) : Bool := a.map lower == b.map lower

namespace Modules

/-- `new`, lines 79-81. -/
def new : Modules := ⟨[], [], false⟩

/-- `add_module`, lines 83-85. -/
def addModule (m : Modules) (x : Module) : Modules := { m with modules := m.modules ++ [x] }

/-- `check_module_breakpoints`, lines 87-100. -/
def check (m : Modules) (name : List UInt8) : Bool := m.breakAll || m.breakpoints.any fun b => sameIgnoringCase b (trimEfi name)

/-- `add_module_breakpoint`, lines 103-108. -/
def addBreakpoint (m : Modules) (name : List UInt8) : Modules :=
  if (trimEfi name).isEmpty then m else { m with breakpoints := m.breakpoints ++ [trimEfi name] }

/-- `break_on_all`, lines 110-112. -/
def breakOnAll (m : Modules) : Modules := { m with breakAll := true }

/-- `clear_module_breakpoints`, lines 114-117. -/
def clear (m : Modules) : Modules := { m with breakpoints := [], breakAll := false }

/-- The loop of `list`, monitor.rs lines 146-153: the modules shown. -/
def listFrom (count : Nat) : Nat → List Module → List Module
  | _, [] => []
  | printed, x :: xs => if printed + 1 ≥ count then [x] else x :: listFrom count (printed + 1) xs

/-- `list`, lines 142-157. -/
def list (m : Modules) (count start : Nat) : List Module := listFrom count 0 (m.modules.drop start)

end Modules

/-! ### Commands -/

/-- What a command does, monitor.rs lines 55-107: the callback of an external command gets the rest of the words. -/
inductive Command where
  | help
  | modules (args : List (List UInt8))
  | reboot
  | state
  | disableChecks
  | arch (args : List (List UInt8))
  | external (i : Nat) (args : List (List UInt8))
  | unknown
deriving DecidableEq, Repr

/-- The bytes of a text. -/
def text (s : String) : List UInt8 := s.toUTF8.data.toList

/-- The number of the first external command with the name (`handle_monitor_command`, system.rs lines 46-61). -/
def findCommand (names : List (List UInt8)) (name : List UInt8) : Option Nat := names.findIdx? (· == name)

/-- Lines 55-107, after the offset was taken off; `names` are the external commands in the order they were added. -/
def dispatch (names : List (List UInt8)) : List (List UInt8) → Command
  | [] => .help
  | t :: args =>
    if t == text "help" then .help
    else if t == text "mod" then .modules args
    else if t == text "reboot" || t == text "R" then .reboot
    else if t == text "?" then .state
    else if t == text "disablechecks" then .disableChecks
    else if t == text "arch" then .arch args
    else match findCommand names t with
      | some i => .external i args
      | none => .unknown

end Verif.Debugger
