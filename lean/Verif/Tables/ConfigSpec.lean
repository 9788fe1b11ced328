import Verif.Tables.Config
/-!
What users of the system table rely on: which configuration table a GUID has, and that the checksum in a table's header is right.
-/
namespace Verif.Tables
open Verif.MemMap (crc32)

/-- The configuration tables as a reader of the system table finds them. -/
def St.entries (s : St) : List Entry := readEntries s.mem s.sys.table s.sys.count

/-- The table the first entry with the GUID points to. -/
def lookup (l : List Entry) (g : Nat) : Option Nat := (l.find? fun e => e.guid == g).map Entry.table

/-- The rule for table headers: bytes 12 to 15 are the size of the table in bytes; bytes 16 to 19 are the CRC-32 of that many bytes with
zeroes in place of these four. -/
def ChecksumOk (bytes : List UInt8) : Prop :=
  leVal ((bytes.drop 12).take 4) = bytes.length ∧
    leVal ((bytes.drop 16).take 4) = crc32 (bytes.take 16 ++ [0, 0, 0, 0] ++ bytes.drop 20)

/-- A system table in order: the pointer is null exactly if there are no entries, no GUID has two entries, no entry is null. -/
structure Ordered (s : St) : Prop where
  null : s.sys.table = 0 ↔ s.sys.count = 0
  once : (s.entries.map Entry.guid).Nodup
  some : ∀ e ∈ s.entries, e.table ≠ 0

/-- The table last installed under the GUID, if it has not been removed since. -/
def installed (g : Nat) : List Op → Option Nat → Option Nat
  | [], r => r
  | .install _ g' t :: l, r => installed g l (if g' = g then (if t = 0 then none else Option.some t) else r)
  | _ :: l, r => installed g l r

/-- The GUIDs for which a call succeeded: all but those which tried to remove what was not there. `live` says what is there before. -/
def announced : List Op → (Nat → Option Nat) → List Nat
  | [], _ => []
  | .install _ g t :: l, live =>
    (if t = 0 ∧ live g = none then [] else [g]) ++ announced l (fun x => if x = g then (if t = 0 then none else Option.some t) else live x)
  | _ :: l, live => announced l live

/-- Memory does not run out, the allocator never answers with address 0, and service tables keep their sizes: 376 and 136 bytes. -/
def Op.Proper : Op → Prop
  | .install alloc _ _ => ∃ a, alloc = Option.some a ∧ a ≠ 0
  | .bootFunctions f => f.length = 352
  | .runtimeFunctions f => f.length = 112
  | _ => True

/-- Whether the checksum of the system table is up to date, by what happened last: drivers that write the console fields do not
recompute it. -/
def upToDate : List Op → (Nat → Option Nat) → Bool → Bool
  | [], _, r => r
  | .install _ g t :: l, live, r =>
    upToDate l (fun x => if x = g then (if t = 0 then none else Option.some t) else live x) (r || !(decide (t = 0) && (live g).isNone))
  | .console _ :: l, live, _ => upToDate l live false
  | .checksum :: l, live, _ => upToDate l live true
  | .clearBoot :: l, live, _ => upToDate l live true
  | _ :: l, live, r => upToDate l live r

end Verif.Tables
