import Verif.Protocol.Props
import Verif.Bytes
/-!
Model of the end of the DXE phase: `/repo/patina_dxe_core/src/lib.rs` lines 560-622, what `start` does after the last dispatch: it names the missing architectural
protocols, reports the status code for the handoff and enters boot device selection (BDS).

The protocol database is that of `Verif.Protocol.Model`. A GUID is the number whose digits are its bytes in memory. What the drivers do when they are called is a parameter. Log output
other than the names of missing protocols is left out.
-/
namespace Verif.Misc.Handoff

open Verif.Protocol

/-- The number of a GUID that is written as four hexadecimal groups and six bytes, with the first three groups little endian in memory (`to_bytes_le`, `Guid::from_fields`). -/
def guid (a b c : Nat) (rest : List UInt8) : Nat := (leBytes 4 a ++ leBytes 2 b ++ leBytes 2 c ++ rest).foldl (fun n x => 256 * n + x.toNat) 0

/-- `ARCH_PROTOCOLS`, lib.rs lines 573-587. -/
def ARCH : List (Nat × String) :=
  [(guid 0xa46423e3 0x4617 0x49f1 [0xb9, 0xff, 0xd1, 0xbf, 0xa9, 0x11, 0x58, 0x39], "Security"),
   (guid 0x26baccb1 0x6f42 0x11d4 [0xbc, 0xe7, 0x00, 0x80, 0xc7, 0x3c, 0x88, 0x81], "Cpu"),
   (guid 0x26baccb2 0x6f42 0x11d4 [0xbc, 0xe7, 0x00, 0x80, 0xc7, 0x3c, 0x88, 0x81], "Metronome"),
   (guid 0x26baccb3 0x6f42 0x11d4 [0xbc, 0xe7, 0x00, 0x80, 0xc7, 0x3c, 0x88, 0x81], "Timer"),
   (guid 0x665e3ff6 0x46cc 0x11d4 [0x9a, 0x38, 0x00, 0x90, 0x27, 0x3f, 0xc1, 0x4d], "Bds"),
   (guid 0x665e3ff5 0x46cc 0x11d4 [0x9a, 0x38, 0x00, 0x90, 0x27, 0x3f, 0xc1, 0x4d], "Watchdog"),
   (guid 0xb7dfb4e1 0x052f 0x449f [0x87, 0xbe, 0x98, 0x18, 0xfc, 0x91, 0xb7, 0x33], "Runtime"),
   (guid 0x1e5668e2 0x8481 0x11d4 [0xbc, 0xf1, 0x00, 0x80, 0xc7, 0x3c, 0x88, 0x81], "Variable"),
   (guid 0x6441f818 0x6362 0x4e44 [0xb5, 0x70, 0x7d, 0xba, 0x31, 0xdd, 0x24, 0x53], "Variable Write"),
   (guid 0x5053697e 0x2cbc 0x4819 [0x90, 0xd9, 0x05, 0x80, 0xde, 0xee, 0x57, 0x54], "Capsule"),
   (guid 0x1da97072 0xbddc 0x4b30 [0x99, 0xf1, 0x72, 0xa0, 0xb5, 0x6f, 0xff, 0x2a], "Monotonic Counter"),
   (guid 0x27cfac88 0x46cc 0x11d4 [0x9a, 0x38, 0x00, 0x90, 0x27, 0x3f, 0xc1, 0x4d], "Reset"),
   (guid 0x27cfac87 0x46cc 0x11d4 [0x9a, 0x38, 0x00, 0x90, 0x27, 0x3f, 0xc1, 0x4d], "Real Time Clock")]

/-- The GUID of the status code protocol, `/repo/sdk/patina_pi/src/protocols/status_code.rs` line 17. -/
def STATUS_CODE : Nat := guid 0xD2B2B828 0x0826 0x48A7 [0xB3, 0xDF, 0x98, 0x3C, 0x00, 0x60, 0x24, 0xF0]
/-- The GUID of the BDS protocol, `/repo/sdk/patina_pi/src/protocols/bds.rs` line 21. -/
def BDS : Nat := guid 0x665E3FF6 0x46CC 0x11d4 [0x9A, 0x38, 0x00, 0x90, 0x27, 0x3F, 0xC1, 0x4D]
/-- `EFI_PROGRESS_CODE`, `/repo/sdk/patina_pi/src/status_code.rs` line 33. -/
def PROGRESS : Nat := 1
/-- `EFI_SOFTWARE_DXE_CORE | EFI_SW_DXE_CORE_PC_HANDOFF_TO_NEXT`, status_code.rs lines 518 and 577 with lines 62 and 78. -/
def HANDOFF : Nat := (0x03000000 ||| 0x00040000) ||| (0x1000 ||| 0x00000001)

/-- What can be seen from outside, in order: a missing protocol is named, the status code is reported through an interface, BDS is entered through an interface. -/
inductive Act where
  | missing (name : String)
  | report (interface type value : Nat)
  | enter (interface : Nat)
deriving DecidableEq, Repr

/-- How it ends: `start` returns success; BDS does not return; a panic; a null pointer is used. -/
inductive End where
  | returned
  | handed
  | panic
  | null
deriving DecidableEq, Repr

/-- The drivers: what the reporting of the status code does to the database, and whether BDS returns. -/
structure Drivers where
  report : Nat → Db → Db
  returns : Nat → Db → Bool

/-- `core_display_missing_arch_protocols`, lib.rs lines 589-596. -/
def missing (db : Db) : List Act :=
  ARCH.filterMap fun (g, name) => match db.locateProtocol g with
    | .ok _ => none
    | _ => some (.missing name)

/-- `call_bds`, lib.rs lines 614-622: entering BDS. -/
def enterBds (d : Drivers) (db : Db) : List Act × End :=
  match db.locateProtocol BDS with
  | .ok 0 => ([], .null)
  | .ok p => ([.enter p], if d.returns p db then .returned else .handed)
  | _ => ([], .returned)

/-- `call_bds`, lib.rs lines 598-622: a null status code interface is unwrapped. -/
def callBds (d : Drivers) (db : Db) : List Act × End :=
  match db.locateProtocol STATUS_CODE with
  | .ok 0 => ([], .panic)
  | .ok p =>
    let r := enterBds d (d.report p db)
    (.report p PROGRESS HANDOFF :: r.1, r.2)
  | _ => enterBds d db

/-- `start`, lib.rs lines 560-569: the end of it. -/
def finish (d : Drivers) (db : Db) : List Act × End :=
  let r := callBds d db
  (missing db ++ r.1, r.2)

/-! ### Specification -/

/-- The architectural protocols of the PI specification, by the bytes of their GUIDs in memory. -/
def architectural : List (Nat × String) :=
  [(0xe32364a41746f149b9ffd1bfa9115839, "Security"), (0xb1ccba26426fd411bce70080c73c8881, "Cpu"), (0xb2ccba26426fd411bce70080c73c8881, "Metronome"),
   (0xb3ccba26426fd411bce70080c73c8881, "Timer"), (0xf63f5e66cc46d4119a380090273fc14d, "Bds"), (0xf53f5e66cc46d4119a380090273fc14d, "Watchdog"),
   (0xe1b4dfb72f059f4487be9818fc91b733, "Runtime"), (0xe268561e8184d411bcf10080c73c8881, "Variable"), (0x18f841646263444eb5707dba31dd2453, "Variable Write"),
   (0x7e695350bc2c194890d90580deee5754, "Capsule"), (0x7270a91ddcbd304b99f172a0b56fff2a, "Monotonic Counter"), (0x88accf27cc46d4119a380090273fc14d, "Reset"),
   (0x87accf27cc46d4119a380090273fc14d, "Real Time Clock")]

/-- The protocols that are used here. -/
def bdsGuid : Nat := 0xf63f5e66cc46d4119a380090273fc14d
def statusCodeGuid : Nat := 0x28b8b2d22608a748b3df983c006024f0

/-- Some handle carries the protocol, and the one with the lowest key has this interface. -/
def Serves (db : Db) (g i : Nat) : Prop := ∃ h, lookup db h g = some i ∧ ∀ h', (lookup db h' g).isSome = true → h ≤ h'

/-- No handle carries the protocol. -/
def Absent (db : Db) (g : Nat) : Prop := ∀ h, lookup db h g = none

theorem arch_eq : ARCH = architectural := by decide +kernel
theorem bds_eq : BDS = bdsGuid := by decide +kernel
theorem status_eq : STATUS_CODE = statusCodeGuid := by decide +kernel

theorem serves_locate {db : Db} (hr : Reachable db) {g i : Nat} (h : Serves db g i) : db.locateProtocol g = .ok i := by
  obtain ⟨k, hk, hl⟩ := h
  rcases locate_protocol_exact hr g with ⟨_, hn⟩ | ⟨k', i', hk', h2, hl'⟩
  · rw [hn k] at hk
    cases hk
  · have e : k = k' := Nat.le_antisymm (hl k' (by rw [hk']; rfl)) (hl' k (by rw [hk]; rfl))
    subst e
    rw [hk] at hk'
    cases hk'
    exact h2

theorem absent_locate {db : Db} (hr : Reachable db) {g : Nat} (h : Absent db g) : db.locateProtocol g = .err .notFound := by
  rcases locate_protocol_exact hr g with ⟨a, _⟩ | ⟨k, i, hk, _, _⟩
  · exact a
  · rw [h k] at hk
    cases hk

theorem missing_only (db : Db) {a : Act} (h : a ∈ missing db) : ∃ n, a = .missing n := by
  simp only [missing, List.mem_filterMap] at h
  obtain ⟨⟨g, n⟩, _, hx⟩ := h
  refine ⟨n, ?_⟩
  simp only at hx
  split at hx
  · cases hx
  · cases hx
    rfl

theorem call_no_missing (d : Drivers) (db : Db) (n : String) : Act.missing n ∉ (callBds d db).1 := by
  have he : ∀ db, Act.missing n ∉ (enterBds d db).1 := by
    intro db
    unfold enterBds
    split <;> simp
  unfold callBds
  split
  · simp
  · simp [he]
  · exact he db

/-! ### The properties -/

/-- The names that are given out are exactly those of the architectural protocols that no handle carries. -/
theorem missing_named (d : Drivers) {db : Db} (hr : Reachable db) (name : String) :
    .missing name ∈ (finish d db).1 ↔ ∃ g, (g, name) ∈ architectural ∧ Absent db g := by
  have h1 : Act.missing name ∈ (finish d db).1 ↔ .missing name ∈ missing db := by
    simp only [finish, List.mem_append]
    exact ⟨fun h => h.resolve_right (call_no_missing d db name), .inl⟩
  rw [h1]
  simp only [missing, List.mem_filterMap, arch_eq]
  constructor
  · rintro ⟨⟨g, n⟩, hm, hx⟩
    rcases locate_protocol_exact hr g with ⟨a, b⟩ | ⟨k, i, _, b, _⟩
    · simp only [a] at hx
      cases hx
      exact ⟨g, hm, b⟩
    · simp only [b] at hx
      cases hx
  · rintro ⟨g, hm, ha⟩
    exact ⟨(g, name), hm, by simp only [absent_locate hr ha]⟩

/-- With both protocols: the status code is reported once, then BDS is entered once, and nothing follows. BDS is looked for after the report. -/
theorem handed_over (d : Drivers) {db : Db} (hr : Reachable db) {s b : Nat} (hs : Serves db statusCodeGuid s) (h0 : s ≠ 0) (hr' : Reachable (d.report s db))
    (hb : Serves (d.report s db) bdsGuid b) (hb0 : b ≠ 0) :
    ∃ names, (∀ a ∈ names, ∃ n, a = .missing n) ∧ finish d db = (names ++ [.report s 1 0x03041001, .enter b], if d.returns b (d.report s db) then .returned else .handed) := by
  refine ⟨missing db, fun a => missing_only db, ?_⟩
  have e1 := serves_locate hr hs
  have e2 := serves_locate hr' hb
  have hv : HANDOFF = 0x03041001 := by decide
  simp only [finish, callBds, enterBds, status_eq, e1, bds_eq, e2, PROGRESS, hv]

/-- Without a status code protocol BDS is entered all the same. -/
theorem entered_without_status_code (d : Drivers) {db : Db} (hr : Reachable db) (hs : Absent db statusCodeGuid) {b : Nat} (hb : Serves db bdsGuid b) (hb0 : b ≠ 0) :
    ∃ names, (∀ a ∈ names, ∃ n, a = .missing n) ∧ finish d db = (names ++ [.enter b], if d.returns b db then .returned else .handed) := by
  refine ⟨missing db, fun a => missing_only db, ?_⟩
  have e1 := absent_locate hr hs
  have e2 := serves_locate hr hb
  simp only [finish, callBds, enterBds, status_eq, e1, bds_eq, e2]

/-- Without a BDS protocol the core says so, and returns success to its caller. -/
theorem no_bds (d : Drivers) {db : Db} (hr : Reachable db) (hs : Absent db statusCodeGuid) (hb : Absent db bdsGuid) :
    .missing "Bds" ∈ (finish d db).1 ∧ (∀ i, .enter i ∉ (finish d db).1) ∧ (finish d db).2 = .returned := by
  refine ⟨(missing_named d hr "Bds").2 ⟨bdsGuid, by decide, hb⟩, ?_, ?_⟩
  · intro i hi
    simp only [finish, callBds, enterBds, status_eq, absent_locate hr hs, bds_eq, absent_locate hr hb, List.append_nil] at hi
    obtain ⟨n, hn⟩ := missing_only db hi
    cases hn
  · simp only [finish, callBds, enterBds, status_eq, absent_locate hr hs, bds_eq, absent_locate hr hb]

/-! ### Where it fails -/

/-- BDS returns, which asks for another dispatch: nothing is dispatched, and the core returns success. -/
theorem bds_return_ignored (d : Drivers) {db : Db} (hr : Reachable db) (hs : Absent db statusCodeGuid) {b : Nat} (hb : Serves db bdsGuid b) (hb0 : b ≠ 0)
    (hd : d.returns b db = true) : ∃ acts, finish d db = (acts ++ [.enter b], .returned) := by
  obtain ⟨names, _, h⟩ := entered_without_status_code d hr hs hb hb0
  exact ⟨names, by rw [h, if_pos hd]⟩

/-- A status code protocol with a null interface, which InstallProtocolInterface accepts, makes the core panic before BDS. -/
theorem null_status_code_panics (d : Drivers) {db : Db} (hr : Reachable db) (hs : Serves db statusCodeGuid 0) : (finish d db).2 = .panic ∧ ∀ i, .enter i ∉ (finish d db).1 := by
  have e1 := serves_locate hr hs
  constructor
  · simp only [finish, callBds, status_eq, e1]
  · intro i hi
    simp only [finish, callBds, status_eq, e1, List.append_nil] at hi
    obtain ⟨n, hn⟩ := missing_only db hi
    cases hn

/-- A BDS protocol with a null interface: the function pointer is read from address zero. -/
theorem null_bds_used (d : Drivers) {db : Db} (hr : Reachable db) (hs : Absent db statusCodeGuid) (hb : Serves db bdsGuid 0) : (finish d db).2 = .null := by
  simp only [finish, callBds, enterBds, status_eq, absent_locate hr hs, bds_eq, serves_locate hr hb]

/-! ### Cases -/

/-- A database with the interfaces, installed one after the other on new handles. -/
def having (l : List (Nat × Nat)) : Db := Db.new.run (fun n i => n + i) 10 (l.map fun x => .install none x.1 x.2)

theorem having_reachable (l : List (Nat × Nat)) : Reachable (having l) := ⟨_, _, _, rfl⟩

theorem having_serves {l : List (Nat × Nat)} {g i : Nat} (h : (having l).locateProtocol g = .ok i) : Serves (having l) g i := by
  rcases locate_protocol_exact (having_reachable l) g with ⟨a, _⟩ | ⟨k, j, a, b, c⟩
  · rw [a] at h
    cases h
  · rw [b] at h
    cases h
    exact ⟨k, a, c⟩

theorem having_absent {l : List (Nat × Nat)} {g : Nat} (h : (having l).locateProtocol g = .err .notFound) : Absent (having l) g := by
  rcases locate_protocol_exact (having_reachable l) g with ⟨_, a⟩ | ⟨k, j, _, b, _⟩
  · exact a
  · rw [b] at h
    cases h

/-- Drivers that leave the database alone; BDS returns. -/
def plain : Drivers := ⟨fun _ db => db, fun _ _ => true⟩

example : ∃ names, (∀ a ∈ names, ∃ n, a = .missing n) ∧ finish plain (having [(statusCodeGuid, 5), (bdsGuid, 7)]) = (names ++ [.report 5 1 0x03041001, .enter 7], .returned) :=
  handed_over plain (having_reachable _) (having_serves (by decide +kernel)) (by decide) (having_reachable _) (having_serves (by decide +kernel)) (by decide)
example : ∃ acts, finish plain (having [(bdsGuid, 7)]) = (acts ++ [.enter 7], .returned) :=
  bds_return_ignored plain (having_reachable _) (having_absent (by decide +kernel)) (having_serves (by decide +kernel)) (by decide) rfl
example : Act.missing "Bds" ∈ (finish plain (having [])).1 := (no_bds plain (having_reachable _) (having_absent (by decide +kernel)) (having_absent (by decide +kernel))).1
example : (finish plain (having [(statusCodeGuid, 0), (bdsGuid, 7)])).2 = .panic := (null_status_code_panics plain (having_reachable _) (having_serves (by decide +kernel))).1
example : (finish plain (having [(bdsGuid, 0)])).2 = .null := null_bds_used plain (having_reachable _) (having_absent (by decide +kernel)) (having_serves (by decide +kernel))
example : (missing (having [(bdsGuid, 7)])).length = 12 := by decide +kernel

end Verif.Misc.Handoff
