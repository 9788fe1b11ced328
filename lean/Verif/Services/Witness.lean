import Verif.Services.Buffers
import Verif.Protocol.Notify
/-!
Cases that meet the hypotheses of C76-C80, and limits of the code.
-/
namespace Verif.Services.Witness
open Verif.Protocol

/-- A world where drivers answer `answer` when they are to stop, and otherwise nothing happens. The rest of the state is the list of events queued. Device paths
are numbers: `100 + n` is the path of `n` equal nodes. -/
def still (answer : Bool) : World (List Nat) where
  hash := idHash
  lim := 10
  disconnect := fun s _ _ => (answer, s)
  connect := fun s _ => s
  signal := fun s e => (true, { s with rest := e :: s.rest })
  queue := fun r e => (true, e :: r)
  pool := fun r n => if n ≤ 100 then (some 0x5000, r) else (none, r)
  remaining := fun _ p q => if p ≤ q then some (100 + (q - p), p - 100) else none
  isEnd := fun _ p => p == 100

theorem honest (b : Bool) : Honest (still b) := ⟨fun _ _ _ h => h, fun _ _ h => h, fun _ _ h => h⟩
theorem keeps (b : Bool) : Keeps (still b) := ⟨fun _ _ _ _ _ => rfl, fun _ _ _ _ => rfl, fun _ _ _ _ => rfl⟩
theorem private' (b : Bool) : Private (still b) := ⟨fun _ _ _ _ => rfl, fun _ _ _ => rfl, fun _ _ _ => rfl⟩

def mk (ops : List Op) : St (List Nat) := ⟨Db.new.run idHash 10 ops, []⟩

theorem made (ops : List Op) : Made idHash 10 (mk ops).db := ⟨ops, rfl⟩

/-- The core's handle 1, a device (2) with two interfaces and a driver (3). -/
def base : List Op := [.install none 5 500, .install none 7 700, .install (some 2) 8 800, .install none 9 900, .register 8 40]

/-- The core has looked at the interface. -/
def lightly : List Op := base ++ [.addUsage 2 7 (some 1) none 1, .addUsage 2 7 (some 3) (some 2) 4]

/-- The driver manages the device. -/
def driven : List Op := base ++ [.addUsage 2 7 (some 3) (some 2) 0x10]

/-! ### C76 -/

example : lookup (mk lightly).db 2 7 = some 700 ∧ (users (mk lightly).db 2 7).length = 2 ∧ (∀ u ∈ users (mk lightly).db 2 7, Closable (mk lightly).db u = true) ∧
    ((users (mk lightly).db 2 7).map key).Nodup := by decide

example : ∃ u ∈ users (mk driven).db 2 7, Driver u := by decide

/-- A world where the driver gives up the device. -/
def closing : World (List Nat) :=
  { still true with
    disconnect := fun s _ _ => if s.db = (mk driven).db then (true, { s with db := ((mk driven).db.removeUsage 2 7 (some 3) (some 2) none).2 }) else (false, s) }

theorem closing_honest : Honest closing := by
  refine ⟨fun s h d hm => ?_, fun _ _ h => h, fun _ _ h => h⟩
  show Made idHash 10 (if s.db = (mk driven).db then _ else _ : Bool × St (List Nat)).2.db
  split
  · exact removeUsage_made (made driven) ..
  · exact hm

theorem closing_keeps : Keeps closing := by
  refine ⟨fun s h d h' g' => ?_, fun _ _ _ _ => rfl, fun _ _ _ _ => rfl⟩
  show lookup (if s.db = (mk driven).db then _ else _ : Bool × St (List Nat)).2.db h' g' = _
  split
  · rename_i e; rw [e]; exact removeUsage_lookup (made driven) ..
  · rfl

example : (uninstall closing 5 (mk driven) 2 7 700).map (·.1) = some (.ok ()) := by decide +kernel
example : (uninstall (still false) 5 (mk driven) 2 7 700).map (·.1) = some (.err .accessDenied) := by decide +kernel
example : (reinstall (still true) true 5 (mk lightly) 2 7 700 701).map (·.1) = some .success ∧ lookup (mk lightly).db 2 DUMMY = none := by decide +kernel

/-- A driver that reports it has stopped but keeps the interface open: UninstallProtocolInterface never returns. -/
theorem keeps_open_never_ends : ∃ ops, ∀ fuel, uninstall (still true) fuel (mk ops) 2 7 700 = none := by
  refine ⟨driven, fun fuel => ?_⟩
  have h : ∀ n, closeDrivers (still true) 2 7 n (mk driven) = none := by
    intro n
    induction n with
    | zero => rfl
    | succ n ih =>
      unfold closeDrivers
      rw [show usagesOf (mk driven).db 2 7 = .ok [⟨some 3, some 2, 0x10, 1⟩] by decide +kernel]
      show closeDrivers (still true) 2 7 n (mk driven) = none
      exact ih
  unfold uninstall
  rw [show (mk driven).db.getInterface 2 7 = .ok 700 by decide +kernel]
  simp only [ne_eq, not_true, if_false]
  rw [h]

/-- An agent opens an interface with GetProtocol and its handle goes away. From then on the interface can not be uninstalled any more, though the driver that
had it open is gone; yet every attempt closes what others had open. -/
def gone : List Op := base ++ [.addUsage 2 7 (some 3) (some 2) 2, .addUsage 2 7 (some 1) none 1, .uninstall 3 9 900]

theorem gone_agent_blocks (fuel : Nat) : (mk gone).db.valid 3 = false ∧
    ∃ s', uninstall (still true) (fuel + 1) (mk gone) 2 7 700 = some (.err .accessDenied, s') ∧ users s'.db 2 7 ≠ users (mk gone).db 2 7 ∧
      ∀ fuel', ∃ s'', uninstall (still true) (fuel' + 1) s' 2 7 700 = some (.err .accessDenied, s'') := by
  refine ⟨by decide +kernel, ?_⟩
  have hd : ∀ u ∈ users (mk gone).db 2 7, ¬ Driver u := by decide +kernel
  obtain ⟨s', e1, e2, e3⟩ := uninstall_denied (w := still true) fuel (s := mk gone) (made gone) (h := 2) (g := 7) (i := 700) (by decide +kernel) hd (by decide +kernel)
  have hl : lookup s'.db 2 7 = some 700 := by rw [(e3 2 7).1]; decide +kernel
  have hu : users s'.db 2 7 = [⟨some 3, some 2, 2, 1⟩] := by rw [(e3 2 7).2, if_pos ⟨rfl, rfl⟩]; decide +kernel
  have hv : s'.db.valid 3 = false := by
    have hm' : Made idHash 10 s'.db := by
      have := uninstall_made (honest true) (made gone) e1
      exact this
    have := valid_same (made gone).reachable hm'.reachable (fun h g => (e3 h g).1) (h := 3)
    rw [this]; decide +kernel
  refine ⟨s', e1, by rw [hu]; decide +kernel, fun fuel' => ?_⟩
  have hm' : Made idHash 10 s'.db := uninstall_made (honest true) (made gone) e1
  obtain ⟨s'', k1, _⟩ := uninstall_denied (w := still true) fuel' hm' hl (by rw [hu]; decide) (by
    rw [hu]
    rintro ⟨h, _⟩
    have := h _ (List.mem_singleton.2 rfl)
    unfold Closable Db.okHandle at this
    simp [hv] at this)
  exact ⟨s'', k1⟩

/-! ### C77 -/

example : ∃ u, Rival (mk driven).db 2 7 1 0x20 u := ⟨⟨some 3, some 2, 0x10, 1⟩, by unfold Rival; decide +kernel⟩
example : (openProtocol (still false) (mk driven) 2 7 false 1 2 0x20).1 = .accessDenied ∧ (openProtocol closing (mk driven) 2 7 false 1 2 0x20).1 = .success ∧
    (openProtocol (still false) (mk driven) 2 8 false 1 2 0x20).2.1 = some 800 := by decide +kernel
example : (closeProtocol (mk driven).db 2 7 3 2).1 = .success ∧ (closeProtocol (mk driven).db 2 7 3 0).1 = .notFound ∧ (closeProtocol (mk driven).db 2 7 9 0).1 = .invalidParameter := by
  decide +kernel

/-! ### C78 -/

/-- A bus at path 1 and a device at path 2. -/
def paths : List Op := [.install none 5 500, .install none PATH 101, .install none PATH 102, .install (some 2) 7 700]

/-- The path of `n` nodes is at `100 + n`. -/
def isPath (p : Nat) (a : List Unit) : Prop := p = 100 + a.length

theorem paths_ok (b : Bool) (r : List Nat) : Paths (still b) r isPath := by
  refine ⟨?_, ?_, ?_⟩
  · rintro p q a c rfl rfl
    refine ⟨100 + c.length, ?_, rfl⟩
    show (if 100 + a.length ≤ 100 + (a ++ c).length then some (100 + (100 + (a ++ c).length - (100 + a.length)), 100 + a.length - 100) else none) = _
    rw [List.length_append, if_pos (by omega)]
    congr 2 <;> omega
  · rintro p q a b rfl rfl hn
    show (if 100 + a.length ≤ 100 + b.length then _ else _) = none
    rw [if_neg]
    intro hle
    refine hn ⟨b.drop a.length, ?_⟩
    have : ∀ x y : List Unit, x.length = y.length → x = y := by
      intro x
      induction x with
      | nil => intro y h; cases y with | nil => rfl | cons _ _ => cases h
      | cons u x ih => intro y h; cases y with | nil => cases h | cons v y => simp at h; rw [ih y h]
    exact this _ _ (by simp; omega)
  · rintro p c rfl
    show (100 + c.length == 100) = true ↔ _
    cases c <;> simp

example : (coreLocatePath (still true) (mk paths) PATH 105).1 = .ok (103, 3) ∧ (coreLocatePath (still true) (mk paths) 7 105).1 = .ok (104, 2) ∧
    (coreLocatePath (still true) (mk paths) PATH 100).1 = .err .notFound := by decide +kernel
example : ∀ h p, lookup (mk paths).db h PATH = some p → ∃ a, isPath p a := by
  intro h p hl
  have hv := valid_of_lookup hl
  have hm : h ∈ allHandles (mk paths).db := ((locate_all_exact (made paths).reachable).2.1 h).2 hv
  rw [show allHandles (mk paths).db = [1, 2, 3] by decide +kernel] at hm
  simp only [List.mem_cons, List.not_mem_nil, or_false] at hm
  rcases hm with rfl | rfl | rfl
  · rw [show lookup (mk paths).db 1 PATH = none by decide +kernel] at hl; cases hl
  · rw [show lookup (mk paths).db 2 PATH = some 101 by decide +kernel] at hl; cases hl; exact ⟨[()], rfl⟩
  · rw [show lookup (mk paths).db 3 PATH = some 102 by decide +kernel] at hl; cases hl; exact ⟨[(), ()], rfl⟩

/-- LocateDevicePath records the core as a user of the device paths it looks at. -/
theorem looking_leaves_users : users (mk paths).db 3 PATH = [] ∧ users (coreLocatePath (still true) (mk paths) PATH 101).2.db 3 PATH ≠ [] := by decide +kernel

/-! ### C79 -/

example : (installMultiple (still true) 3 (mk base) 0 [(7, 1), (8, 2)]).map (fun r => (r.1, r.2.1)) = some (.success, 4) ∧
    (installMultiple (still true) 3 (mk base) 2 [(10, 1), (8, 2)]).map (·.1) = some .invalidParameter ∧
    (installMultiple (still true) 3 (mk paths) 0 [(7, 1), (PATH, 102)]).map (·.1) = some .alreadyStarted := by decide +kernel
example : (mk base).db.hashing = false ∧ (pathTaken (still true) [(7, 1), (8, 2)] (mk base)).1 = false := by decide +kernel
example : (uninstallMultiple (still true) 3 (mk lightly) 2 [(7, 700), (8, 800)]).map (·.1) = some .success ∧
    (uninstallMultiple (still true) 3 (mk lightly) 2 [(7, 700), (9, 900)]).map (·.1) = some .invalidParameter ∧ lookup (mk lightly).db 2 8 = some 800 := by decide +kernel
example : lookup (mk base).db 2 7 = some 700 ∧ users (mk base).db 2 7 = [] := by decide +kernel

/-- An installation that fails is undone, but events were queued for it: functions run for interfaces that are not there. -/
theorem undone_still_announced : ∃ st h s', installMultiple (still true) 3 (mk base) 0 [(8, 1), (8, 2)] = some (st, h, s') ∧ st = .invalidParameter ∧
    s'.rest = [40] ∧ (s'.db.nextFresh 1).1 = some h ∧ h = 4 ∧ s'.db.valid h = false := by
  refine ⟨_, _, _, rfl, ?_⟩
  decide +kernel

/-- If uninstalling several interfaces fails after the last one on the handle went, it can not be restored: the interface and the handle are lost. -/
theorem not_restored : ∃ st s', uninstallMultiple (still true) 3 (mk base) 3 [(9, 900), (10, 1000)] = some (st, s') ∧ st = .invalidParameter ∧
    lookup (mk base).db 3 9 = some 900 ∧ lookup s'.db 3 9 = none ∧ s'.db.valid 3 = false := by
  refine ⟨_, _, rfl, ?_⟩
  decide +kernel

/-! ### C80 -/

example : found (mk paths).db (.protocol (some PATH)) = [2, 3] ∧ (locateHandle (mk paths).db (.protocol (some PATH)) (some 8) false).1 = .bufferTooSmall ∧
    locateHandle (mk paths).db (.protocol (some PATH)) (some 16) false = (.success, some 16, some [2, 3], (mk paths).db) := by decide +kernel
example : (locateHandleBuffer (still true) (mk paths) .all).2.2.2.1 = [1, 2, 3] ∧ (locateProtocol (mk paths).db PATH none).2.1 = some 101 ∧
    (protocolsPerHandle (still true) (mk paths) 2).2.2.1 = [7, PATH] ∧ (openInformation (still true) (mk driven) 2 7).2.2.1.length = 1 := by decide +kernel

/-- A registration with a handle to report. -/
def fresh : List Op := base ++ [.install (some 3) 8 801]

/-- LocateHandle by notification with too small a buffer: the second call, with the size asked for, does not find the handle any more. -/
theorem asked_twice_lost : (locateHandle (mk fresh).db (.notify (some 1)) (some 0) true).1 = .bufferTooSmall ∧
    (locateHandle (mk fresh).db (.notify (some 1)) (some 0) true).2.1 = some 8 ∧
    (locateHandle (locateHandle (mk fresh).db (.notify (some 1)) (some 0) true).2.2.2 (.notify (some 1)) (some 8) false).1 = .notFound := by decide +kernel

/-- LocateProtocol with a registration panics if the interface is gone again. -/
theorem locate_gone_panics : ∃ ops, Made idHash 10 (mk ops).db ∧ (locateProtocol (mk ops).db 8 (some 1)).1 = .panics :=
  ⟨fresh ++ [.uninstall 3 8 801], made _, by decide +kernel⟩

/-- And if it is asked for another protocol than the one registered for. -/
theorem locate_other_panics : (locateProtocol (mk fresh).db 12 (some 1)).1 = .panics := by decide +kernel

end Verif.Services.Witness
