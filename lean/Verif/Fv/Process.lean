import Verif.Fv.Witness
import Verif.Fv.Built
/-!
C137: `process_firmware_volume`, the DXE service that hands a volume in memory to the core, `/repo/patina_dxe_core/src/dxe_services.rs` lines 406-434.

* A pointer is its address; `none` is the null pointer for the handle. Address 0 is the null pointer for the volume.
* The memory does not change during the call.
-/
namespace Verif.Fv
open Verif.Ffs Verif.Services Verif.Protocol

variable {β : Type}

/-- What the caller sees: the status, and what was written at which address. -/
structure ProcessOut where
  status : Outcome Status Unit
  wrote : Option (Nat × Nat)
deriving DecidableEq, Repr

/-- `process_firmware_volume`, lines 406-434. -/
def processVolume (dbg : Bool) (w : World (Rest β)) (quiet : Bool) (m : Mem) (s : St (Rest β)) (header size : Nat) (handle : Option Nat) (b : Boxes) :
    ProcessOut × St (Rest β) :=
  match handle with
  | none => (⟨.err .invalidParameter, none⟩, s)
  | some p =>
    if header = 0 then (⟨.err .invalidParameter, none⟩, s)
    else match VolumeRef.new (bytesAt m header size) with
      | .err e => (⟨.err (.of e), none⟩, s)
      | .panic => (⟨.panic, none⟩, s)
      | .ok _ =>
        match installVolume dbg w quiet m s header b with
        | (.ok h, s) => (⟨.ok (), some (p, h)⟩, s)
        | (.err e, s) => (⟨.err e, none⟩, s)
        | (.panic, s) => (⟨.panic, none⟩, s)

/-! ### Theorems -/

theorem bytesAt_length (m : Mem) (a n : Nat) : (bytesAt m a n).length = n := by simp [bytesAt]

theorem bytesAt_take (m : Mem) (a : Nat) {k n : Nat} (h : k ≤ n) : (bytesAt m a n).take k = bytesAt m a k := by
  unfold bytesAt
  rw [← List.map_take, List.take_range, Nat.min_eq_left h]

theorem new_length {b : List UInt8} {v : VolumeRef} (h : VolumeRef.new b = .ok v) : v.length ≤ b.length := by
  obtain ⟨_, _, h3, _, _⟩ := new_fields h
  rw [h3]
  unfold VolumeRef.new at h
  split at h
  · cases h
  · rename_i hne
    exact Nat.not_lt.1 (headerError_inv hne).2.2.2.2.2.2.2.2.2.1

variable {dbg quiet : Bool} {w : World (Rest β)} {m : Mem} {s s' : St (Rest β)} {header size : Nat} {handle : Option Nat} {b : Boxes} {out : ProcessOut}

/-- C137: success means that one handle was written, where the caller asked for it; it is new; the volume it stands for lies inside the memory the caller
gave; and whatever was installed before is still there. -/
theorem processed (hw : Honest w) (hg : Grows w) (hm : Made w.hash w.lim s.db) (hf : Fresh w s b.all)
    (he : processVolume dbg w quiet m s header size handle b = (out, s')) (hok : out.status = .ok ()) :
    ∃ p h, handle = some p ∧ out.wrote = some (p, h) ∧ h ≠ 0 ∧ s.db.valid h = false ∧ Serves m s' h header ∧ Kept s s' ∧
      ∃ v, openVolume m header = .ok v ∧ v.length ≤ size ∧ v.data = bytesAt m header v.length := by
  unfold processVolume at he
  cases handle with
  | none => injection he with he _; subst he; cases hok
  | some p =>
    dsimp only at he
    split at he
    · injection he with he _; subst he; cases hok
    cases hv : VolumeRef.new (bytesAt m header size) with
    | err e => rw [hv] at he; injection he with he _; subst he; cases hok
    | panic => rw [hv] at he; injection he with he _; subst he; cases hok
    | ok v0 =>
      rw [hv] at he
      dsimp only at he
      cases hi : installVolume dbg w quiet m s header b with
      | mk r s1 =>
        rw [hi] at he
        cases r with
        | err e => injection he with he _; subst he; cases hok
        | panic => injection he with he _; subst he; cases hok
        | ok h =>
          injection he with he hs
          subst he; subst hs
          obtain ⟨k1, k2, k3, k4, _⟩ := install_serves hw hg hm hf hi
          obtain ⟨_, v, hopen, _, _⟩ := k1.path
          refine ⟨p, h, rfl, rfl, k4, k3, k1, k2, v, hopen, ?_⟩
          obtain ⟨q1, _, q3, _, _⟩ := new_fields hv
          have hl := new_length hv
          rw [bytesAt_length] at q1 hl
          have hrd : rd (bytesAt m header 56) 32 8 = v0.length := by
            rw [← bytesAt_take m header q1, rd_take _ _ _ _ (by decide), q3]
          unfold openVolume at hopen
          split at hopen
          · cases hopen
          rw [hrd] at hopen
          obtain ⟨r1, _, r3, r4, _⟩ := new_fields hopen
          rw [bytesAt_length] at r1
          have hvl : v.length = v0.length := by
            rw [r3, ← bytesAt_take m header hl, rd_take _ _ _ _ (by omega), ← q3]
          rw [hvl]
          exact ⟨hl, r4⟩

/-- C137: null pointers are refused and change nothing. -/
theorem process_null (h : handle = none ∨ header = 0) :
    processVolume dbg w quiet m s header size handle b = (⟨.err .invalidParameter, none⟩, s) := by
  unfold processVolume
  rcases h with rfl | rfl
  · rfl
  · cases handle <;> rfl

/-- C137: if the memory given does not begin with a volume that fits into it, the caller learns why and nothing changes. -/
theorem process_damaged {e : FfsError} (hp : handle ≠ none) (h0 : header ≠ 0) (h : VolumeRef.new (bytesAt m header size) = .err e) :
    processVolume dbg w quiet m s header size handle b = (⟨.err (.of e), none⟩, s) := by
  unfold processVolume
  cases handle with
  | none => exact absurd rfl hp
  | some p => dsimp only; rw [if_neg h0, h]

/-- C137: in particular if it is too small for the volume it begins with. (At 32 of the header is the length.) -/
theorem process_short (hp : handle ≠ none) (h0 : header ≠ 0) (h : size < 56 ∨ size < rd (bytesAt m header 56) 32 8) :
    ∃ e, (processVolume dbg w quiet m s header size handle b).1 = ⟨e, none⟩ ∧ e ≠ .ok () ∧ (processVolume dbg w quiet m s header size handle b).2 = s := by
  cases hv : VolumeRef.new (bytesAt m header size) with
  | err e => rw [process_damaged hp h0 hv]; exact ⟨_, rfl, by simp, rfl⟩
  | panic =>
    unfold processVolume
    cases handle with
    | none => exact absurd rfl hp
    | some p => dsimp only; rw [if_neg h0, hv]; exact ⟨_, rfl, by simp, rfl⟩
  | ok v =>
    exfalso
    obtain ⟨q1, _, q3, _, _⟩ := new_fields hv
    have hl := new_length hv
    rw [bytesAt_length] at q1 hl
    have hrd : rd (bytesAt m header 56) 32 8 = v.length := by
      rw [← bytesAt_take m header q1, rd_take _ _ _ _ (by decide), q3]
    omega

/-- C137: a call that fails writes no handle, and whatever was installed before is still there. -/
theorem process_fails (hw : Honest w) (hg : Grows w) (hm : Made w.hash w.lim s.db) (hf : Fresh w s b.all)
    (he : processVolume dbg w quiet m s header size handle b = (out, s')) : Kept s s' ∧ (out.status ≠ .ok () → out.wrote = none) := by
  unfold processVolume at he
  cases handle with
  | none => injection he with h1 h2; subst h1; subst h2; exact ⟨.refl s, fun _ => rfl⟩
  | some p =>
    dsimp only at he
    split at he
    · injection he with h1 h2; subst h1; subst h2; exact ⟨.refl s, fun _ => rfl⟩
    cases hv : VolumeRef.new (bytesAt m header size) with
    | err e => rw [hv] at he; injection he with h1 h2; subst h1; subst h2; exact ⟨.refl s, fun _ => rfl⟩
    | panic => rw [hv] at he; injection he with h1 h2; subst h1; subst h2; exact ⟨.refl s, fun _ => rfl⟩
    | ok v0 =>
      rw [hv] at he
      dsimp only at he
      cases hi : installVolume dbg w quiet m s header b with
      | mk r s1 =>
        rw [hi] at he
        have hk := (install_keeps hw hg hm hf hi).1
        cases r with
        | err e => injection he with h1 h2; subst h1; subst h2; exact ⟨hk, fun _ => rfl⟩
        | panic => injection he with h1 h2; subst h1; subst h2; exact ⟨hk, fun _ => rfl⟩
        | ok h => injection he with h1 h2; subst h1; subst h2; exact ⟨hk, fun h => absurd rfl h⟩

namespace Witness

/-- A volume of 512 bytes, given in memory of 512, 600 and 511 bytes. -/
example : (processVolume false quietWorld false (mem demoBytes) start 0x1000 512 (some 0x77) ⟨0x10, 0x50, 0x60⟩).1 = ⟨.ok (), some (0x77, 2)⟩ ∧
    (processVolume true quietWorld false (mem demoBytes) start 0x1000 600 (some 0x77) ⟨0x10, 0x50, 0x60⟩).1 = ⟨.ok (), some (0x77, 2)⟩ ∧
    (processVolume false quietWorld false (mem demoBytes) start 0x1000 511 (some 0x77) ⟨0x10, 0x50, 0x60⟩).1 = ⟨.err .volumeCorrupted, none⟩ ∧
    (processVolume false quietWorld false (mem demoBytes) start 0x1001 512 (some 0x77) ⟨0x10, 0x50, 0x60⟩).1 = ⟨.err .volumeCorrupted, none⟩ := by
  decide +kernel

/-- The hypotheses about the world and the state hold of it. -/
example : Honest quietWorld ∧ Grows quietWorld ∧ Made quietWorld.hash quietWorld.lim start.db ∧ Fresh quietWorld start (Boxes.all ⟨0x10, 0x50, 0x60⟩) :=
  ⟨honest, grows, start_made, start_fresh _ (by decide)⟩

end Witness
end Verif.Fv
