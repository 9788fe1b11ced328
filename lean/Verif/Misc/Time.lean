import Verif.Prelude
/-!
Model of `Stall` and `SetWatchdogTimer`, `/repo/patina_dxe_core/src/misc_boot_services.rs`, and what they make the timer hardware do.

What a call does is the list of calls it makes to the protocol of the driver. Statuses a wait returns are only logged and left out.
-/
namespace Verif.Misc

def U32MAX : Nat := 0xFFFFFFFF

theorem U32MAX_pos : 0 < U32MAX := by decide

/-- Lines 57-69: `ticks` is a `u128` and cannot overflow for 64-bit arguments. -/
def waits (ticks : Nat) : List Nat :=
  if ticks > U32MAX then U32MAX :: waits (ticks - U32MAX)
  else if ticks ≠ 0 then [ticks] else []
termination_by ticks
decreasing_by have := U32MAX_pos; omega

/-- `stall`, lines 51-74: `period` is the `tick_period` of the metronome protocol in 100 ns units, `none` if there is no such protocol yet. The result
is the status and the arguments of the calls to `wait_for_tick`. -/
def stall (period : Option Nat) (microseconds : Nat) : Outcome EfiError Unit × List Nat :=
  match period with
  | none => (.err .notReady, [])
  | some p => if p = 0 then (.panic, []) else (.ok (), waits (microseconds * 10 / p))

/-- `set_watchdog_timer`, lines 85-103: `driver` is what the watchdog protocol's `set_timer_period` does, `none` if there is no such protocol yet. The
second component is the period that was asked for. -/
def setWatchdog (driver : Option (Nat → Bool)) (timeout : Nat) : Outcome EfiError Unit × Option Nat :=
  match driver with
  | none => (.err .notReady, none)
  | some f =>
    let period := if timeout * 10000000 < 2 ^ 64 then timeout * 10000000 else 2 ^ 64 - 1
    (if f period then .ok () else .err .deviceError, some period)

/-- The time that passes (100 ns units) if every wait lasts as many ticks as it is asked to. -/
def elapsed (period : Nat) (l : List Nat) : Nat := l.sum * period

theorem waits_sum (t : Nat) : (waits t).sum = t := by
  induction t using Nat.strongRecOn with
  | _ t ih =>
    unfold waits
    split
    · rename_i h
      have := ih (t - U32MAX) (Nat.sub_lt (Nat.lt_trans U32MAX_pos h) U32MAX_pos)
      rw [List.sum_cons, this]
      exact Nat.add_sub_cancel' (Nat.le_of_lt h)
    · split
      · simp
      · rename_i h; simp only [ne_eq, Decidable.not_not] at h; simp [h]

/-- Every single wait asks for at least one tick and fits in 32 bits. -/
theorem waits_fit (t : Nat) : ∀ w ∈ waits t, 0 < w ∧ w ≤ U32MAX := by
  induction t using Nat.strongRecOn with
  | _ t ih =>
    unfold waits
    split
    · intro w hw
      rcases List.mem_cons.1 hw with rfl | hw
      · exact ⟨by decide, Nat.le_refl _⟩
      · exact ih _ (by have := U32MAX_pos; omega) w hw
    · split
      · intro w hw
        simp only [List.mem_singleton] at hw
        subst hw
        omega
      · simp

/-- There are no more waits than necessary. -/
theorem waits_length (t : Nat) : (waits t).length * U32MAX < t + U32MAX := by
  induction t using Nat.strongRecOn with
  | _ t ih =>
    unfold waits
    split
    · have := ih (t - U32MAX) (by have := U32MAX_pos; omega)
      rw [List.length_cons, Nat.succ_mul]
      omega
    · split
      · rw [List.length_singleton]; omega
      · have := U32MAX_pos
        rw [List.length_nil]; omega

/-- A stall lasts the requested time, rounded down to a multiple of the tick: never longer, and less than a tick shorter. -/
theorem stall_time {p : Nat} (hp : p ≠ 0) (us : Nat) :
    ∃ l, stall (some p) us = (.ok (), l) ∧ (∀ w ∈ l, 0 < w ∧ w ≤ U32MAX) ∧ elapsed p l ≤ us * 10 ∧ us * 10 < elapsed p l + p := by
  refine ⟨waits (us * 10 / p), by simp [stall, hp], waits_fit _, ?_, ?_⟩
  · unfold elapsed; rw [waits_sum]; exact Nat.div_mul_le_self _ _
  · unfold elapsed; rw [waits_sum]
    have := Nat.div_add_mod (us * 10) p
    have h2 := Nat.mod_lt (us * 10) (Nat.pos_of_ne_zero hp)
    rw [Nat.mul_comm p] at this
    omega

/-- It lasts as long as requested exactly if the tick divides the request. "At least the requested number of microseconds" (line 49, and the UEFI
specification) holds for no other requests. -/
theorem stall_enough_iff {p : Nat} (hp : p ≠ 0) (us : Nat) : us * 10 ≤ elapsed p (stall (some p) us).2 ↔ p ∣ us * 10 := by
  have e : (stall (some p) us).2 = waits (us * 10 / p) := by simp [stall, hp]
  unfold elapsed
  rw [e, waits_sum]
  constructor
  · intro h
    exact ⟨us * 10 / p, by rw [Nat.mul_comm p]; exact Nat.le_antisymm h (Nat.div_mul_le_self _ _)⟩
  · intro h; rw [Nat.div_mul_cancel h]; exact Nat.le_refl _

/-- With a tick of 1 ms (as long as it is allowed to be), a stall of 999 µs does not wait at all. -/
theorem stall_too_short : ∃ p us, us = 999 ∧ stall (some p) us = (.ok (), []) :=
  ⟨10000, 999, rfl, by simp [stall, waits, U32MAX]⟩

theorem stall_not_ready (us : Nat) : stall none us = (.err .notReady, []) := rfl

/-- A driver that reports no tick period crashes the core. -/
theorem stall_zero_period_panics (us : Nat) : (stall (some 0) us).1 = .panic := rfl

/-- More than 2^32 ticks: two waits. -/
example : (stall (some 1) 500000000).2 = [U32MAX, 705032705] := by
  simp [stall, waits, U32MAX]

/-- The watchdog is given the timeout in its units, the longest possible one if it does not fit; it is turned off exactly if that was asked for. What the
driver answers decides what is returned. -/
theorem watchdog_period (f : Nat → Bool) (timeout : Nat) :
    ∃ q, (setWatchdog (some f) timeout).2 = some q ∧ q < 2 ^ 64 ∧ (timeout * 10000000 < 2 ^ 64 → q = timeout * 10000000)
      ∧ (2 ^ 64 ≤ timeout * 10000000 → q = 2 ^ 64 - 1) ∧ (q = 0 ↔ timeout = 0)
      ∧ (f q = true → (setWatchdog (some f) timeout).1 = .ok ()) ∧ (f q = false → (setWatchdog (some f) timeout).1 = .err .deviceError) := by
  refine ⟨_, rfl, ?_, ?_, ?_, ?_, ?_, ?_⟩
  · split <;> omega
  · intro h; rw [if_pos h]
  · intro h; rw [if_neg (by omega)]
  · split <;> omega
  · intro h; simp only [setWatchdog, h, if_true]
  · intro h; simp only [setWatchdog, h]; rfl

theorem watchdog_not_ready (timeout : Nat) : setWatchdog none timeout = (.err .notReady, none) := rfl

end Verif.Misc
