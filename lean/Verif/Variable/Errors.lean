import Verif.Variable.Props
/-!
C85: an error of the firmware reaches the caller as it is.
-/
namespace Verif.Variable
variable {σ T : Type}

/-- **C85**: a status of the firmware that is an error, other than that the buffer is too small, is what the caller gets. -/
theorem get_variable_error (dbg : Bool) {fw : Firmware σ} {f : σ → Str → Nat → Nat → GetReply} (hf : fw.get = some f) (later : σ → σ) (s : σ) {buf : Str}
    (hn : 0 ∈ buf) (ns : Nat) (hint : Option Nat) (conv : List UInt8 → Option T) {e : Status} (he : 2 ^ 63 ≤ e) (hb : e ≠ BUFFER_TOO_SMALL) :
    ((f s buf ns (hint.getD 0)).status = e → getVariable dbg fw later s buf ns hint conv = .err e) ∧
    ((f s buf ns (hint.getD 0)).status = BUFFER_TOO_SMALL → (f (later s) buf ns (f s buf ns (hint.getD 0)).size).status = e →
      getVariable dbg fw later s buf ns hint conv = .err e) ∧
    ((f s buf ns 0).status = e → sizeAndAttributes dbg fw s buf ns = .err e) := by
  have hie : isError e = true := by unfold isError; simpa using he
  have hcall : ∀ (t : σ) (d : List UInt8), (f t buf ns d.length).status = e → ∃ b, getUnchecked dbg fw t buf ns (bufferOf d) = .ok (.error e, b) := by
    intro t d h
    unfold getUnchecked
    simp only [hf, bufferOf_len, h, if_neg hb, hie, if_true]
    exact ⟨_, rfl⟩
  refine ⟨fun h => ?_, fun h1 h2 => ?_, fun h => ?_⟩
  · unfold getVariable
    rw [if_pos hn, resize_nil]
    obtain ⟨b, hc⟩ := hcall s (List.replicate (hint.getD 0) 0) (by rw [List.length_replicate]; exact h)
    simp only [hc, finish]
  · unfold getVariable
    rw [if_pos hn, resize_nil]
    have hc : ∃ b a, getUnchecked dbg fw s buf ns (bufferOf (List.replicate (hint.getD 0) 0)) = .ok (.tooSmall (f s buf ns (hint.getD 0)).size a, b) := by
      unfold getUnchecked
      simp only [hf, bufferOf_len, List.length_replicate, h1, if_true]
      exact ⟨_, _, rfl⟩
    obtain ⟨b, a, hc⟩ := hc
    obtain ⟨b2, hc2⟩ := hcall (later s) (resize b (f s buf ns (hint.getD 0)).size 10) (by rw [length_resize]; exact h2)
    simp only [hc, hc2, finish]
  · unfold sizeAndAttributes
    rw [if_pos hn]
    obtain ⟨b, hc⟩ := hcall s [] h
    have : bufferOf [] = none := rfl
    rw [this] at hc
    simp only [hc]

/-- A device error, at the first and at the second call. -/
example : getVariable true ⟨some (fun _ _ _ _ => ⟨2 ^ 63 + 7, 0, 0, []⟩), none, none, none⟩ id () [65, 0] 1 (some 4) some = .err (2 ^ 63 + 7) :=
  (get_variable_error true rfl id () (by simp) 1 (some 4) some (by decide) (by decide)).1 rfl
example : getVariable true ⟨some (fun _ _ _ n => if n = 0 then ⟨BUFFER_TOO_SMALL, 0, 3, []⟩ else ⟨2 ^ 63 + 7, 0, 0, []⟩), none, none, none⟩ id () [65, 0] 1 none
    some = .err (2 ^ 63 + 7) :=
  (get_variable_error true rfl id () (by simp) 1 none some (by decide) (by decide)).2.1 rfl rfl

end Verif.Variable
