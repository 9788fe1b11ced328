import Verif.Stack.X64
import Verif.Stack.A64
/-!
The trace as a whole: the lines it logs are the calls in progress.
-/
namespace Verif.Stack
open Verif Verif.Stack Verif.Stack.Spec

/-- What has to be known about one frame. -/
def Computes (utf8 : List UInt8 → Bool) (m : Mem) (frame : Image → Nat → Nat → Option (Outcome Err (Nat × Nat)))
    (active : Nat → Nat → Nat → Option (List UInt8) → Nat → Nat → Prop) : Prop :=
  ∀ pc sp base name sp' ret, active pc sp base name sp' ret → ∃ size, locateImage utf8 m pc = .ok ⟨base, name, ⟨base, size⟩⟩ ∧
    frame ⟨base, name, ⟨base, size⟩⟩ ((pc - base) % 2 ^ 32) sp = some (.ok (sp', ret))

theorem dumpFrom_all (utf8 : List UInt8 → Bool) (m : Mem) (frame : Image → Nat → Nat → Option (Outcome Err (Nat × Nat)))
    (active : Nat → Nat → Nat → Option (List UInt8) → Nat → Nat → Prop) (hc : Computes utf8 m frame active) :
    ∀ {pc sp l}, Calls active pc sp l → ∀ left, left ≤ 20 → l.length ≤ left →
      dumpFrom utf8 m frame left pc sp = (lines (20 - left) l, some (.ok ())) := by
  intro pc sp l h
  induction h with
  | last ha =>
    intro left h20 hl
    obtain ⟨left, rfl⟩ : ∃ n, left = n + 1 := ⟨left - 1, by simp at hl; omega⟩
    obtain ⟨size, h1, h2⟩ := hc _ _ _ _ _ _ ha
    simp only [dumpFrom, h1, h2]
    rfl
  | more ha hne _ ih =>
    intro left h20 hl
    simp only [List.length_cons] at hl
    obtain ⟨left, rfl⟩ : ∃ n, left = n + 1 := ⟨left - 1, by omega⟩
    obtain ⟨size, h1, h2⟩ := hc _ _ _ _ _ _ ha
    simp only [dumpFrom, h1, h2]
    rw [if_neg hne, ih left (by omega) (by omega)]
    simp only [lines]
    rw [show 20 - (left + 1) + 1 = 20 - left by omega]

theorem dumpFrom_some (utf8 : List UInt8 → Bool) (m : Mem) (frame : Image → Nat → Nat → Option (Outcome Err (Nat × Nat)))
    (active : Nat → Nat → Nat → Option (List UInt8) → Nat → Nat → Prop) (hc : Computes utf8 m frame active) :
    ∀ {pc sp l}, Calls active pc sp l → ∀ left, left ≤ 20 → left < l.length →
      dumpFrom utf8 m frame left pc sp = (lines (20 - left) (l.take left), some (.err .stackTraceDumpFailed)) := by
  intro pc sp l h
  induction h with
  | last ha =>
    intro left h20 hl
    simp only [List.length_cons, List.length_nil] at hl
    obtain rfl : left = 0 := by omega
    rfl
  | more ha hne _ ih =>
    intro left h20 hl
    simp only [List.length_cons] at hl
    cases left with
    | zero => rfl
    | succ left =>
      obtain ⟨size, h1, h2⟩ := hc _ _ _ _ _ _ ha
      simp only [dumpFrom, h1, h2]
      rw [if_neg hne, ih left (by omega) (by omega)]
      simp only [lines, List.take_succ_cons]
      rw [show 20 - (left + 1) + 1 = 20 - left by omega]

/-- The calls in progress on x64: the function leaves the stack pointer above the return address. -/
abbrev X64.active (utf8 : List UInt8 → Bool) (m : Mem) (pc sp base : Nat) (name : Option (List UInt8)) (sp' ret : Nat) : Prop :=
  ∃ sp0, sp' = sp0 + 8 ∧ Spec.X64.Active utf8 m pc sp base name sp0 ret

theorem X64.computes (dbg : Bool) (utf8 : List UInt8 → Bool) (m : Mem) : Computes utf8 m (X64.frame dbg m) (X64.active utf8 m) := by
  rintro pc sp base name sp' ret ⟨sp0, rfl, h⟩
  exact X64.frame_partial dbg utf8 m pc sp base name sp0 ret h

/-- C89: on x64 the trace lists the calls in progress, the innermost first, with the image and the place in it, if they are at most 20. -/
theorem X64.trace_partial (dbg : Bool) (utf8 : List UInt8 → Bool) (m : Mem) (pc sp : Nat) (l : List Call)
    (h : Calls (X64.active utf8 m) pc sp l) (hl : l.length ≤ 20) :
    dump utf8 m (X64.frame dbg m) pc sp = (lines 0 l, some (.ok ())) :=
  dumpFrom_all utf8 m _ _ (X64.computes dbg utf8 m) h 20 (by omega) hl

/-- C89: of more than 20 calls it lists the innermost 20, and reports an error. -/
theorem X64.trace_truncated (dbg : Bool) (utf8 : List UInt8 → Bool) (m : Mem) (pc sp : Nat) (l : List Call)
    (h : Calls (X64.active utf8 m) pc sp l) (hl : 20 < l.length) :
    dump utf8 m (X64.frame dbg m) pc sp = (lines 0 (l.take 20), some (.err .stackTraceDumpFailed)) :=
  dumpFrom_some utf8 m _ _ (X64.computes dbg utf8 m) h 20 (by omega) hl

theorem dumpFrom_mono (utf8 : List UInt8 → Bool) (m : Mem) (active : Nat → Nat → Nat → Option (List UInt8) → Nat → Nat → Prop)
    (frame : Nat → Image → Nat → Nat → Option (Outcome Err (Nat × Nat)))
    (hc : ∀ pc sp base name sp' ret, active pc sp base name sp' ret → ∃ size, locateImage utf8 m pc = .ok ⟨base, name, ⟨base, size⟩⟩ ∧
      ∃ least, ∀ fuel, least ≤ fuel → frame fuel ⟨base, name, ⟨base, size⟩⟩ ((pc - base) % 2 ^ 32) sp = some (.ok (sp', ret))) :
    ∀ {pc sp l}, Calls active pc sp l → ∃ least, ∀ fuel, least ≤ fuel →
      Calls (fun pc sp base name sp' ret => ∃ size, locateImage utf8 m pc = .ok ⟨base, name, ⟨base, size⟩⟩ ∧
        frame fuel ⟨base, name, ⟨base, size⟩⟩ ((pc - base) % 2 ^ 32) sp = some (.ok (sp', ret))) pc sp l := by
  intro pc sp l h
  induction h with
  | last ha =>
    obtain ⟨size, h1, least, h2⟩ := hc _ _ _ _ _ _ ha
    exact ⟨least, fun fuel hf => .last ⟨size, h1, h2 fuel hf⟩⟩
  | more ha hne _ ih =>
    obtain ⟨size, h1, least, h2⟩ := hc _ _ _ _ _ _ ha
    obtain ⟨least', h3⟩ := ih
    exact ⟨max least least', fun fuel hf => .more ⟨size, h1, h2 fuel (by omega)⟩ hne (h3 fuel (by omega))⟩

/-- C89: on AArch64 as well. The fuel is for the walk over the unwind codes. -/
theorem A64.trace_partial (dbg : Bool) (utf8 : List UInt8 → Bool) (m : Mem) (pc sp : Nat) (l : List Call)
    (h : Calls (Spec.A64.Active utf8 m) pc sp l) (hl : l.length ≤ 20) :
    ∃ least, ∀ fuel, least ≤ fuel → dump utf8 m (A64.frame dbg fuel m) pc sp = (lines 0 l, some (.ok ())) := by
  obtain ⟨least, hm⟩ := dumpFrom_mono utf8 m _ (fun fuel => A64.frame dbg fuel m)
    (fun pc sp base name sp' ret h => A64.frame_partial dbg utf8 m pc sp base name sp' ret h) h
  exact ⟨least, fun fuel hf => dumpFrom_all utf8 m _ _ (fun _ _ _ _ _ _ h => h) (hm fuel hf) 20 (by omega) hl⟩

theorem A64.trace_truncated (dbg : Bool) (utf8 : List UInt8 → Bool) (m : Mem) (pc sp : Nat) (l : List Call)
    (h : Calls (Spec.A64.Active utf8 m) pc sp l) (hl : 20 < l.length) :
    ∃ least, ∀ fuel, least ≤ fuel → dump utf8 m (A64.frame dbg fuel m) pc sp = (lines 0 (l.take 20), some (.err .stackTraceDumpFailed)) := by
  obtain ⟨least, hm⟩ := dumpFrom_mono utf8 m _ (fun fuel => A64.frame dbg fuel m)
    (fun pc sp base name sp' ret h => A64.frame_partial dbg utf8 m pc sp base name sp' ret h) h
  exact ⟨least, fun fuel hf => dumpFrom_some utf8 m _ _ (fun _ _ _ _ _ _ h => h) (hm fuel hf) 20 (by omega) hl⟩

/-- C89, whatever is in memory: at most 20 lines, numbered from 0 on; it ends well only if the last return address logged is 0, and no
other one is. -/
theorem dump_lines (utf8 : List UInt8 → Bool) (m : Mem) (frame : Image → Nat → Nat → Option (Outcome Err (Nat × Nat))) (pc sp : Nat) :
    (dump utf8 m frame pc sp).1.length ≤ 20 ∧ (dump utf8 m frame pc sp).1.map Line.index = List.range (dump utf8 m frame pc sp).1.length ∧
    ((dump utf8 m frame pc sp).2 = some (.ok ()) ↔ ∃ x ∈ (dump utf8 m frame pc sp).1, x.ret = 0) := by
  suffices h : ∀ left pc sp, left ≤ 20 → (dumpFrom utf8 m frame left pc sp).1.length ≤ left ∧
      (dumpFrom utf8 m frame left pc sp).1.map Line.index = List.range' (20 - left) (dumpFrom utf8 m frame left pc sp).1.length ∧
      ((dumpFrom utf8 m frame left pc sp).2 = some (.ok ()) ↔ ∃ x ∈ (dumpFrom utf8 m frame left pc sp).1, x.ret = 0) by
    obtain ⟨h1, h2, h3⟩ := h 20 pc sp (by omega)
    exact ⟨h1, by rw [List.range_eq_range']; exact h2, h3⟩
  intro left
  induction left with
  | zero => intro pc sp _; simp [dumpFrom]
  | succ n ih =>
    intro pc sp hl
    unfold dumpFrom
    split
    · simp
    · simp
    · rename_i i _
      split
      · simp
      · simp
      · simp
      · rename_i sp' pc' _
        split
        · rename_i h0; simp [h0]
        · rename_i h0
          obtain ⟨i1, i2, i3⟩ := ih pc' sp' (by omega)
          refine ⟨by simpa using i1, ?_, ?_⟩
          · simp only [List.map_cons, List.length_cons, List.range'_succ]
            rw [i2, show 20 - (n + 1) + 1 = 20 - n by omega]
          · simp only [List.mem_cons, exists_eq_or_imp, h0, false_or]
            exact i3

end Verif.Stack
