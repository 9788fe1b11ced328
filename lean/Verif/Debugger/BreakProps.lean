import Verif.Debugger.Break
import Verif.Debugger.MemoryProps
/-!
What the software breakpoints do to memory.
-/
namespace Verif.Debugger

/-! ### Reads and writes inside a page -/

theorem copy_ok {w w' : World} {a : Nat} {l : List UInt8} (h : copy w a l = (.ok (), w')) : w' = store w a l := by
  unfold copy at h
  split at h
  · simp only [Prod.mk.injEq, true_and] at h
    exact h.symm
  · simp at h

theorem writePage_ok {w w' : World} {a p : Nat} {l : List UInt8} (h : writePage w a p l = (.ok (), w')) : w' = store w a l := by
  unfold writePage at h
  cases hy : w.page p with
  | none => rw [hy] at h; simp at h
  | some y =>
    rw [hy] at h
    simp only at h
    by_cases hro : y.readOnly = true
    · rw [if_pos hro] at h
      unfold mapPage at h
      cases hl : w.large p with
      | true => rw [hl] at h; simp at h
      | false =>
        rw [hl] at h
        simp only [Bool.false_eq_true, if_false] at h
        generalize hc : copy { w with page := fun q => if q = p then some { y with readOnly := false } else w.page q } a l = c at h
        obtain ⟨r, w2⟩ := c
        cases r with
        | ok u =>
          have := copy_ok hc
          subst this
          simp only [store, hl, Bool.false_eq_true, if_false, Prod.mk.injEq, true_and] at h
          rw [← h]
          exact congrArg (fun f => ({ w with mem := _, page := f } : World)) (remap_page w p { y with readOnly := false } y hy)
        | err _ => simp at h
        | panic => simp at h
    · rw [if_neg hro] at h
      exact copy_ok h

/-- A successful write inside a page. -/
theorem write_ok {dbg : Bool} {w w' : World} {a : Nat} {l : List UInt8} (hl : l ≠ []) (hW : a + l.length ≤ W - 4096) (hfit : a % 4096 + l.length ≤ 4096)
    (h : writeMemory dbg w a l = (.ok (), w')) : w' = store w a l := by
  have hlen : 0 < l.length := by
    cases l with
    | nil => exact absurd rfl hl
    | cons => simp
  have hpg : a + l.length ≤ pageOf a + 4096 := by unfold pageOf; omega
  have hW' : W = 18446744073709551616 := rfl
  unfold writeMemory add at h
  rw [if_pos (by omega)] at h
  simp only at h
  cases hc : checkRangeAccess dbg w a l.length with
  | err _ => rw [hc] at h; simp at h
  | panic => rw [hc] at h; simp at h
  | ok n =>
    rw [hc] at h
    simp only at h
    split at h
    · simp at h
    · rw [if_neg (by omega), if_neg (by omega)] at h
      unfold writeFrom at h
      rw [dif_pos (by omega)] at h
      simp only [Nat.sub_self, List.drop_zero] at h
      rw [show min (pageOf a + 4096) (a + l.length) = a + l.length by omega, show a + l.length - a = l.length by omega, List.take_length] at h
      generalize hp : writePage w a (pageOf a) l = c at h
      obtain ⟨r, w2⟩ := c
      cases r with
      | ok u =>
        have := writePage_ok hp
        simp only at h
        unfold writeFrom at h
        rw [dif_neg (by omega)] at h
        simp only [Prod.mk.injEq, true_and] at h
        rw [← h]
        exact this
      | err _ => simp at h
      | panic => simp at h

/-- A successful read inside a page. -/
theorem read_ok {dbg un : Bool} {w : World} {a n : Nat} {l : List UInt8} (hn : 0 < n) (hW : a + n ≤ W) (hfit : a % 4096 + n ≤ 4096)
    (h : readMemory dbg w a n un = .ok l) : l = bytes w a n := by
  have key : ∀ k, (if un then (.ok n : Outcome Unit Nat) else checkRangeAccess dbg w a n) = .ok k → k = n := by
    intro k hk
    cases un with
    | true =>
      simp only [if_true] at hk
      cases hk
      rfl
    | false =>
      simp only [Bool.false_eq_true, if_false] at hk
      unfold checkRangeAccess at hk
      rcases checkPagingRange_spec (dbg := dbg) (w := w) hn hW with ⟨k', e, k0, k1, kv, ke⟩ | ⟨e, hv'⟩
      · rw [e] at hk
        simp only at hk
        split at hk
        · cases hk
          rcases ke with ke | ke
          · exact ke
          · refine Decidable.byContradiction fun hne => ?_
            have h0 := kv a (Nat.le_refl _) (by omega)
            rw [pageOf_eq (pageOf_mod a) (by have := pageOf_le a; omega) (by unfold pageOf; omega), h0] at ke
            exact absurd ke (by simp)
        · simp at hk
      · rw [e] at hk
        simp at hk
  unfold readMemory at h
  generalize hc : (if un = true then (.ok n : Outcome Unit Nat) else checkRangeAccess dbg w a n) = c at h
  cases c with
  | err _ => simp at h
  | panic => simp at h
  | ok k =>
    have := key k hc
    subst this
    simp only at h
    rw [if_neg (by omega), if_neg (by omega)] at h
    split at h
    · cases h
      rfl
    · simp at h

/-! ### Adding and removing -/

/-- A breakpoint at `a` is inside a page and not in the last one. -/
def Fits (n a : Nat) : Prop := a % 4096 + n ≤ 4096 ∧ a + n ≤ W - 4096

theorem addBreak_spec {dbg un : Bool} {instr : List UInt8} {a : Nat} {w : World} (hi : instr ≠ []) (hf : Fits instr.length a) :
    ∀ {slots : List Bp} {r w' slots'}, (∀ b ∈ slots, b.original.length = instr.length) → addBreak dbg un instr a w slots = (r, w', slots') →
      (r = .ok true → w' = store w a instr ∧ ∃ pre b post, slots = pre ++ b :: post ∧ (∀ p ∈ pre, p.set = true) ∧ b.set = false ∧
        slots' = pre ++ ⟨true, a, bytes w a instr.length⟩ :: post) ∧
      (r = .ok false → w' = w ∧ slots' = slots ∧ ∀ b ∈ slots, b.set = true) ∧
      (r = .err () → w' = w ∧ ∃ pre b post o, slots = pre ++ b :: post ∧ b.set = false ∧ o.length = instr.length ∧ slots' = pre ++ { b with original := o } :: post) := by
  have hlen : 0 < instr.length := by
    cases instr with
    | nil => exact absurd rfl hi
    | cons => simp
  have hW' : W = 18446744073709551616 := rfl
  intro slots
  induction slots with
  | nil =>
    intro r w' slots' _ h
    unfold addBreak at h
    cases h
    exact ⟨fun h => by simp at h, fun _ => ⟨rfl, rfl, by simp⟩, fun h => by simp at h⟩
  | cons b rest ih =>
    intro r w' slots' hl h
    unfold addBreak at h
    by_cases hb : b.set = true
    · rw [if_pos hb] at h
      generalize hr : addBreak dbg un instr a w rest = c at h
      obtain ⟨r1, w1, rest1⟩ := c
      cases h
      obtain ⟨h1, h2, h3⟩ := ih (fun b hb => hl b (List.mem_cons_of_mem _ hb)) hr
      refine ⟨fun e => ?_, fun e => ?_, fun e => ?_⟩
      · obtain ⟨ew, pre, c, post, rfl, hp, hc, rfl⟩ := h1 e
        refine ⟨ew, b :: pre, c, post, rfl, ?_, hc, rfl⟩
        intro p hp'
        rcases List.mem_cons.1 hp' with rfl | hp'
        · exact hb
        · exact hp p hp'
      · obtain ⟨ew, es, hs⟩ := h2 e
        refine ⟨ew, by rw [es], ?_⟩
        intro p hp'
        rcases List.mem_cons.1 hp' with rfl | hp'
        · exact hb
        · exact hs p hp'
      · obtain ⟨ew, pre, c, post, o, rfl, hc, ho, rfl⟩ := h3 e
        exact ⟨ew, b :: pre, c, post, o, rfl, hc, ho, rfl⟩
    · have hbl := hl b (List.mem_cons_self ..)
      rw [if_neg hb, hbl] at h
      have hb' : b.set = false := by simpa using hb
      cases hr : readMemory dbg w a instr.length un with
      | err e =>
        rw [hr] at h
        cases h
        exact ⟨fun h => by simp at h, fun h => by simp at h, fun _ => ⟨rfl, [], b, rest, b.original, rfl, hb', hbl, rfl⟩⟩
      | panic =>
        rw [hr] at h
        cases h
        exact ⟨fun h => by simp at h, fun h => by simp at h, fun h => by simp at h⟩
      | ok l =>
        have hlb := read_ok hlen (by have := hf.2; omega) hf.1 hr
        have hfill : fill b.original l = bytes w a instr.length := by
          unfold fill
          rw [List.drop_eq_nil_of_le (by rw [hlb, bytes_length, hbl]; exact Nat.le_refl _), List.append_nil, hlb]
        rw [hr] at h
        simp only [hfill] at h
        generalize hw : writeMemory dbg w a instr = c at h
        obtain ⟨r1, w1⟩ := c
        cases r1 with
        | err e =>
          cases h
          have := write_refused hw
          exact ⟨fun h => by simp at h, fun h => by simp at h, fun _ => ⟨this, [], b, rest, _, rfl, hb', bytes_length _ _ _, rfl⟩⟩
        | panic =>
          cases h
          exact ⟨fun h => by simp at h, fun h => by simp at h, fun h => by simp at h⟩
        | ok u =>
          cases h
          have := write_ok hi hf.2 hf.1 hw
          exact ⟨fun _ => ⟨this, [], b, rest, rfl, by simp, hb', rfl⟩, fun h => by simp at h, fun h => by simp at h⟩

theorem removeBreak_spec {dbg : Bool} {n a : Nat} {w : World} (hn : 0 < n) :
    ∀ {slots : List Bp} {r w' slots'}, (∀ b ∈ slots, b.original.length = n) → (∀ b ∈ slots, b.set = true → Fits n b.addr) → removeBreak dbg a w slots = (r, w', slots') →
      (r = .ok true → ∃ pre b post, slots = pre ++ b :: post ∧ (∀ p ∈ pre, ¬(p.set = true ∧ p.addr = a)) ∧ b.set = true ∧ b.addr = a ∧
        w' = store w a b.original ∧ slots' = pre ++ { b with set := false } :: post) ∧
      (r = .ok false → w' = w ∧ slots' = slots ∧ ∀ b ∈ slots, ¬(b.set = true ∧ b.addr = a)) ∧
      (r = .err () → w' = w ∧ slots' = slots) := by
  intro slots
  induction slots with
  | nil =>
    intro r w' slots' _ _ h
    unfold removeBreak at h
    cases h
    exact ⟨fun h => by simp at h, fun _ => ⟨rfl, rfl, by simp⟩, fun h => by simp at h⟩
  | cons b rest ih =>
    intro r w' slots' hl hfs h
    unfold removeBreak at h
    by_cases hb : (b.set && b.addr == a) = true
    · rw [if_pos hb] at h
      simp only [Bool.and_eq_true, beq_iff_eq] at hb
      have hbl := hl b (List.mem_cons_self ..)
      have hf := hfs b (List.mem_cons_self ..) hb.1
      rw [hb.2, ← hbl] at hf
      generalize hw : writeMemory dbg w a b.original = c at h
      obtain ⟨r1, w1⟩ := c
      cases r1 with
      | err e =>
        cases h
        exact ⟨fun h => by simp at h, fun h => by simp at h, fun _ => ⟨write_refused hw, rfl⟩⟩
      | panic =>
        cases h
        exact ⟨fun h => by simp at h, fun h => by simp at h, fun h => by simp at h⟩
      | ok u =>
        cases h
        have := write_ok (by intro hc; rw [hc] at hbl; simp at hbl; omega) hf.2 hf.1 hw
        exact ⟨fun _ => ⟨[], b, rest, rfl, by simp, hb.1, hb.2, this, rfl⟩, fun h => by simp at h, fun h => by simp at h⟩
    · rw [if_neg hb] at h
      simp only [Bool.and_eq_true, beq_iff_eq] at hb
      generalize hr : removeBreak dbg a w rest = c at h
      obtain ⟨r1, w1, rest1⟩ := c
      cases h
      obtain ⟨h1, h2, h3⟩ := ih (fun b hb => hl b (List.mem_cons_of_mem _ hb)) (fun b hb => hfs b (List.mem_cons_of_mem _ hb)) hr
      refine ⟨fun e => ?_, fun e => ?_, fun e => ?_⟩
      · obtain ⟨pre, c, post, rfl, hp, hc, ha, hw, rfl⟩ := h1 e
        refine ⟨b :: pre, c, post, rfl, ?_, hc, ha, hw, rfl⟩
        intro p hp'
        rcases List.mem_cons.1 hp' with rfl | hp'
        · exact hb
        · exact hp p hp'
      · obtain ⟨ew, es, hs⟩ := h2 e
        refine ⟨ew, by rw [es], ?_⟩
        intro p hp'
        rcases List.mem_cons.1 hp' with rfl | hp'
        · exact hb
        · exact hs p hp'
      · obtain ⟨ew, es⟩ := h3 e
        exact ⟨ew, by rw [es]⟩

end Verif.Debugger
