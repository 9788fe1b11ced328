import Verif.Debugger.Monitor
/-!
What the monitor commands, the description and the modules give.
-/
namespace Verif.Debugger

/-! ### Output -/

theorem flush_out (b : MonBuf) : b.flush.sent.flatten ++ b.flush.buf = b.sent.flatten ++ b.buf := by
  unfold MonBuf.flush
  split
  · simp
  · rfl

theorem flush_buf (b : MonBuf) : b.flush.buf = [] := by
  unfold MonBuf.flush
  split
  · rfl
  · rename_i h
    exact List.length_eq_zero_iff.1 (by omega)

theorem flush_skip (b : MonBuf) : b.flush.skip = b.skip := by
  unfold MonBuf.flush
  split <;> rfl

theorem flush_packets {b : MonBuf} (h : ∀ p ∈ b.sent, p ≠ []) : ∀ p ∈ b.flush.sent, p ≠ [] := by
  unfold MonBuf.flush
  split
  · rename_i hb
    intro p hp
    rcases List.mem_append.1 hp with hp | hp
    · exact h p hp
    · simp only [List.mem_cons, List.not_mem_nil, or_false] at hp
      subst hp
      intro hc
      rw [hc] at hb
      simp at hb
  · exact h

theorem write_spec {n : Nat} {b : MonBuf} {s : List UInt8} (hn : 0 < n) (hb : b.buf.length ≤ n) (hp : ∀ p ∈ b.sent, p ≠ []) :
    ∃ b', b.write n s = some b' ∧ b'.buf.length ≤ n ∧ (∀ p ∈ b'.sent, p ≠ []) ∧ b'.skip = b.skip - s.length ∧
      b'.sent.flatten ++ b'.buf = b.sent.flatten ++ b.buf ++ s.drop b.skip := by
  unfold MonBuf.write
  by_cases h1 : (b.skip > 0 && b.skip ≥ s.length) = true
  · rw [if_pos h1]
    simp only [gt_iff_lt, ge_iff_le, Bool.and_eq_true, decide_eq_true_eq] at h1
    refine ⟨_, rfl, hb, hp, rfl, ?_⟩
    rw [List.drop_eq_nil_of_le h1.2, List.append_nil]
  · rw [if_neg h1]
    simp only [gt_iff_lt, ge_iff_le, Bool.and_eq_true, decide_eq_true_eq, not_and] at h1
    have hskip : b.skip - s.length = 0 := by omega
    simp only
    by_cases h2 : (s.drop b.skip).length < n
    · rw [if_pos h2]
      by_cases h3 : (s.drop b.skip).length > n - b.buf.length
      · rw [if_pos h3]
        have hfb : (MonBuf.flush { b with skip := 0 }).buf = [] := flush_buf _
        have hfo := flush_out { b with skip := 0 }
        have hfs := flush_skip { b with skip := 0 }
        have hfp := flush_packets (b := { b with skip := 0 }) hp
        rw [if_pos (by rw [hfb]; simp only [List.length_nil]; omega)]
        refine ⟨_, rfl, by simp only [hfb, List.nil_append]; omega, hfp, by simp only [hfs]; omega, ?_⟩
        simp only
        rw [← List.append_assoc, hfo]
      · rw [if_neg h3, if_pos (show b.buf.length + (s.drop b.skip).length ≤ n by omega)]
        refine ⟨_, rfl, by simp only [List.length_append]; omega, hp, by simp only; omega, ?_⟩
        simp only [List.append_assoc]
    · rw [if_neg h2]
      have hfb : (MonBuf.flush { b with skip := 0 }).buf = [] := flush_buf _
      have hfo := flush_out { b with skip := 0 }
      have hfs := flush_skip { b with skip := 0 }
      have hfp := flush_packets (b := { b with skip := 0 }) hp
      refine ⟨_, rfl, by simp only [hfb]; simp, ?_, by simp only [hfs]; omega, ?_⟩
      · intro p hp'
        rcases List.mem_append.1 hp' with hp' | hp'
        · exact hfp p hp'
        · simp only [List.mem_cons, List.not_mem_nil, or_false] at hp'
          subst hp'
          intro hc
          rw [hc] at h2
          simp at h2
          omega
      · simp only
        rw [hfb] at hfo ⊢
        simp only [List.append_nil, List.flatten_append, List.flatten_cons, List.flatten_nil] at hfo ⊢
        rw [hfo]

theorem all_spec {n : Nat} (hn : 0 < n) : ∀ (ss : List (List UInt8)) (b : MonBuf), b.buf.length ≤ n → (∀ p ∈ b.sent, p ≠ []) →
    ∃ b', b.all n ss = some b' ∧ (∀ p ∈ b'.sent, p ≠ []) ∧ b'.sent.flatten = b.sent.flatten ++ b.buf ++ ss.flatten.drop b.skip := by
  intro ss
  induction ss with
  | nil =>
    intro b _ hp
    refine ⟨b.flush, rfl, flush_packets hp, ?_⟩
    have := flush_out b
    rw [flush_buf, List.append_nil] at this
    rw [this]
    simp
  | cons s ss ih =>
    intro b hb hp
    obtain ⟨b1, e, hb1, hp1, hs, ho⟩ := write_spec (s := s) hn hb hp
    obtain ⟨b2, e2, hp2, ho2⟩ := ih b1 hb1 hp1
    refine ⟨b2, ?_, hp2, ?_⟩
    · unfold MonBuf.all
      rw [e]
      exact e2
    · rw [ho2, ho, hs, List.flatten_cons, List.drop_append, List.append_assoc, List.append_assoc]

/-- C100: whatever is written for a command, in whatever pieces, is sent in full and in order, without its first `skip` bytes; no packet is empty, and nothing panics. -/
theorem output_right (skip : Nat) (ss : List (List UInt8)) :
    ∃ b, (MonBuf.new skip).all 128 ss = some b ∧ b.sent.flatten = ss.flatten.drop skip ∧ ∀ p ∈ b.sent, p ≠ [] := by
  obtain ⟨b, e, hp, ho⟩ := all_spec (n := 128) (by decide) ss (MonBuf.new skip) (by simp [MonBuf.new]) (by simp [MonBuf.new])
  exact ⟨b, e, by rw [ho]; simp [MonBuf.new], hp⟩

/-! ### The description -/

/-- C100: a part of the description is the bytes from the offset on, as many as are asked for and fit. -/
theorem describe_part {dbg : Bool} {bytes : List UInt8} {offset length room : Nat} (hb : bytes.length < 2 ^ 64) (h : offset + length < 2 ^ 64) :
    describe dbg bytes offset length room = .ok ((bytes.drop offset).take (min length room)) := by
  unfold describe
  by_cases h1 : bytes.length ≤ offset
  · rw [if_pos h1, List.drop_eq_nil_of_le h1]
    simp
  · rw [if_neg h1, if_neg (by omega), Nat.mod_eq_of_lt h]
    simp only
    rw [if_neg (by omega)]
    congr 1
    rw [List.take_take, List.take_eq_take_iff]
    simp only [List.length_drop]
    omega

/-- The other side asks for parts of the given lengths, one after the other. -/
def fetch (dbg : Bool) (bytes : List UInt8) (room : Nat) : Nat → List Nat → Option (List UInt8)
  | _, [] => some []
  | offset, n :: ns => match describe dbg bytes offset n room with
    | .ok l => (fetch dbg bytes room (offset + l.length) ns).map (l ++ ·)
    | _ => none

/-- C100: the parts put together are the start of the description; if the last one is empty although something was asked for, they are all of it. -/
theorem fetched {dbg : Bool} {bytes : List UInt8} {room : Nat} (hb : bytes.length < 2 ^ 62) (hr : 0 < room) : ∀ (ns : List Nat) (offset : Nat), offset ≤ bytes.length →
    (∀ n ∈ ns, n < 2 ^ 62) →
    ∃ l, fetch dbg bytes room offset ns = some l ∧ (∃ t, bytes.drop offset = l ++ t) ∧
      (∀ n, 0 < n → n < 2 ^ 62 → describe dbg bytes (offset + l.length) n room = .ok [] → l = bytes.drop offset) := by
  intro ns
  induction ns with
  | nil =>
    intro offset ho _
    refine ⟨[], rfl, ⟨_, rfl⟩, fun n hn hn2 he => ?_⟩
    rw [describe_part (by omega) (by simp; omega)] at he
    injection he with he
    have := congrArg List.length he
    simp only [List.length_nil, Nat.add_zero, List.length_take, List.length_drop] at this
    rw [List.drop_eq_nil_of_le (by omega)]
  | cons n ns ih =>
    intro offset ho hns
    have hn := hns n (List.mem_cons_self ..)
    have hd := describe_part (dbg := dbg) (bytes := bytes) (offset := offset) (length := n) (room := room) (by omega) (by omega)
    have hlen : ((bytes.drop offset).take (min n room)).length ≤ bytes.length - offset := by
      rw [List.length_take, List.length_drop]
      omega
    obtain ⟨l, e, ⟨t, ht⟩, hend⟩ := ih (offset + ((bytes.drop offset).take (min n room)).length) (by omega) fun m hm => hns m (List.mem_cons_of_mem _ hm)
    refine ⟨(bytes.drop offset).take (min n room) ++ l, ?_, ⟨t, ?_⟩, ?_⟩
    · unfold fetch
      rw [hd]
      simp only [e]
      rfl
    · rw [List.append_assoc, ← ht, ← List.drop_drop]
      have : (bytes.drop offset).drop ((bytes.drop offset).take (min n room)).length = (bytes.drop offset).drop (min n room) := by
        rw [List.length_take]
        by_cases hc : min n room ≤ (bytes.drop offset).length
        · rw [Nat.min_eq_left hc]
        · rw [Nat.min_eq_right (by omega), List.drop_length, List.drop_eq_nil_of_le (by omega)]
      rw [this, List.take_append_drop]
    · intro m hm hm2 he
      rw [List.length_append, ← Nat.add_assoc] at he
      have := hend m hm hm2 he
      rw [this, ← List.drop_drop]
      have : (bytes.drop offset).drop ((bytes.drop offset).take (min n room)).length = (bytes.drop offset).drop (min n room) := by
        rw [List.length_take]
        by_cases hc : min n room ≤ (bytes.drop offset).length
        · rw [Nat.min_eq_left hc]
        · rw [Nat.min_eq_right (by omega), List.drop_length, List.drop_eq_nil_of_le (by omega)]
      rw [this, List.take_append_drop]

/-- The code does not meet the full property: the other side can make the debugger panic by asking for too much, in every build. -/
theorem describe_panics {dbg : Bool} {bytes : List UInt8} {offset length room : Nat} (h1 : offset < bytes.length) (h2 : 2 ^ 64 ≤ offset + length)
    (h3 : length < 2 ^ 64) (hb : bytes.length < 2 ^ 64) : describe dbg bytes offset length room = .panic := by
  unfold describe
  rw [if_neg (by omega)]
  by_cases hd : dbg = true
  · rw [if_pos ⟨h2, hd⟩]
  · rw [if_neg (fun hc => hd hc.2)]
    simp only
    rw [if_pos]
    have : (offset + length) % 2 ^ 64 = offset + length - 2 ^ 64 := by omega
    omega

/-! ### Modules -/

/-- `base` is the name without any `.efi` at its end. -/
def IsBase (name base : List UInt8) : Prop := (∃ k, name = base ++ (List.replicate k efi).flatten) ∧ ¬∃ p, base = p ++ efi

theorem trimEfi_base : ∀ (n : Nat) (s : List UInt8), s.length ≤ n → IsBase s (trimEfi s) := by
  intro n
  induction n with
  | zero =>
    intro s hs
    have : s = [] := List.length_eq_zero_iff.1 (by omega)
    subst this
    unfold trimEfi
    rw [dif_neg (by simp)]
    exact ⟨⟨0, rfl⟩, by rintro ⟨p, hp⟩; simp [efi] at hp⟩
  | succ n ih =>
    intro s hs
    unfold trimEfi
    by_cases h : 4 ≤ s.length ∧ s.drop (s.length - 4) = efi
    · rw [dif_pos h]
      obtain ⟨⟨k, hk⟩, hn⟩ := ih (s.take (s.length - 4)) (by simp; omega)
      refine ⟨⟨k + 1, ?_⟩, hn⟩
      have : s = s.take (s.length - 4) ++ efi := by rw [← h.2, List.take_append_drop]
      conv => lhs; rw [this, hk]
      rw [List.append_assoc]
      congr 1
      rw [show (List.replicate (k + 1) efi) = List.replicate k efi ++ [efi] from List.replicate_succ', List.flatten_append]
      simp
    · rw [dif_neg h]
      refine ⟨⟨0, by simp⟩, ?_⟩
      rintro ⟨p, rfl⟩
      refine h ⟨by simp [efi], ?_⟩
      rw [show (p ++ efi).length - 4 = p.length by simp [efi]]
      exact List.drop_left ..

theorem base_unique {s b c : List UInt8} (hb : IsBase s b) (hc : IsBase s c) : b = c := by
  obtain ⟨⟨k, hk⟩, hbn⟩ := hb
  obtain ⟨⟨m, hm⟩, hcn⟩ := hc
  have key : ∀ (k m : Nat) (b c : List UInt8), b ++ (List.replicate k efi).flatten = c ++ (List.replicate m efi).flatten → (¬∃ p, b = p ++ efi) → (¬∃ p, c = p ++ efi) → b = c := by
    intro k
    induction k with
    | zero =>
      intro m b c h hb hc
      cases m with
      | zero => simpa using h
      | succ m =>
        rw [show (List.replicate (m + 1) efi) = List.replicate m efi ++ [efi] from List.replicate_succ', List.flatten_append] at h
        simp only [List.replicate_zero, List.flatten_nil, List.append_nil, List.flatten_cons] at h
        exact absurd ⟨_, by rw [h, ← List.append_assoc]⟩ hb
    | succ k ih =>
      intro m b c h hb hc
      cases m with
      | zero =>
        rw [show (List.replicate (k + 1) efi) = List.replicate k efi ++ [efi] from List.replicate_succ', List.flatten_append] at h
        simp only [List.replicate_zero, List.flatten_nil, List.append_nil, List.flatten_cons] at h
        exact absurd ⟨_, by rw [← h, ← List.append_assoc]⟩ hc
      | succ m =>
        rw [show (List.replicate (k + 1) efi) = List.replicate k efi ++ [efi] from List.replicate_succ',
          show (List.replicate (m + 1) efi) = List.replicate m efi ++ [efi] from List.replicate_succ', List.flatten_append, List.flatten_append,
          ← List.append_assoc, ← List.append_assoc] at h
        exact ih m b c (List.append_cancel_right h) hb hc
  exact key k m b c (hk.symm.trans hm) hbn hcn

/-- What is asked for, in order. -/
inductive ModOp where
  | load (x : Module)
  | breakOn (name : List UInt8)
  | breakAll
  | clear

def modStep (m : Modules) : ModOp → Modules
  | .load x => m.addModule x
  | .breakOn name => m.addBreakpoint name
  | .breakAll => m.breakOnAll
  | .clear => m.clear

/-- What counts is what came after the last `clear`. -/
def sinceClear : List ModOp → List ModOp
  | [] => []
  | op :: ops => if ops.any (fun o => match o with | .clear => true | _ => false) then sinceClear ops else match op with | .clear => ops | _ => op :: ops

theorem modules_run (ops : List ModOp) : ∀ (m : Modules),
    (ops.foldl modStep m).modules = m.modules ++ ops.filterMap (fun o => match o with | .load x => some x | _ => none) ∧
    ((ops.foldl modStep m).breakAll = true ↔ (m.breakAll = true ∧ ∀ o ∈ ops, o ≠ .clear) ∨ .breakAll ∈ sinceClear ops) ∧
    (∀ b, b ∈ (ops.foldl modStep m).breakpoints ↔ (b ∈ m.breakpoints ∧ ∀ o ∈ ops, o ≠ .clear) ∨ ∃ name, .breakOn name ∈ sinceClear ops ∧ b = trimEfi name ∧ b ≠ []) := by
  induction ops with
  | nil => intro m; simp [sinceClear]
  | cons op ops ih =>
    intro m
    obtain ⟨h1, h2, h3⟩ := ih (modStep m op)
    have hany : (ops.any (fun o => match o with | .clear => true | _ => false)) = true ↔ ¬∀ o ∈ ops, o ≠ .clear := by
      simp only [List.any_eq_true]
      constructor
      · rintro ⟨o, ho, hc⟩ hall
        cases o with
        | clear => exact hall _ ho rfl
        | _ => exact absurd hc (by simp)
      · intro h
        refine Decidable.byContradiction fun hn => h fun o ho hc => hn ⟨o, ho, by rw [hc]⟩
    have hsc : (∀ o ∈ ops, o ≠ ModOp.clear) → sinceClear ops = ops := by
      intro h
      cases ops with
      | nil => rfl
      | cons p ps =>
        have hps : ¬(ps.any (fun o => match o with | .clear => true | _ => false)) = true := by
          simp only [List.any_eq_true]
          rintro ⟨o, ho, hc⟩
          cases o with
          | clear => exact h _ (List.mem_cons_of_mem _ ho) rfl
          | _ => exact absurd hc (by simp)
        unfold sinceClear
        rw [if_neg hps]
        cases p with
        | clear => exact absurd rfl (h _ (List.mem_cons_self ..))
        | _ => rfl
    rw [List.foldl_cons]
    refine ⟨?_, ?_, ?_⟩
    · rw [h1]
      cases op with
      | load x => simp [modStep, Modules.addModule]
      | breakOn name =>
        simp only [modStep, Modules.addBreakpoint]
        split <;> simp
      | breakAll => simp [modStep, Modules.breakOnAll]
      | clear => simp [modStep, Modules.clear]
    · rw [h2]
      by_cases hc : ∀ o ∈ ops, o ≠ ModOp.clear
      · have hf : ¬(ops.any (fun o => match o with | .clear => true | _ => false)) = true := fun h => hany.1 h hc
        conv => rhs; unfold sinceClear
        rw [if_neg hf, hsc hc]
        cases op with
        | load x => simp [modStep, Modules.addModule]
        | breakOn name =>
          simp only [modStep, Modules.addBreakpoint]
          split <;> simp
        | breakAll => exact ⟨fun _ => .inr (List.mem_cons_self ..), fun _ => .inl ⟨rfl, hc⟩⟩
        | clear => simp [modStep, Modules.clear]
      · have ht : (ops.any (fun o => match o with | .clear => true | _ => false)) = true := hany.2 hc
        conv => rhs; unfold sinceClear
        rw [if_pos ht]
        constructor
        · rintro (⟨_, h⟩ | h)
          · exact absurd h hc
          · exact .inr h
        · rintro (⟨_, h⟩ | h)
          · exact absurd (fun o ho => h o (List.mem_cons_of_mem _ ho)) hc
          · exact .inr h
    · intro b
      rw [h3]
      by_cases hc : ∀ o ∈ ops, o ≠ ModOp.clear
      · have hf : ¬(ops.any (fun o => match o with | .clear => true | _ => false)) = true := fun h => hany.1 h hc
        conv => rhs; unfold sinceClear
        rw [if_neg hf, hsc hc]
        cases op with
        | load x => simp [modStep, Modules.addModule]
        | breakOn name =>
          simp only [modStep, Modules.addBreakpoint]
          by_cases he : trimEfi name = []
          · simp only [he, List.isEmpty_nil, if_true]
            constructor
            · rintro (⟨h, h'⟩ | ⟨n, h, h'⟩)
              · exact .inl ⟨h, by simpa using h'⟩
              · exact .inr ⟨n, List.mem_cons_of_mem _ h, h'⟩
            · rintro (⟨h, h'⟩ | ⟨n, h, hb, hne⟩)
              · exact .inl ⟨h, hc⟩
              · rcases List.mem_cons.1 h with h | h
                · cases h
                  exact absurd (hb.trans he) hne
                · exact .inr ⟨n, h, hb, hne⟩
          · have : (trimEfi name).isEmpty = false := by simpa using he
            simp only [this, Bool.false_eq_true, if_false, List.mem_append, List.mem_cons, List.not_mem_nil, or_false]
            constructor
            · rintro (⟨h | h, h'⟩ | ⟨n, h, h'⟩)
              · exact .inl ⟨h, by simpa using h'⟩
              · exact .inr ⟨name, .inl rfl, h, by rw [h]; exact he⟩
              · exact .inr ⟨n, .inr h, h'⟩
            · rintro (⟨h, h'⟩ | ⟨n, h, hb, hne⟩)
              · exact .inl ⟨.inl h, hc⟩
              · rcases h with h | h
                · cases h
                  exact .inl ⟨.inr hb, hc⟩
                · exact .inr ⟨n, h, hb, hne⟩
        | breakAll => simp [modStep, Modules.breakOnAll]
        | clear => simp [modStep, Modules.clear]
      · have ht : (ops.any (fun o => match o with | .clear => true | _ => false)) = true := hany.2 hc
        conv => rhs; unfold sinceClear
        rw [if_pos ht]
        constructor
        · rintro (⟨_, h⟩ | h)
          · exact absurd h hc
          · exact .inr h
        · rintro (⟨_, h⟩ | h)
          · exact absurd (fun o ho => h o (List.mem_cons_of_mem _ ho)) hc
          · exact .inr h

/-- C100: when a module is loaded, the debugger is entered exactly if, since the last `clear`, it was asked to break on every module or on a name that is the same but
for ASCII case, `.efi` at the end not counted. -/
theorem module_breaks (ops : List ModOp) (name base : List UInt8) (hbase : IsBase name base) :
    (ops.foldl modStep Modules.new).check name = true ↔
      .breakAll ∈ sinceClear ops ∨ ∃ n b, .breakOn n ∈ sinceClear ops ∧ IsBase n b ∧ b ≠ [] ∧ b.map lower = base.map lower := by
  obtain ⟨_, h2, h3⟩ := modules_run ops Modules.new
  have hb : trimEfi name = base := base_unique (trimEfi_base _ name (Nat.le_refl _)) hbase
  unfold Modules.check
  rw [Bool.or_eq_true, h2, hb]
  simp only [Modules.new, Bool.false_eq_true, false_and, false_or, List.not_mem_nil, List.any_eq_true] at h3 ⊢
  constructor
  · rintro (h | ⟨b, hm, hs⟩)
    · exact .inl h
    · obtain ⟨n, hn, he, hne⟩ := (h3 b).1 hm
      refine .inr ⟨n, b, hn, ?_, hne, ?_⟩
      · rw [he]; exact trimEfi_base _ n (Nat.le_refl _)
      · simpa [sameIgnoringCase] using hs
  · rintro (h | ⟨n, b, hn, hib, hne, hl⟩)
    · exact .inl h
    · refine .inr ⟨b, (h3 b).2 ⟨n, hn, base_unique hib (trimEfi_base _ n (Nat.le_refl _)), hne⟩, by simpa [sameIgnoringCase] using hl⟩

/-- C100: the modules loaded are listed in order: as many as are asked for, from the one asked for on (one if none is asked for). -/
theorem modules_listed (ops : List ModOp) (count start : Nat) :
    (ops.foldl modStep Modules.new).list count start =
      ((ops.filterMap (fun o => match o with | .load x => some x | _ => none)).drop start).take (max count 1) := by
  have key : ∀ (l : List Module) (p : Nat), p < count ∨ p = 0 → Modules.listFrom count p l = l.take (max (count - p) 1) := by
    intro l
    induction l with
    | nil => intro p _; simp [Modules.listFrom]
    | cons x xs ih =>
      intro p hp
      unfold Modules.listFrom
      by_cases h : p + 1 ≥ count
      · rw [if_pos h, show max (count - p) 1 = 1 by omega]
        rfl
      · rw [if_neg h, ih (p + 1) (by omega), show max (count - p) 1 = max (count - (p + 1)) 1 + 1 by omega, List.take_succ_cons]
  unfold Modules.list
  rw [key _ 0 (.inr rfl), (modules_run ops Modules.new).1]
  simp [Modules.new]

/-- The code does not meet the full property: with upper case, `.EFI` at the end does count. -/
theorem upper_case_suffix_missed : (Modules.new.addBreakpoint (text "Shell")).check (text "Shell.EFI") = false ∧
    (Modules.new.addBreakpoint (text "Shell")).check (text "SHELL.efi") = true := by
  decide +kernel

/-! ### Commands -/

/-- The names that are taken. -/
def builtin : List String := ["help", "mod", "reboot", "R", "?", "disablechecks", "arch"]

/-- C100: a command that is not built in goes to the first external command with that name, with the rest of the words; to none only if there is none. -/
theorem external_found (names : List (List UInt8)) (t : List UInt8) (args : List (List UInt8)) (ht : t ∉ builtin.map text) :
    (∃ i, dispatch names (t :: args) = .external i args ∧ names[i]? = some t ∧ ∀ j, j < i → names[j]? ≠ some t) ∨
    (dispatch names (t :: args) = .unknown ∧ t ∉ names) := by
  simp only [builtin, List.map_cons, List.map_nil, List.mem_cons, List.not_mem_nil, or_false, not_or] at ht
  simp only [dispatch]
  obtain ⟨h1, h2, h3, h4, h5, h6, h7⟩ := ht
  rw [if_neg (by simpa using h1), if_neg (by simpa using h2), if_neg (by simp [h3, h4]), if_neg (by simpa using h5), if_neg (by simpa using h6),
    if_neg (by simpa using h7)]
  unfold findCommand
  cases h : names.findIdx? (· == t) with
  | none =>
    refine .inr ⟨rfl, fun hm => ?_⟩
    have := List.findIdx?_eq_none_iff.1 h t hm
    simp at this
  | some i =>
    rw [List.findIdx?_eq_some_iff_getElem] at h
    obtain ⟨hi, he, hj⟩ := h
    refine .inl ⟨i, rfl, ?_, fun j hji hc => ?_⟩
    · rw [List.getElem?_eq_getElem hi]
      simpa using he
    · have := hj j hji
      rw [List.getElem?_eq_getElem (by omega)] at hc
      injection hc with hc
      rw [hc] at this
      simp at this

/-- The code does not meet the full property: an external command with a name that is taken can be added and is never called. -/
theorem shadowed_never_called (names : List (List UInt8)) (t : List UInt8) (args : List (List UInt8)) (ht : t ∈ builtin.map text) (i : Nat) (a : List (List UInt8)) :
    dispatch names (t :: args) ≠ .external i a := by
  simp only [builtin, List.map_cons, List.map_nil, List.mem_cons, List.not_mem_nil, or_false] at ht
  simp only [dispatch]
  intro h
  rcases ht with rfl | rfl | rfl | rfl | rfl | rfl | rfl
  all_goals
    revert h
    repeat' split
    all_goals first
      | (intro hc; cases hc; done)
      | (rename_i h1 h2 h3 h4 h5 h6 _ _; revert h1 h2 h3 h4 h5 h6; decide +kernel)
      | skip
  all_goals simp_all

/-! ### Examples -/

example : ∃ b, (MonBuf.new 3).all 128 [[1, 2], [3, 4, 5], List.replicate 130 7] = some b ∧ b.sent = [[4, 5], List.replicate 130 7] :=
  ⟨⟨[], 0, [[4, 5], List.replicate 130 7]⟩, by simp [MonBuf.all, MonBuf.write, MonBuf.new, MonBuf.flush], rfl⟩

example : fetch true (text "<target/>") 4 0 [3, 10, 10, 10] = some (text "<target/>") := by decide +kernel

example : (([.breakOn (text "Shell.efi"), .load ⟨text "Boot.efi", 1, 2⟩] : List ModOp).foldl modStep Modules.new).check (text "SHELL") = true := by decide +kernel

example : ((([.breakOn (text "Shell.efi"), .clear] : List ModOp).foldl modStep Modules.new).check (text "SHELL")) = false := by decide +kernel

example : dispatch [text "uptime", text "mod"] [text "uptime", text "now"] = .external 0 [text "now"] := by decide +kernel

end Verif.Debugger
