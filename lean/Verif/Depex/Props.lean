import Verif.Depex.Lemmas
/-!
C02 (boolean meaning), C03 (totality, rejection of malformed input), C04 (sticky satisfaction).
-/
namespace Verif.Depex

/-- C02: evaluating the encoding of any dependency expression (with any padding after END, in any
build profile) never panics and answers `true` exactly when the expression holds of the installed
protocols. -/
theorem eval_encoded (dbg : Bool) (e : Expr) (padding : List UInt8) (installed : List Guid) :
    ∃ b, (eval dbg installed (parse (e.section padding))).1 = .ok b ∧
      (b = true ↔ e.holds (fun g => g ∈ installed)) := by
  refine ⟨_, by rw [parse_section, eval_ops], ?_⟩
  rw [Expr.val_iff]
  simp

/-- C03: every byte string evaluates to an answer in builds without debug assertions. -/
theorem eval_total (bytes : List UInt8) (installed : List Guid) :
    ∃ b, (eval false installed (parse bytes)).1 = .ok b :=
  evalLoop_release _ _ _ _ _

/-- C03 (dev profile): debug assertions never change an answer; at most they turn a `false` on a
malformed expression into a panic. -/
theorem eval_debug_agrees (bytes : List UInt8) (installed : List Guid) (b : Bool)
    (h : (eval true installed (parse bytes)).1 = .ok b) :
    (eval false installed (parse bytes)).1 = .ok b := by
  rcases evalLoop_debug installed (parse bytes) (parse bytes) 0 [] with h' | ⟨h', _⟩
  · exact h' ▸ h
  · exact absurd (h'.symm.trans h) (by simp)

theorem eval_debug_panic_is_false (bytes : List UInt8) (installed : List Guid)
    (h : (eval true installed (parse bytes)).1 = .panic) :
    (eval false installed (parse bytes)).1 = .ok false := by
  rcases evalLoop_debug installed (parse bytes) (parse bytes) 0 [] with h' | ⟨_, h'⟩
  · obtain ⟨b, hb⟩ := eval_total bytes installed
    exact absurd ((h'.symm.trans h).symm.trans hb) (by simp)
  · exact h'

/-- C03: `true` requires the byte string to decode to plain opcodes followed by END. So an unknown
opcode, a truncated operand, BEFORE/AFTER/SOR before END, or a missing END never yield `true`. -/
theorem eval_true_wellformed (dbg : Bool) (bytes : List UInt8) (installed : List Guid)
    (h : (eval dbg installed (parse bytes)).1 = .ok true) :
    ∃ body rest, parse bytes = body ++ .fin :: rest ∧ ∀ o ∈ body, o.plain = true :=
  evalLoop_true _ _ _ _ _ _ h

/-- C03: concretely, an encoded expression followed by an undecodable byte, a truncated GUID operand,
an association/SOR opcode or the end of input evaluates to `false`. -/
theorem eval_malformed_false (e : Expr) (bad rest : List UInt8) (installed : List Guid)
    (hbad : bad = [] ∧ rest = [] ∨ (∃ b, bad = [b] ∧ 0x09 ≤ b) ∨
      (∃ b, bad = [b] ∧ b ≤ 0x02 ∧ rest.length < 16) ∨ (∃ b, bad = [b] ∧ b ≤ 0x01)) :
    (eval false installed (parse (e.encode ++ bad ++ rest))).1 = .ok false := by
  have plainOps : ∀ (e : Expr) o, o ∈ e.ops (fun _ => false) → o.plain = true := by
    intro e
    induction e with
    | installed g => intro o ho; simp [Expr.ops] at ho; subst ho; rfl
    | tru => intro o ho; simp [Expr.ops] at ho; subst ho; rfl
    | fls => intro o ho; simp [Expr.ops] at ho; subst ho; rfl
    | not e ih =>
      intro o ho; simp [Expr.ops] at ho
      rcases ho with ho | rfl
      · exact ih o ho
      · rfl
    | and a b iha ihb =>
      intro o ho; simp [Expr.ops] at ho
      rcases ho with ho | ho | rfl
      · exact iha o ho
      · exact ihb o ho
      · rfl
    | or a b iha ihb =>
      intro o ho; simp [Expr.ops] at ho
      rcases ho with ho | ho | rfl
      · exact iha o ho
      · exact ihb o ho
      · rfl
  rw [List.append_assoc, parse_encode]
  rcases hbad with ⟨rfl, rfl⟩ | h
  · simp only [List.append_nil, parse_nil, eval]
    obtain ⟨b, hb⟩ := evalLoop_release installed (e.ops fun _ => false) (e.ops fun _ => false) 0 []
    cases b with
    | false => exact hb
    | true =>
      obtain ⟨body, rest, hsplit, _⟩ := evalLoop_true _ _ _ _ _ _ hb
      have := plainOps e .fin (by rw [hsplit]; simp)
      simp [Opcode.plain] at this
  · have step : ∃ op rest', parse (bad ++ rest) = op :: rest' ∧ op.plain = false ∧ op ≠ .fin := by
      have ne : ∀ {x y : UInt8}, y < x → x ≠ y := by
        intro x y h e; subst e; exact UInt8.lt_irrefl _ h
      rcases h with ⟨b, rfl, hb⟩ | ⟨b, rfl, hb, hl⟩ | ⟨b, rfl, hb⟩
      · rw [List.singleton_append, parse_cons]
        refine ⟨_, _, rfl, ?_⟩
        have h0 : b ≠ 0 := ne (UInt8.lt_of_lt_of_le (by decide) hb)
        have h1 : b ≠ 1 := ne (UInt8.lt_of_lt_of_le (by decide) hb)
        have h2 : b ≠ 2 := ne (UInt8.lt_of_lt_of_le (by decide) hb)
        have h3 : b ≠ 3 := ne (UInt8.lt_of_lt_of_le (by decide) hb)
        have h4 : b ≠ 4 := ne (UInt8.lt_of_lt_of_le (by decide) hb)
        have h5 : b ≠ 5 := ne (UInt8.lt_of_lt_of_le (by decide) hb)
        have h6 : b ≠ 6 := ne (UInt8.lt_of_lt_of_le (by decide) hb)
        have h7 : b ≠ 7 := ne (UInt8.lt_of_lt_of_le (by decide) hb)
        have h8 : b ≠ 8 := ne (UInt8.lt_of_lt_of_le (by decide) hb)
        by_cases h9 : b = 9
        · subst h9; simp [Opcode.ofBytes, Opcode.plain]
        · simp [Opcode.ofBytes, Opcode.plain, *]
      · rw [List.singleton_append, parse_cons]
        refine ⟨_, _, rfl, ?_⟩
        have hg : guidOperand rest = none := by simp [guidOperand]; omega
        have : b.toNat ≤ 2 := hb
        have : b = 0 ∨ b = 1 ∨ b = 2 := by
          rcases Nat.lt_or_ge b.toNat 1 with h | h
          · left; exact UInt8.toNat_inj.1 (by simpa using h)
          · rcases Nat.lt_or_ge b.toNat 2 with h' | h'
            · right; left; exact UInt8.toNat_inj.1 (by simp; omega)
            · right; right; exact UInt8.toNat_inj.1 (by simp; omega)
        rcases this with rfl | rfl | rfl <;> simp [Opcode.ofBytes, hg, Opcode.plain]
      · rw [List.singleton_append, parse_cons]
        refine ⟨_, _, rfl, ?_⟩
        have : b.toNat ≤ 1 := hb
        have : b = 0 ∨ b = 1 := by
          rcases Nat.lt_or_ge b.toNat 1 with h | h
          · left; exact UInt8.toNat_inj.1 (by simpa using h)
          · right; exact UInt8.toNat_inj.1 (by simp; omega)
        rcases this with rfl | rfl <;> cases hg : guidOperand rest <;>
          simp [Opcode.ofBytes, hg, Opcode.plain]
    obtain ⟨op, rest', hp, hpl, hf⟩ := step
    rw [hp]
    exact evalLoop_body _ _ _ _ _ _ _ (plainOps e) hpl hf

/-- C04: evaluate one DEPEX object against successive protocol sets `S₁ … Sₙ`. The `k`-th verdict is
the truth of the expression with "installed" read as "installed at one of `S₁ … Sₖ`". -/
theorem eval_history (dbg : Bool) (e : Expr) (padding : List UInt8) (snaps : List (List Guid))
    (k : Nat) (hk : k < snaps.length) :
    ∃ b, (evalHistory dbg (parse (e.section padding)) snaps)[k]? = some (.ok b) ∧
      (b = true ↔ e.holds (fun g => ∃ s ∈ snaps.take (k + 1), g ∈ s)) := by
  rw [parse_section]
  suffices H : ∀ (snaps : List (List Guid)) (P : Guid → Bool) (k : Nat), k < snaps.length →
      ∃ b, (evalHistory dbg (e.ops P ++ .fin :: parse padding) snaps)[k]? = some (.ok b) ∧
        (b = true ↔ e.holds (fun g => P g = true ∨ ∃ s ∈ snaps.take (k + 1), g ∈ s)) by
    simpa using H snaps (fun _ => false) k hk
  intro snaps
  induction snaps with
  | nil => intro P k hk; simp at hk
  | cons s ss ih =>
    intro P k hk
    simp only [evalHistory, eval_ops]
    cases k with
    | zero =>
      refine ⟨e.val (fun g => P g || s.contains g), by simp, ?_⟩
      rw [Expr.val_iff]
      simp
    | succ k =>
      obtain ⟨b, hb, hv⟩ := ih (fun g => P g || s.contains g) k (by simpa using hk)
      refine ⟨b, by simpa using hb, ?_⟩
      rw [hv]
      have : (fun g => (P g || s.contains g) = true ∨ ∃ t ∈ ss.take (k + 1), g ∈ t) =
          (fun g => P g = true ∨ ∃ t ∈ (s :: ss).take (k + 1 + 1), g ∈ t) := by
        funext g
        simp [or_assoc]
      rw [this]

/-- C04 corollary: a DEPEX without NOT that evaluated to `true` once evaluates to `true` forever. -/
theorem eval_sticky (dbg : Bool) (e : Expr) (hmono : ∀ (P Q : Guid → Prop), (∀ g, P g → Q g) → e.holds P → e.holds Q)
    (padding : List UInt8) (snaps : List (List Guid)) (j k : Nat) (hjk : j ≤ k) (hk : k < snaps.length)
    (h : (evalHistory dbg (parse (e.section padding)) snaps)[j]? = some (.ok true)) :
    (evalHistory dbg (parse (e.section padding)) snaps)[k]? = some (.ok true) := by
  obtain ⟨bj, hj, hvj⟩ := eval_history dbg e padding snaps j (by omega)
  obtain ⟨bk, hk', hvk⟩ := eval_history dbg e padding snaps k hk
  rw [hj] at h
  have hbj : bj = true := by simpa using h
  rw [hk']
  have : bk = true := by
    rw [hvk]
    refine hmono _ _ ?_ (hvj.1 hbj)
    rintro g ⟨s, hs, hg⟩
    refine ⟨s, ?_, hg⟩
    have hpre : snaps.take (j + 1) <+: snaps.take (k + 1) := List.take_prefix_take_left (by omega)
    exact hpre.subset hs
  simp [this]

/-- A scheduled SOR expression evaluates like the expression without SOR; an unscheduled one is
never satisfied. -/
theorem sor_schedule (e : Expr) (padding : List UInt8) (installed : List Guid) (dbg : Bool) :
    (eval dbg installed (parse (0x09 :: e.section padding))).1 = .ok false ∧
    schedule (parse (0x09 :: e.section padding)) = parse (e.section padding) := by
  rw [parse_one (op := .sor) (fun _ => by simp [Opcode.ofBytes]) rfl]
  simp [eval, evalLoop, schedule, isSor]

/-- BEFORE/AFTER sections are recognised as associations and never satisfied by evaluation. -/
theorem assoc_section (g : Guid) (installed : List Guid) (dbg : Bool) :
    isAssociated (parse (0x00 :: (g.bytes ++ [0x08]))) = some (.before g) ∧
    isAssociated (parse (0x01 :: (g.bytes ++ [0x08]))) = some (.after g) ∧
    (eval dbg installed (parse (0x00 :: (g.bytes ++ [0x08])))).1 = .ok false ∧
    (eval dbg installed (parse (0x01 :: (g.bytes ++ [0x08])))).1 = .ok false := by
  rw [parse_before, parse_after, parse_one (op := .fin) (fun _ => by simp [Opcode.ofBytes]) rfl, parse_nil]
  simp [isAssociated, eval, evalLoop]

/-- Finding: operand-stack underflow is not rejected. `NOT END` (bytes 05 08) pops a default `false`
and answers `true`, so a truncated expression can be satisfied. -/
theorem underflow_accepted : (eval false [] (parse [0x05, 0x08])).1 = .ok true := by
  have h : parse [0x05, 0x08] = [.not, .fin] := by
    rw [parse_one (op := .not) (fun _ => by simp [Opcode.ofBytes]) rfl,
      parse_one (op := .fin) (fun _ => by simp [Opcode.ofBytes]) rfl, parse_nil]
  rw [h]; rfl

/-! Non-vacuity. -/
def g0 : Guid := ⟨List.replicate 16 0, rfl⟩
def g1 : Guid := ⟨List.replicate 16 1, rfl⟩

example : (eval true [g0] (parse (Expr.section (.and (.installed g0) (.not (.installed g1))) [0xFF]))).1 = .ok true := by
  rw [parse_section]; decide +kernel
example : (eval true [g0, g1] (parse (Expr.section (.and (.installed g0) (.not (.installed g1))) []))).1 = .ok false := by
  rw [parse_section]; decide +kernel
example : ∀ (P Q : Guid → Prop), (∀ g, P g → Q g) → (Expr.or (.installed g0) .fls).holds P →
    (Expr.or (.installed g0) .fls).holds Q := by
  intro P Q h hp; rcases hp with hp | hp
  · exact Or.inl (h _ hp)
  · exact Or.inr hp

end Verif.Depex
