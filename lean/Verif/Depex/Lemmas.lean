import Verif.Depex.Spec
namespace Verif.Depex

/-- Opcodes of an expression; every push of `g` carries the flag `P g`. -/
def Expr.ops (P : Guid → Bool) : Expr → List Opcode
  | .installed g => [.push g (P g)]
  | .tru => [.tru]
  | .fls => [.fls]
  | .not e => e.ops P ++ [.not]
  | .and a b => a.ops P ++ (b.ops P ++ [.and])
  | .or a b => a.ops P ++ (b.ops P ++ [.or])

/-- Boolean version of `Expr.holds`. -/
def Expr.val (P : Guid → Bool) : Expr → Bool
  | .installed g => P g
  | .tru => true
  | .fls => false
  | .not e => !e.val P
  | .and a b => a.val P && b.val P
  | .or a b => a.val P || b.val P

theorem Expr.val_iff (P : Guid → Bool) (e : Expr) : e.val P = true ↔ e.holds (fun g => P g = true) := by
  induction e with
  | installed g => simp [val, holds]
  | tru => simp [val, holds]
  | fls => simp [val, holds]
  | not e ih => simp only [val, holds, ← ih]; cases e.val P <;> simp
  | and a b iha ihb => simp [val, holds, iha, ihb]
  | or a b iha ihb => simp [val, holds, iha, ihb]

theorem parse_nil : parse [] = [] := by rw [parse]

theorem parse_cons (b : UInt8) (rest : List UInt8) :
    parse (b :: rest) = Opcode.ofBytes b rest :: parse ((b :: rest).drop (Opcode.ofBytes b rest).byteSize) := by
  rw [parse]

theorem guidOperand_append (g : Guid) (rest : List UInt8) :
    guidOperand (g.bytes ++ rest) = some g := by
  have hl := g.len
  have : 16 ≤ (g.bytes ++ rest).length := by simp [hl]
  simp only [guidOperand, this, dite_true]
  congr 1
  cases g with
  | mk bs h => simp [← h]

theorem parse_push (g : Guid) (rest : List UInt8) :
    parse (0x02 :: (g.bytes ++ rest)) = .push g false :: parse rest := by
  have h : Opcode.ofBytes 0x02 (g.bytes ++ rest) = .push g false := by
    simp [Opcode.ofBytes, guidOperand_append]
  rw [parse_cons, h]
  simp [Opcode.byteSize, ← g.len]

theorem parse_before (g : Guid) (rest : List UInt8) :
    parse (0x00 :: (g.bytes ++ rest)) = .before g :: parse rest := by
  have h : Opcode.ofBytes 0x00 (g.bytes ++ rest) = .before g := by
    simp [Opcode.ofBytes, guidOperand_append]
  rw [parse_cons, h]
  simp [Opcode.byteSize, ← g.len]

theorem parse_after (g : Guid) (rest : List UInt8) :
    parse (0x01 :: (g.bytes ++ rest)) = .after g :: parse rest := by
  have h : Opcode.ofBytes 0x01 (g.bytes ++ rest) = .after g := by
    simp [Opcode.ofBytes, guidOperand_append]
  rw [parse_cons, h]
  simp [Opcode.byteSize, ← g.len]

theorem parse_one {b : UInt8} {op : Opcode} (h : ∀ rest, Opcode.ofBytes b rest = op)
    (hs : op.byteSize = 1) (rest : List UInt8) : parse (b :: rest) = op :: parse rest := by
  rw [parse_cons, h, hs]; rfl

theorem parse_encode (e : Expr) (rest : List UInt8) :
    parse (e.encode ++ rest) = e.ops (fun _ => false) ++ parse rest := by
  induction e generalizing rest with
  | installed g => simp [Expr.encode, Expr.ops, parse_push]
  | tru => exact parse_one (fun _ => by simp [Opcode.ofBytes]) rfl rest
  | fls => exact parse_one (fun _ => by simp [Opcode.ofBytes]) rfl rest
  | not e ih =>
    have := parse_one (b := 0x05) (op := .not) (fun _ => by simp [Opcode.ofBytes]) rfl rest
    simp [Expr.encode, Expr.ops, ih, this]
  | and a b iha ihb =>
    have := parse_one (b := 0x03) (op := .and) (fun _ => by simp [Opcode.ofBytes]) rfl rest
    simp [Expr.encode, Expr.ops, iha, ihb, this]
  | or a b iha ihb =>
    have := parse_one (b := 0x04) (op := .or) (fun _ => by simp [Opcode.ofBytes]) rfl rest
    simp [Expr.encode, Expr.ops, iha, ihb, this]

theorem parse_section (e : Expr) (padding : List UInt8) :
    parse (e.section padding) = e.ops (fun _ => false) ++ .fin :: parse padding := by
  rw [Expr.section, parse_encode, parse_one (op := .fin) (fun _ => by simp [Opcode.ofBytes]) rfl]

/-- The stack machine computes the expression, and remembers the GUIDs it saw. -/
theorem evalLoop_ops (dbg : Bool) (S : List Guid) (all : List Opcode) (P : Guid → Bool) (e : Expr) :
    ∀ (i : Nat) (st : List Bool) (rest : List Opcode),
    evalLoop dbg S all i st (e.ops P ++ rest) =
      (let r := evalLoop dbg S all (i + (e.ops P).length)
          (e.val (fun g => P g || S.contains g) :: st) rest
       (r.1, e.ops (fun g => P g || S.contains g) ++ r.2)) := by
  induction e with
  | installed g =>
    intro i st rest
    simp only [Expr.ops, Expr.val, List.cons_append, List.nil_append, List.length_cons,
      List.length_nil]
    rw [evalLoop]
    cases h : P g
    · by_cases h2 : g ∈ S <;> simp [h2]
    · simp
  | tru => intro i st rest; simp [Expr.ops, Expr.val, evalLoop]
  | fls => intro i st rest; simp [Expr.ops, Expr.val, evalLoop]
  | not e ih =>
    intro i st rest
    simp only [Expr.ops, Expr.val, List.append_assoc, List.cons_append, List.nil_append,
      List.length_append, List.length_cons, List.length_nil]
    rw [ih]
    simp [evalLoop, pop, Nat.add_assoc]
  | and a b iha ihb =>
    intro i st rest
    simp only [Expr.ops, Expr.val, List.append_assoc, List.cons_append, List.nil_append,
      List.length_append, List.length_cons, List.length_nil]
    rw [iha, ihb]
    simp [evalLoop, pop, Nat.add_assoc, Bool.and_comm]
  | or a b iha ihb =>
    intro i st rest
    simp only [Expr.ops, Expr.val, List.append_assoc, List.cons_append, List.nil_append,
      List.length_append, List.length_cons, List.length_nil]
    rw [iha, ihb]
    simp [evalLoop, pop, Nat.add_assoc, Bool.or_comm]

theorem eval_ops (dbg : Bool) (S : List Guid) (P : Guid → Bool) (e : Expr) (tail : List Opcode) :
    eval dbg S (e.ops P ++ .fin :: tail) =
      (.ok (e.val (fun g => P g || S.contains g)),
       e.ops (fun g => P g || S.contains g) ++ .fin :: tail) := by
  simp [eval, evalLoop_ops, evalLoop, pop]

/-- A verdict of `true` needs an END preceded by plain opcodes only. -/
theorem evalLoop_true (dbg : Bool) (S : List Guid) (all : List Opcode) :
    ∀ (ops : List Opcode) (i : Nat) (st : List Bool),
    (evalLoop dbg S all i st ops).1 = .ok true →
    ∃ body rest, ops = body ++ .fin :: rest ∧ ∀ o ∈ body, o.plain = true := by
  intro ops
  induction ops with
  | nil => intro i st h; simp [evalLoop] at h
  | cons op ops ih =>
    intro i st h
    have lift : ∀ j st', (evalLoop dbg S all j st' ops).1 = .ok true → op.plain = true →
        ∃ body rest, op :: ops = body ++ .fin :: rest ∧ ∀ o ∈ body, o.plain = true := by
      intro j st' hj hp
      obtain ⟨body, rest, e, hb⟩ := ih j st' hj
      refine ⟨op :: body, rest, by simp [e], ?_⟩
      intro o ho
      rcases List.mem_cons.1 ho with rfl | ho
      · exact hp
      · exact hb o ho
    cases op with
    | fin => exact ⟨[], ops, rfl, by simp⟩
    | push g pr =>
      rw [evalLoop] at h
      split at h
      · exact lift _ _ h rfl
      · split at h
        · exact lift _ _ h rfl
        · exact lift _ _ h rfl
    | and => exact lift _ _ h rfl
    | or => exact lift _ _ h rfl
    | not => exact lift _ _ h rfl
    | tru => exact lift _ _ h rfl
    | fls => exact lift _ _ h rfl
    | before g => rw [evalLoop] at h; split at h <;> simp at h
    | after g => rw [evalLoop] at h; split at h <;> simp at h
    | sor => rw [evalLoop] at h; split at h <;> simp at h
    | unknown => rw [evalLoop] at h; split at h <;> simp at h
    | malformed a b => rw [evalLoop] at h; split at h <;> simp at h

theorem evalLoop_release (S : List Guid) (all : List Opcode) :
    ∀ (ops : List Opcode) (i : Nat) (st : List Bool),
    ∃ b, (evalLoop false S all i st ops).1 = .ok b := by
  intro ops
  induction ops with
  | nil => intro i st; exact ⟨false, rfl⟩
  | cons op ops ih =>
    intro i st
    cases op with
    | fin => exact ⟨_, rfl⟩
    | push g pr =>
      rw [evalLoop]
      split
      · exact ih _ _
      · split
        · exact ih _ _
        · exact ih _ _
    | and => exact ih _ _
    | or => exact ih _ _
    | not => exact ih _ _
    | tru => exact ih _ _
    | fls => exact ih _ _
    | before g => exact ⟨false, by simp [evalLoop]⟩
    | after g => exact ⟨false, by simp [evalLoop]⟩
    | sor => exact ⟨false, by simp [evalLoop]⟩
    | unknown => exact ⟨false, by simp [evalLoop]⟩
    | malformed a b => exact ⟨false, by simp [evalLoop]⟩

/-- Debug assertions only turn `false` verdicts into panics. -/
theorem evalLoop_debug (S : List Guid) (all : List Opcode) :
    ∀ (ops : List Opcode) (i : Nat) (st : List Bool),
    (evalLoop true S all i st ops).1 = (evalLoop false S all i st ops).1 ∨
    ((evalLoop true S all i st ops).1 = .panic ∧ (evalLoop false S all i st ops).1 = .ok false) := by
  intro ops
  induction ops with
  | nil => intro i st; exact Or.inl rfl
  | cons op ops ih =>
    intro i st
    cases op with
    | fin => exact Or.inl rfl
    | push g pr =>
      rw [evalLoop, evalLoop]
      split
      · exact ih _ _
      · split
        · exact ih _ _
        · exact ih _ _
    | and => exact ih _ _
    | or => exact ih _ _
    | not => exact ih _ _
    | tru => exact ih _ _
    | fls => exact ih _ _
    | before g => rw [evalLoop, evalLoop]; simp only [Bool.false_and, Bool.true_and]; split <;> simp
    | after g => rw [evalLoop, evalLoop]; simp only [Bool.false_and, Bool.true_and]; split <;> simp
    | sor => rw [evalLoop, evalLoop]; simp only [Bool.false_and, Bool.true_and]; split <;> simp
    | unknown => simp [evalLoop]
    | malformed a b => simp [evalLoop]

/-- Any opcode other than the plain ones and END, reached before END, gives `false`. -/
theorem evalLoop_body (S : List Guid) (all : List Opcode) :
    ∀ (body : List Opcode) (i : Nat) (st : List Bool) (bad : Opcode) (rest : List Opcode),
    (∀ o ∈ body, o.plain = true) → bad.plain = false → bad ≠ .fin →
    (evalLoop false S all i st (body ++ bad :: rest)).1 = .ok false := by
  intro body
  induction body with
  | nil =>
    intro i st bad rest _ hb hf
    cases bad <;> simp_all [Opcode.plain, evalLoop]
  | cons op ops ih =>
    intro i st bad rest hp hb hf
    have hp' : ∀ o ∈ ops, o.plain = true := fun o ho => hp o (List.mem_cons_of_mem _ ho)
    have hop : op.plain = true := hp op (by simp)
    cases op with
    | push g pr =>
      rw [List.cons_append, evalLoop]
      split
      · exact ih _ _ _ _ hp' hb hf
      · split
        · exact ih _ _ _ _ hp' hb hf
        · exact ih _ _ _ _ hp' hb hf
    | and => exact ih _ _ _ _ hp' hb hf
    | or => exact ih _ _ _ _ hp' hb hf
    | not => exact ih _ _ _ _ hp' hb hf
    | tru => exact ih _ _ _ _ hp' hb hf
    | fls => exact ih _ _ _ _ hp' hb hf
    | _ => simp [Opcode.plain] at hop

end Verif.Depex
