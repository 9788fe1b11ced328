import Verif.Depex.Props
import Verif.Dispatcher.Spec
/-!
What a dependency expression becomes after a history of evaluations and schedule requests.
-/
namespace Verif.Dispatcher
open Verif.Depex (Guid Opcode Expr)

/-- The effect of an event on the expression of driver `u`. -/
def evolve (dbg : Bool) (u : Nat) (ops : List Opcode) : Ev → List Opcode
  | .judged v p _ => if v = u then (Depex.eval dbg p ops).2 else ops
  | .requested v => if v = u then Depex.schedule ops else ops
  | _ => ops

/-- The expression of driver `u` after the history `l`. -/
def replay (dbg : Bool) (u : Nat) (ops : List Opcode) (l : List Ev) : List Opcode :=
  l.foldl (evolve dbg u) ops

/-- An expression without the memory of protocols seen. -/
def forget : Opcode → Opcode
  | .push g _ => .push g false
  | o => o

theorem evalLoop_forget (dbg : Bool) (p : List Guid) (all : List Opcode) (ops : List Opcode) :
    ∀ i st, (Depex.evalLoop dbg p all i st ops).2.map forget = ops.map forget := by
  induction ops with
  | nil => intro i st; rfl
  | cons op ops ih =>
    intro i st
    cases op with
    | push g b =>
      simp only [Depex.evalLoop]
      split
      · simp [forget, ih]
      · split <;> simp [forget, ih]
    | before g => simp only [Depex.evalLoop]; split <;> rfl
    | after g => simp only [Depex.evalLoop]; split <;> rfl
    | sor => simp only [Depex.evalLoop]; split <;> rfl
    | unknown => simp only [Depex.evalLoop]; split <;> rfl
    | malformed _ _ => simp only [Depex.evalLoop]; split <;> rfl
    | fin => rfl
    | _ => simp [Depex.evalLoop, forget, ih]

theorem eval_forget (dbg : Bool) (p : List Guid) (ops : List Opcode) :
    (Depex.eval dbg p ops).2.map forget = ops.map forget := evalLoop_forget _ _ _ _ _ _

theorem isAssociated_forget (ops : List Opcode) :
    Depex.isAssociated (ops.map forget) = Depex.isAssociated ops := by
  cases ops with
  | nil => rfl
  | cons o ops => cases o <;> rfl

theorem schedule_forget (ops : List Opcode) :
    ∃ k, ops.map forget = List.replicate k .sor ++ (Depex.schedule ops).map forget := by
  cases ops with
  | nil => exact ⟨0, rfl⟩
  | cons o ops =>
    cases o with
    | sor => exact ⟨1, rfl⟩
    | _ => exact ⟨0, rfl⟩

theorem replay_forget (dbg : Bool) (u : Nat) (l : List Ev) :
    ∀ ops, ∃ k, ops.map forget = List.replicate k .sor ++ (replay dbg u ops l).map forget := by
  induction l with
  | nil => intro ops; exact ⟨0, rfl⟩
  | cons e l ih =>
    intro ops
    obtain ⟨k, hk⟩ := ih (evolve dbg u ops e)
    have h1 : ∃ j, ops.map forget = List.replicate j .sor ++ (evolve dbg u ops e).map forget := by
      cases e with
      | judged v p _ =>
        simp only [evolve]
        split
        · exact ⟨0, by simp [eval_forget]⟩
        · exact ⟨0, rfl⟩
      | requested v =>
        simp only [evolve]
        split
        · exact schedule_forget ops
        · exact ⟨0, rfl⟩
      | _ => exact ⟨0, rfl⟩
    obtain ⟨j, hj⟩ := h1
    refine ⟨j + k, ?_⟩
    rw [hj, hk, ← List.append_assoc, List.replicate_append_replicate]
    rfl

theorem forget_sor {o : Opcode} (h : forget o = .sor) : o = .sor := by
  cases o <;> simp [forget] at h ⊢

theorem forget_assoc {o : Opcode} {g : Guid} (h : forget o = .before g ∨ forget o = .after g) :
    o = .before g ∨ o = .after g := by
  cases o <;> simp [forget] at h ⊢ <;> exact h

theorem ofBytes_sor {b : UInt8} {rest : List UInt8} (h : Opcode.ofBytes b rest = .sor) : b = 0x09 := by
  unfold Depex.Opcode.ofBytes at h
  split at h
  · split at h <;> cases h
  split at h
  · split at h <;> cases h
  split at h
  · split at h <;> cases h
  split at h
  · cases h
  split at h
  · cases h
  split at h
  · cases h
  split at h
  · cases h
  split at h
  · cases h
  split at h
  · cases h
  split at h
  · assumption
  · cases h

theorem ofBytes_assoc {b : UInt8} {rest : List UInt8} {g : Guid}
    (h : Opcode.ofBytes b rest = .before g ∨ Opcode.ofBytes b rest = .after g) :
    (b = 0x00 ∨ b = 0x01) ∧ ∃ r, rest = g.bytes ++ r := by
  have key : ∀ o, Depex.guidOperand rest = some o → ∃ r, rest = o.bytes ++ r := by
    intro o ho
    unfold Depex.guidOperand at ho
    split at ho
    · cases ho; exact ⟨rest.drop 16, (List.take_append_drop 16 rest).symm⟩
    · cases ho
  unfold Depex.Opcode.ofBytes at h
  split at h
  · rename_i hb
    split at h
    · rename_i g' hg
      rcases h with h | h
      · injection h with h; subst h; exact ⟨.inl hb, key _ hg⟩
      · cases h
    · rcases h with h | h <;> cases h
  split at h
  · rename_i hb
    split at h
    · rename_i g' hg
      rcases h with h | h
      · cases h
      · injection h with h; subst h; exact ⟨.inr hb, key _ hg⟩
    · rcases h with h | h <;> cases h
  exfalso
  split at h
  · split at h <;> rcases h with h | h <;> cases h
  split at h
  · rcases h with h | h <;> cases h
  split at h
  · rcases h with h | h <;> cases h
  split at h
  · rcases h with h | h <;> cases h
  split at h
  · rcases h with h | h <;> cases h
  split at h
  · rcases h with h | h <;> cases h
  split at h
  · rcases h with h | h <;> cases h
  split at h
  · rcases h with h | h <;> cases h
  rcases h with h | h <;> cases h

theorem parse_says {g : Guid} (k : Nat) : ∀ (b : List UInt8) (o : Opcode) (r : List Opcode),
    (Depex.parse b).map forget = List.replicate k .sor ++ o :: r → o = .before g ∨ o = .after g →
    SaysBeforeOrAfter b g := by
  induction k with
  | zero =>
    intro b o r h ho
    cases b with
    | nil => rw [Depex.parse_nil] at h; cases h
    | cons x xs =>
      rw [Depex.parse_cons] at h
      simp only [List.map_cons, List.replicate_zero, List.nil_append] at h
      injection h with h1 _
      have h2 := forget_assoc (h1 ▸ ho)
      obtain ⟨hb, r', hr⟩ := ofBytes_assoc h2
      exact ⟨0, x, r', by simp [hr], hb⟩
  | succ k ih =>
    intro b o r h ho
    cases b with
    | nil => rw [Depex.parse_nil] at h; cases h
    | cons x xs =>
      rw [Depex.parse_cons] at h
      simp only [List.map_cons, List.replicate_succ, List.cons_append] at h
      injection h with h1 h2
      have h3 := forget_sor h1
      rw [h3] at h2
      obtain ⟨k', op, rest, e, hop⟩ := ih xs o r h2 ho
      refine ⟨k' + 1, op, rest, ?_, hop⟩
      rw [ofBytes_sor h3, e, List.replicate_succ]
      rfl

theorem replay_says {dbg : Bool} {u : Nat} {b : List UInt8} {l : List Ev} {g : Guid}
    (h : Depex.isAssociated (replay dbg u (Depex.parse b) l) = some (.before g) ∨
      Depex.isAssociated (replay dbg u (Depex.parse b) l) = some (.after g)) : SaysBeforeOrAfter b g := by
  obtain ⟨k, hk⟩ := replay_forget dbg u l (Depex.parse b)
  revert h hk
  generalize replay dbg u (Depex.parse b) l = ops
  intro h hk
  cases ops with
  | nil => rcases h with h | h <;> cases h
  | cons o ops =>
    refine parse_says k b (forget o) (ops.map forget) hk ?_
    cases o <;> rcases h with h | h <;> cases h
    · exact .inl rfl
    · exact .inr rfl

/-! ### Which expressions hold -/

theorem replay_append (dbg : Bool) (u : Nat) (ops : List Opcode) (l l' : List Ev) :
    replay dbg u ops (l ++ l') = replay dbg u (replay dbg u ops l) l' := List.foldl_append ..

theorem replay_snoc (dbg : Bool) (u : Nat) (ops : List Opcode) (l : List Ev) (e : Ev) :
    replay dbg u ops (l ++ [e]) = evolve dbg u (replay dbg u ops l) e := by
  simp [replay]

/-- The protocols seen, as a boolean function. -/
def seenB (u : Nat) : List Ev → Guid → Bool
  | [], _ => false
  | .judged v p _ :: l, g => (v == u && p.contains g) || seenB u l g
  | _ :: l, g => seenB u l g

theorem seenB_iff (u : Nat) (l : List Ev) (g : Guid) : seenB u l g = true ↔ Seen l u g := by
  induction l with
  | nil => simp [seenB, Seen]
  | cons e l ih =>
    cases e with
    | judged v p b =>
      simp only [seenB, Bool.or_eq_true, Bool.and_eq_true, beq_iff_eq, ih, Seen, List.contains_iff_mem]
      constructor
      · rintro (⟨rfl, h⟩ | ⟨p', v', h1, h2⟩)
        · exact ⟨p, b, .head _, h⟩
        · exact ⟨p', v', .tail _ h1, h2⟩
      · rintro ⟨p', v', h1, h2⟩
        cases h1 with
        | head => exact .inl ⟨rfl, h2⟩
        | tail _ h => exact .inr ⟨p', v', h, h2⟩
    | _ => simp [seenB, ih, Seen]

theorem evolve_ops (dbg : Bool) (u : Nat) (e : Expr) (pad : List Opcode) (P : Guid → Bool) (ev : Ev) :
    evolve dbg u (e.ops P ++ .fin :: pad) ev =
      e.ops (fun g => P g || seenB u [ev] g) ++ .fin :: pad := by
  have triv : e.ops P = e.ops (fun g => P g || false) := by simp
  cases ev with
  | judged v p b =>
    simp only [evolve, seenB]
    split
    · rename_i h; subst h
      rw [Depex.eval_ops]
      simp
    · rename_i h
      have hv : (v == u) = false := by simp [h]
      simp [hv]
  | requested v =>
    have hs : ∀ (Q : Guid → Bool) (t : List Opcode), Depex.schedule (e.ops Q ++ .fin :: t) = e.ops Q ++ .fin :: t := by
      intro Q t
      have : Depex.isSor (e.ops Q ++ .fin :: t) = false := by
        induction e generalizing t with
        | not a ih => simp only [Depex.Expr.ops, List.append_assoc, List.cons_append, List.nil_append]; exact isSor_ops Q a _
        | and a b iha _ => simp only [Depex.Expr.ops, List.append_assoc, List.cons_append, List.nil_append]; exact isSor_ops Q a _
        | or a b iha _ => simp only [Depex.Expr.ops, List.append_assoc, List.cons_append, List.nil_append]; exact isSor_ops Q a _
        | _ => rfl
      simp [Depex.schedule, this]
    simp only [evolve, seenB, Bool.or_false]
    split
    · exact hs _ _
    · rfl
  | _ => simp [evolve, seenB]
where
  isSor_ops (Q : Guid → Bool) : ∀ (a : Expr) (t : List Opcode), Depex.isSor (a.ops Q ++ t) = false
    | .installed _, _ => rfl
    | .tru, _ => rfl
    | .fls, _ => rfl
    | .not a, t => by simp only [Depex.Expr.ops, List.append_assoc]; exact isSor_ops Q a _
    | .and a b, t => by simp only [Depex.Expr.ops, List.append_assoc]; exact isSor_ops Q a _
    | .or a b, t => by simp only [Depex.Expr.ops, List.append_assoc]; exact isSor_ops Q a _

theorem seenB_append (u : Nat) (l l' : List Ev) (g : Guid) :
    seenB u (l ++ l') g = (seenB u l g || seenB u l' g) := by
  induction l with
  | nil => simp [seenB]
  | cons e l ih => cases e <;> simp [seenB, ih, Bool.or_assoc]

theorem replay_ops (dbg : Bool) (u : Nat) (e : Expr) (pad : List Opcode) (l : List Ev) :
    ∀ P : Guid → Bool, replay dbg u (e.ops P ++ .fin :: pad) l =
      e.ops (fun g => P g || seenB u l g) ++ .fin :: pad := by
  induction l with
  | nil => intro P; simp [replay, seenB]
  | cons ev l ih =>
    intro P
    have : replay dbg u (e.ops P ++ .fin :: pad) (ev :: l) =
      replay dbg u (evolve dbg u (e.ops P ++ .fin :: pad) ev) l := rfl
    rw [this, evolve_ops, ih]
    congr 2
    funext g
    rw [Bool.or_assoc, ← seenB_append]
    rfl

/-- The verdict on an ordinary expression after a history. -/
theorem replay_verdict (dbg : Bool) (u : Nat) (e : Expr) (pad : List UInt8) (l : List Ev) (p : List Guid)
    (v : Bool) (h : (Depex.eval dbg p (replay dbg u (Depex.parse (e.section pad)) l)).1 = .ok v) :
    v = true ↔ e.holds (fun g => Seen l u g ∨ g ∈ p) := by
  rw [Depex.parse_section, replay_ops, Depex.eval_ops] at h
  injection h with h
  subst h
  rw [Depex.Expr.val_iff]
  simp [seenB_iff]

/-! ### The built-in expression -/

/-- "All of these are installed", grouped as the postfix expression groups it. -/
def allOf : Guid → List Guid → Expr
  | g, [] => .installed g
  | g, h :: t => .and (.installed g) (allOf h t)

theorem allOf_holds (P : Guid → Prop) (t : List Guid) : ∀ g, (allOf g t).holds P ↔ P g ∧ ∀ h ∈ t, P h := by
  induction t with
  | nil => intro g; simp [allOf, Depex.Expr.holds]
  | cons h t ih => intro g; simp [allOf, Depex.Expr.holds, ih]

theorem allOf_ops (t : List Guid) : ∀ g, (allOf g t).ops (fun _ => false) =
    (g :: t).map (fun g => .push g false) ++ List.replicate t.length .and := by
  induction t with
  | nil => intro g; rfl
  | cons h t ih =>
    intro g
    simp only [allOf, Depex.Expr.ops, ih, List.map_cons, List.cons_append, List.nil_append, List.append_assoc,
      List.length_cons]
    rw [List.replicate_succ', ]

theorem archNow_eq (dbg : Bool) (p : List Guid) : ∃ b, archNow dbg p = .ok b ∧ (b = true ↔ ∀ g ∈ archGuids, g ∈ p) := by
  obtain ⟨g, t, hg, ht⟩ : ∃ g t, archGuids = g :: t ∧ t.length = 11 := ⟨_, _, rfl, rfl⟩
  have h : allArchDepex = (allOf g t).ops (fun _ => false) ++ .fin :: [] := by
    rw [allOf_ops, allArchDepex, hg, ht]
  refine ⟨_, by rw [archNow, h, Depex.eval_ops], ?_⟩
  rw [Depex.Expr.val_iff, allOf_holds, hg]
  simp

end Verif.Dispatcher
