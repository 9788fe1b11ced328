import Verif.Dispatcher.PlanLemmas
/-!
C34: across any number of dispatch passes, nested or not, a discovered driver is started at most once, only
after its dependency was found true (or with a driver it names), and never against a pending security
violation. All statements are about the log of a whole boot: any environment, any main program, any nesting.
-/
namespace Verif.Dispatcher
open Verif.Depex (Guid Opcode Expr)
variable {W α : Type} {env : Env W} {n : Nat} {main : Code W α} {w : W} {r : Outcome EfiError α} {s : St W}

theorem boot_inv (h : boot env n main w = some (r, s)) : Inv env.dbg [] s :=
  (inv_closed env).boot (inv_init env.dbg w) h

theorem nodup_of_history {l : List Ev} {f : List Ev → List Nat} {g : Ev → Option Nat}
    (h0 : f [] = []) (hf : ∀ l e, f (l ++ [e]) = f l ++ (g e).toList)
    (h : ∀ a e b u, l = a ++ e :: b → g e = some u → u ∉ f a) : (f l).Nodup := by
  have H : ∀ k, ∀ a b, l = a ++ b → a.length = k → (f a).Nodup := by
    intro k
    induction k with
    | zero => intro a b _ ha; rw [List.length_eq_zero_iff.1 ha, h0]; exact List.nodup_nil
    | succ k ih =>
      intro a b hab ha
      rcases List.eq_nil_or_concat a with rfl | ⟨a', e, rfl⟩
      · cases ha
      · have h1 := ih a' (e :: b) (by simp [hab]) (by simpa using ha)
        rw [List.concat_eq_append, hf]
        cases hg : g e with
        | none => simpa using h1
        | some u =>
          have h2 := h a' e b u (by simp [hab]) hg
          rw [List.nodup_append]
          refine ⟨h1, by simp, ?_⟩
          intro x hx y hy e
          simp only [Option.toList_some, List.mem_singleton] at hy
          subst hy e
          exact h2 hx
  exact H _ l [] (by simp) rfl

/-- C34: no driver is started twice. -/
theorem started_once (h : boot env n main w = some (r, s)) : (startedIn s.log).Nodup := by
  have hi := (boot_inv h).1.history
  refine nodup_of_history (g := fun e => match e with | .handled u .started => some u | _ => none) rfl ?_ ?_
  · intro l e
    rw [startedIn_append]
    congr 1
    cases e with
    | handled u v => cases v <;> rfl
    | _ => rfl
  · intro a e b u hl hg
    have := hi a e b hl
    cases e with
    | handled u' v =>
      cases v with
      | started => injection hg with hg; subst hg; exact this.1
      | _ => cases hg
    | _ => cases hg

/-- C34: no driver's image is loaded twice. -/
theorem loaded_once (h : boot env n main w = some (r, s)) : (loadedIn s.log).Nodup := by
  have hi := (boot_inv h).1.history
  refine nodup_of_history (g := fun e => match e with | .loaded u _ => some u | _ => none) rfl ?_ ?_
  · intro l e
    rw [loadedIn_append]
    congr 1
    cases e <;> rfl
  · intro a e b u hl hg
    have := hi a e b hl
    cases e with
    | loaded u' v => injection hg with hg; subst hg; exact this
    | _ => cases hg

/-- No volume is searched twice, so no file is discovered twice. -/
theorem volumes_once (h : boot env n main w = some (r, s)) : (scannedIn s.log).Nodup := by
  have hi := (boot_inv h).1.history
  refine nodup_of_history (g := fun e => match e with | .scanned u => some u | _ => none) rfl ?_ ?_
  · intro l e
    rw [scannedIn_append]
    congr 1
    cases e <;> rfl
  · intro a e b u hl hg
    have := hi a e b hl
    cases e with
    | scanned u' => injection hg with hg; subst hg; exact this
    | _ => cases hg

/-- Every discovered file gets its own number: the numbers in the log name files. -/
theorem found_once (h : boot env n main w = some (r, s)) : (foundIn s.log).Nodup := by
  have hi := (boot_inv h).1.history
  have app : ∀ l l' : List Ev, foundIn (l ++ l') = foundIn l ++ foundIn l' := by
    intro l l'
    induction l with
    | nil => rfl
    | cons e l ih => cases e <;> simp [foundIn, ih]
  refine nodup_of_history (g := fun e => match e with | .found u _ _ _ => some u | _ => none) rfl ?_ ?_
  · intro l e
    rw [app]
    congr 1
    cases e <;> rfl
  · intro a e b u hl hg
    have := hi a e b hl
    cases e with
    | found u' _ _ _ =>
      injection hg with hg; subst hg
      intro hm
      obtain ⟨fv, n, dx, hm⟩ := mem_foundIn.1 hm
      exact this _ hm rfl
    | _ => cases hg

/-- C34: when a driver is started, its image was loaded without objection or trusted after a security
violation, and its dependency had been found true or it names a driver whose dependency had. -/
theorem start_justified (h : boot env n main w = some (r, s)) {a b : List Ev} {u : Nat}
    (hl : s.log = a ++ .handled u .started :: b) : Cleared a u ∧ Eligible a u :=
  ((boot_inv h).1.history a _ b hl).2

/-- A driver still waiting in the dispatcher has not been started. -/
theorem waiting_not_started (h : boot env n main w = some (r, s)) {d : Drv} (hd : d ∈ s.ctx.pending) :
    d.uid ∉ startedIn s.log :=
  ((boot_inv h).1.facts d (by simp [Ctx.known, hd])).fresh

/-- A deferred driver is one whose image drew a security violation. -/
theorem waiting_loaded (h : boot env n main w = some (r, s)) {d : Drv} (hd : d ∈ s.ctx.pending)
    (hi : d.image ≠ none) : Cleared s.log d.uid ∨ .loaded d.uid (some .securityViolation) ∈ s.log := by
  have b := (boot_inv h).1
  have hk : d ∈ s.ctx.known := by simp [Ctx.known, hd]
  have f := b.facts d (by simp [hk])
  rcases b.waiting d hk hi with hs | hs
  · exact .inl (f.cleared hi hs)
  · exact .inr (f.objected _ hi hs)

theorem found_unique {dbg : Bool} {l : List Ev} (h : History dbg l) {u fv fv' : Nat} {nm nm' : Guid}
    {dx dx' : Option (List UInt8)} (h1 : .found u fv nm dx ∈ l) (h2 : .found u fv' nm' dx' ∈ l) :
    fv = fv' ∧ nm = nm' ∧ dx = dx' := by
  obtain ⟨a, b, e⟩ := List.append_of_mem h1
  rw [e] at h2
  simp only [List.mem_append, List.mem_cons] at h2
  rcases h2 with h2 | h2 | h2
  · exact absurd rfl ((h a _ b e) _ h2)
  · injection h2 with _ e2 e3 e4; exact ⟨e2.symm, e3.symm, e4.symm⟩
  · obtain ⟨c, d, e'⟩ := List.append_of_mem h2
    have := h (a ++ .found u fv nm dx :: c) (.found u fv' nm' dx') d (by rw [e, e']; simp)
    exact absurd rfl (this (.found u fv nm dx) (by simp))

/-- C34: what "found true" means for a driver with an ordinary dependency expression: it holds of the
protocols registered at this pass and those seen registered at earlier passes. -/
theorem verdict_expression (h : boot env n main w = some (r, s)) {a b : List Ev} {u fv : Nat} {name : Guid}
    {p : List Guid} {v : Bool} {e : Expr} {pad : List UInt8}
    (hl : s.log = a ++ .judged u p v :: b) (hf : .found u fv name (some (e.section pad)) ∈ s.log) :
    v = true ↔ e.holds (fun g => Seen a u g ∨ g ∈ p) := by
  have hi := (boot_inv h).1.history
  obtain ⟨fv', n', dx, hf', ht⟩ := hi a _ b hl
  obtain ⟨_, _, rfl⟩ := found_unique hi hf (show Ev.found u fv' n' dx ∈ s.log by rw [hl]; simp [hf'])
  exact replay_verdict _ _ _ _ _ _ _ ht

/-- C34: a driver without dependency section is eligible once all twelve architectural protocols were
registered together at the start of some pass so far. -/
theorem verdict_default (h : boot env n main w = some (r, s)) {a b : List Ev} {u fv : Nat} {name : Guid}
    {p : List Guid} {v : Bool} (hl : s.log = a ++ .judged u p v :: b) (hf : .found u fv name none ∈ s.log) :
    v = true ↔ ArchSeen a := by
  have hi := (boot_inv h).1.history
  obtain ⟨fv', n', dx, hf', ht⟩ := hi a _ b hl
  obtain ⟨_, _, rfl⟩ := found_unique hi hf (show Ev.found u fv' n' dx ∈ s.log by rw [hl]; simp [hf'])
  exact ht

theorem replay_sor (dbg : Bool) (u : Nat) (e : Expr) (pad : List UInt8) (l : List Ev) :
    (.requested u ∉ l ∧ replay dbg u (Depex.parse (0x09 :: e.section pad)) l = Depex.parse (0x09 :: e.section pad)) ∨
    ∃ x y, l = x ++ .requested u :: y ∧ .requested u ∉ x ∧
      replay dbg u (Depex.parse (0x09 :: e.section pad)) l = replay dbg u (Depex.parse (e.section pad)) y := by
  have hp : Depex.parse (0x09 :: e.section pad) = .sor :: Depex.parse (e.section pad) :=
    Depex.parse_one (op := .sor) (fun _ => by simp [Depex.Opcode.ofBytes]) rfl _
  rw [hp]
  induction l with
  | nil => exact .inl ⟨by simp, rfl⟩
  | cons ev l ih =>
    have step : replay dbg u (.sor :: Depex.parse (e.section pad)) (ev :: l) =
        replay dbg u (evolve dbg u (.sor :: Depex.parse (e.section pad)) ev) l := rfl
    by_cases hr : ev = .requested u
    · subst hr
      exact .inr ⟨[], l, rfl, by simp, by rw [step]; simp [evolve, Depex.schedule, Depex.isSor]⟩
    · have keep : evolve dbg u (.sor :: Depex.parse (e.section pad)) ev = .sor :: Depex.parse (e.section pad) := by
        cases ev with
        | judged v p b =>
          simp only [evolve]
          split
          · simp [Depex.eval, Depex.evalLoop]
          · rfl
        | requested v =>
          have : v ≠ u := fun h => hr (by rw [h])
          simp [evolve, this]
        | _ => rfl
      rw [step, keep]
      rcases ih with ⟨h1, h2⟩ | ⟨x, y, e1, e2, e3⟩
      · refine .inl ⟨?_, h2⟩
        simp only [List.mem_cons, not_or]
        exact ⟨fun h => hr h.symm, h1⟩
      · refine .inr ⟨ev :: x, y, by rw [e1]; rfl, ?_, e3⟩
        simp only [List.mem_cons, not_or]
        exact ⟨fun h => hr h.symm, e2⟩

/-- C34: a driver that begins its dependency with SOR is not eligible before it is requested by
`core_schedule`; afterwards the rest of the expression counts, with the protocols seen since. -/
theorem verdict_sor (h : boot env n main w = some (r, s)) {a b : List Ev} {u fv : Nat} {name : Guid}
    {p : List Guid} {v : Bool} {e : Expr} {pad : List UInt8}
    (hl : s.log = a ++ .judged u p v :: b) (hf : .found u fv name (some (0x09 :: e.section pad)) ∈ s.log) :
    v = true ↔ ∃ x y, a = x ++ .requested u :: y ∧ .requested u ∉ x ∧ e.holds (fun g => Seen y u g ∨ g ∈ p) := by
  have hi := (boot_inv h).1.history
  obtain ⟨fv', n', dx, hf', ht⟩ := hi a _ b hl
  obtain ⟨_, _, rfl⟩ := found_unique hi hf (show Ev.found u fv' n' dx ∈ s.log by rw [hl]; simp [hf'])
  rcases replay_sor env.dbg u e pad a with ⟨h1, h2⟩ | ⟨x, y, e1, e2, e3⟩
  · simp only [Truth, h2, (Depex.sor_schedule e pad p env.dbg).1] at ht
    injection ht with ht
    subst ht
    simp only [Bool.false_eq_true, false_iff]
    rintro ⟨x, y, rfl, -⟩
    exact h1 (by simp)
  · simp only [Truth, e3] at ht
    rw [replay_verdict _ _ _ _ _ _ _ ht]
    constructor
    · intro hh; exact ⟨x, y, e1, e2, hh⟩
    · rintro ⟨x', y', e1', e2', hh⟩
      have : y = y' := by
        have := e1.symm.trans e1'
        exact split_unique this e2 e2'
      subst this
      exact hh
where
  split_unique {c : Ev} : ∀ {x x' : List Ev} {y y' : List Ev}, x ++ c :: y = x' ++ c :: y' → c ∉ x → c ∉ x' → y = y'
    | [], [], _, _, h, _, _ => by injection h
    | [], _ :: _, _, _, h, _, h2 => by injection h with h _; subst h; simp at h2
    | _ :: _, [], _, _, h, h1, _ => by injection h with h _; subst h; simp at h1
    | _ :: _, _ :: _, _, _, h, h1, h2 => by
      injection h with _ h
      simp only [List.mem_cons, not_or] at h1 h2
      exact split_unique h h1.2 h2.2

/-- C34: a BEFORE or AFTER dependency is never found true by itself. -/
theorem verdict_association (h : boot env n main w = some (r, s)) {a b : List Ev} {u fv : Nat} {name g : Guid}
    {p : List Guid} {v : Bool} {op : UInt8} {rest : List UInt8} (hop : op = 0x00 ∨ op = 0x01)
    (hl : s.log = a ++ .judged u p v :: b) (hf : .found u fv name (some (op :: (g.bytes ++ rest))) ∈ s.log) :
    v = false := by
  have hi := (boot_inv h).1.history
  obtain ⟨fv', n', dx, hf', ht⟩ := hi a _ b hl
  obtain ⟨_, _, rfl⟩ := found_unique hi hf (show Ev.found u fv' n' dx ∈ s.log by rw [hl]; simp [hf'])
  have keep : ∀ (o : Opcode), (o = .before g ∨ o = .after g) → ∀ (t : List Opcode) (l : List Ev),
      replay env.dbg u (o :: t) l = o :: t := by
    intro o ho t l
    induction l with
    | nil => rfl
    | cons ev l ih =>
      have step : replay env.dbg u (o :: t) (ev :: l) = replay env.dbg u (evolve env.dbg u (o :: t) ev) l := rfl
      have : evolve env.dbg u (o :: t) ev = o :: t := by
        cases ev with
        | judged v p b =>
          simp only [evolve]
          split
          · rcases ho with rfl | rfl <;> simp only [Depex.eval, Depex.evalLoop] <;> split <;> rfl
          · rfl
        | requested v =>
          simp only [evolve]
          split
          · rcases ho with rfl | rfl <;> rfl
          · rfl
        | _ => rfl
      rw [step, this, ih]
  have key : ∀ (o : Opcode), (o = .before g ∨ o = .after g) → ∀ t : List Opcode,
      (Depex.eval env.dbg p (o :: t)).1 = .ok v → v = false := by
    intro o ho t h
    rcases ho with rfl | rfl
    all_goals
      simp only [Depex.eval, Depex.evalLoop] at h
      split at h
      · cases h
      · injection h with h; exact h.symm
  rcases hop with rfl | rfl
  · simp only [Truth, Depex.parse_before, keep _ (.inl rfl)] at ht
    exact key _ (.inl rfl) _ ht
  · simp only [Truth, Depex.parse_after, keep _ (.inr rfl)] at ht
    exact key _ (.inr rfl) _ ht

end Verif.Dispatcher
