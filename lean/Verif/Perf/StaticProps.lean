import Verif.Perf.Static
/-!
What threads see of the static state.
-/
namespace Verif.Perf.Static

theorem run_append (s : State) (a b : List Nat) : run s (a ++ b) = run (run s a) b := by
  induction a generalizing s with
  | nil => rfl
  | cons i a ih => exact ih _

/-- In the middle of `init`, with the flag taken. -/
def Inside : Pc → Prop
  | .setServices _ | .setTable _ | .release => True
  | _ => False

/-- Has set the services, or returned `Ok`. -/
def Won : Pc → Prop
  | .setTable _ | .release | .done .ok => True
  | _ => False

/-- What a call knows of the cells. -/
def Knows (c : Cells) : Pc → Prop
  | .setServices _ => c.flag = true
  | .setTable b => c.flag = true ∧ c.services = some b ∧ c.table = none
  | .release => c.flag = true ∧ c.services.isSome ∧ c.table = c.services
  | .readTable b => c.services = some b
  | .done .ok => c.services.isSome ∧ c.table = c.services
  | .done (.both b t) => c.services = some b ∧ c.table = some t
  | .done .already => c.services.isSome
  | .done .failed => False
  | _ => True

structure Inv (s : State) : Prop where
  knows : ∀ i, Knows s.cells (s.pc i)
  inside : ∀ i j, Inside (s.pc i) → Inside (s.pc j) → i = j
  won : ∀ i j, Won (s.pc i) → Won (s.pc j) → i = j
  cells : s.cells.table = none ∨ s.cells.table = s.cells.services
  half : s.cells.services.isSome → s.cells.table = none → ∃ i b, s.pc i = .setTable b
  idle : s.cells.flag = false → ∀ i, ¬ Inside (s.pc i)

/-- The cells only fill up. -/
structure Grows (a b : Cells) : Prop where
  services : ∀ x, a.services = some x → b.services = some x
  table : ∀ x, a.table = some x → b.table = some x

theorem advance_grows (c : Cells) (p : Pc) : Grows c (advance c p).1 := by
  obtain ⟨f, s, t⟩ := c
  cases p
  case release => exact ⟨fun _ h => h, fun _ h => h⟩
  case done => exact ⟨fun _ h => h, fun _ h => h⟩
  · cases f <;> exact ⟨fun _ h => h, fun _ h => h⟩
  · cases s
    · exact ⟨fun _ h => (by cases h), fun _ h => h⟩
    · exact ⟨fun _ h => h, fun _ h => h⟩
  · cases t
    · exact ⟨fun _ h => h, fun _ h => by cases h⟩
    · exact ⟨fun _ h => h, fun _ h => h⟩
  · cases f <;> exact ⟨fun _ h => h, fun _ h => h⟩
  · cases s <;> exact ⟨fun _ h => h, fun _ h => h⟩
  · cases t <;> exact ⟨fun _ h => h, fun _ h => h⟩

theorem run_grows (s : State) (is : List Nat) : Grows s.cells (run s is).cells := by
  induction is generalizing s with
  | nil => exact ⟨fun _ h => h, fun _ h => h⟩
  | cons i is ih =>
    have h1 := advance_grows s.cells (s.pc i)
    have h2 := ih (step s i)
    exact ⟨fun x h => h2.services x (h1.services x h), fun x h => h2.table x (h1.table x h)⟩

theorem start_inv (jobs : Nat → Job) : Inv (start jobs) := by
  have hp : ∀ i, (start jobs).pc i = (jobs i).pc := fun _ => rfl
  refine ⟨fun i => ?_, fun i j h => ?_, fun i j h => ?_, Or.inl rfl, fun h => (by cases h), fun _ i h => ?_⟩
  all_goals rw [hp] at *
  all_goals cases hj : jobs i <;> simp [hj, Job.pc, Knows, Inside, Won] at *

theorem knows_self {c : Cells} {p : Pc} (h : Knows c p) (hc : c.table = none ∨ c.table = c.services) : Knows (advance c p).1 (advance c p).2 := by
  obtain ⟨f, sv, tb⟩ := c
  cases p with
  | done r => exact h
  | exchange b => cases f <;> simp [advance, Knows]
  | setServices b => cases sv <;> simp_all [advance, Knows]
  | setTable b =>
    obtain ⟨h1, h2, h3⟩ := h
    dsimp only at h1 h2 h3
    subst h1 h2 h3
    exact ⟨rfl, rfl, rfl⟩
  | release => simp_all [advance, Knows]
  | load => cases f <;> simp [advance, Knows]
  | readServices => cases sv <;> simp [advance, Knows]
  | readTable b => cases tb <;> simp_all [advance, Knows]

theorem knows_other {c : Cells} {p q : Pc} (hp : Knows c p) (hq : Knows c q) (hpq : ¬ (Inside p ∧ Inside q)) : Knows (advance c p).1 q := by
  have hg := advance_grows c p
  have hflag : Inside q → (advance c p).1.flag = true ∧ (advance c p).1.services = c.services ∧ (advance c p).1.table = c.table := by
    intro hi
    have hf : c.flag = true := by cases q <;> simp_all [Inside, Knows]
    have hn : ¬ Inside p := fun h => hpq ⟨h, hi⟩
    obtain ⟨f, sv, tb⟩ := c
    dsimp only at hf
    subst hf
    cases p with
    | setServices | setTable | release => exact absurd trivial hn
    | readServices => cases sv <;> exact ⟨rfl, rfl, rfl⟩
    | readTable => cases tb <;> exact ⟨rfl, rfl, rfl⟩
    | _ => exact ⟨rfl, rfl, rfl⟩
  have hsome : ∀ {o : Option Nat}, o.isSome → ∃ x, o = some x := fun h => Option.isSome_iff_exists.1 h
  cases q with
  | exchange | load | readServices => trivial
  | setServices b => exact (hflag trivial).1
  | setTable b =>
    obtain ⟨h1, h2, h3⟩ := hflag trivial
    exact ⟨h1, by rw [h2]; exact hq.2.1, by rw [h3]; exact hq.2.2⟩
  | release =>
    obtain ⟨h1, h2, h3⟩ := hflag trivial
    exact ⟨h1, by rw [h2]; exact hq.2.1, by rw [h2, h3]; exact hq.2.2⟩
  | readTable b => exact hg.services b hq
  | done r =>
    cases r with
    | ok =>
      obtain ⟨h1, h2⟩ := hq
      obtain ⟨x, hx⟩ := hsome h1
      rw [hx] at h2
      exact ⟨by rw [hg.services x hx]; rfl, by rw [hg.services x hx, hg.table x h2]⟩
    | both b t => exact ⟨hg.services b hq.1, hg.table t hq.2⟩
    | already =>
      obtain ⟨x, hx⟩ := hsome hq
      show (advance c p).1.services.isSome = true
      rw [hg.services x hx]; rfl
    | failed => exact hq.elim
    | busy | nothing => trivial

theorem advance_inside {c : Cells} {p : Pc} (h : Inside (advance c p).2) : Inside p ∨ c.flag = false := by
  obtain ⟨f, sv, tb⟩ := c
  cases p with
  | exchange => cases f <;> simp_all [advance, Inside]
  | load => cases f <;> simp_all [advance, Inside]
  | setServices | setTable | release => exact Or.inl trivial
  | readServices => cases sv <;> exact h.elim
  | readTable => cases tb <;> exact h.elim
  | done => exact h.elim

theorem advance_won {c : Cells} {p : Pc} (h : Won (advance c p).2) : Won p ∨ c.services = none := by
  obtain ⟨f, sv, tb⟩ := c
  cases p with
  | exchange | load => cases f <;> exact h.elim
  | setServices => cases sv <;> simp_all [advance, Won]
  | setTable | release => exact Or.inl trivial
  | readServices => cases sv <;> exact h.elim
  | readTable => cases tb <;> exact h.elim
  | done => exact Or.inl h

theorem won_services {c : Cells} {p : Pc} (hk : Knows c p) (h : Won p) : c.services ≠ none := by
  intro hn
  cases p with
  | setTable => rw [hk.2.1] at hn; cases hn
  | release => have := hk.2.1; rw [hn] at this; cases this
  | done r =>
    cases r with
    | ok => have := hk.1; rw [hn] at this; cases this
    | _ => exact h.elim
  | _ => exact h.elim

theorem step_inv {s : State} (h : Inv s) (i : Nat) : Inv (step s i) := by
  have hpc : ∀ j, (step s i).pc j = if j = i then (advance s.cells (s.pc i)).2 else s.pc j := fun _ => rfl
  have hcells : (step s i).cells = (advance s.cells (s.pc i)).1 := rfl
  have hki := h.knows i
  have hoth : ∀ j, j ≠ i → ¬ (Inside (s.pc i) ∧ Inside (s.pc j)) := fun j hj hh => hj (h.inside j i hh.2 hh.1)
  refine ⟨fun j => ?_, fun j k hj hk => ?_, fun j k hj hk => ?_, ?_, ?_, ?_⟩
  · rw [hpc, hcells]
    by_cases hj : j = i
    · rw [if_pos hj]; exact knows_self hki h.cells
    · rw [if_neg hj]; exact knows_other hki (h.knows j) (hoth j hj)
  · rw [hpc] at hj hk
    by_cases e1 : j = i <;> by_cases e2 : k = i
    · rw [e1, e2]
    · rw [if_pos e1] at hj; rw [if_neg e2] at hk
      rcases advance_inside hj with hj | hf
      · exact absurd ⟨hj, hk⟩ (hoth k e2)
      · exact absurd hk (h.idle hf k)
    · rw [if_neg e1] at hj; rw [if_pos e2] at hk
      rcases advance_inside hk with hk | hf
      · exact absurd ⟨hk, hj⟩ (hoth j e1)
      · exact absurd hj (h.idle hf j)
    · rw [if_neg e1] at hj; rw [if_neg e2] at hk; exact h.inside j k hj hk
  · rw [hpc] at hj hk
    by_cases e1 : j = i <;> by_cases e2 : k = i
    · rw [e1, e2]
    · rw [if_pos e1] at hj; rw [if_neg e2] at hk
      rcases advance_won hj with hj | hf
      · rw [e1]; exact h.won i k hj hk
      · exact absurd hf (won_services (h.knows k) hk)
    · rw [if_neg e1] at hj; rw [if_pos e2] at hk
      rcases advance_won hk with hk | hf
      · rw [e2]; exact h.won j i hj hk
      · exact absurd hf (won_services (h.knows j) hj)
    · rw [if_neg e1] at hj; rw [if_neg e2] at hk; exact h.won j k hj hk
  · rw [hcells]
    have hc := h.cells
    obtain ⟨⟨f, sv, tb⟩, pc⟩ := s
    dsimp only at hc hki ⊢
    cases hp : pc i with
    | exchange | load => cases f <;> exact hc
    | setServices b =>
      cases sv with
      | some x => exact hc
      | none => rcases hc with hc | hc <;> exact Or.inl hc
    | setTable b =>
      rw [hp] at hki
      obtain ⟨-, h2, h3⟩ := hki
      dsimp only at h2 h3
      subst h2 h3
      exact Or.inr rfl
    | release => exact hc
    | readServices => cases sv <;> exact hc
    | readTable => cases tb <;> exact hc
    | done => exact hc
  · rw [hcells]
    intro h1 h2
    have hold : s.cells.services.isSome → s.cells.table = none → (∀ b, s.pc i ≠ .setTable b) → ∃ j b, (step s i).pc j = .setTable b := by
      intro a b c
      obtain ⟨j, x, hj⟩ := h.half a b
      refine ⟨j, x, ?_⟩
      rw [hpc, if_neg (fun e => c x (by rw [← e]; exact hj))]
      exact hj
    obtain ⟨⟨f, sv, tb⟩, pc⟩ := s
    dsimp only at h1 h2 hold hki
    cases hp : pc i with
    | exchange b => rw [hp] at h1 h2; cases f <;> exact hold h1 h2 (fun b => by rw [hp]; simp)
    | load => rw [hp] at h1 h2; cases f <;> exact hold h1 h2 (fun b => by rw [hp]; simp)
    | setServices b =>
      rw [hp] at h1 h2
      cases sv with
      | some x => exact hold h1 h2 (fun b => by rw [hp]; simp)
      | none => exact ⟨i, b, by rw [hpc, if_pos rfl]; dsimp only; rw [hp]; rfl⟩
    | setTable b =>
      rw [hp] at hki h2
      obtain ⟨-, h3, h4⟩ := hki
      dsimp only at h3 h4
      subst h3 h4
      cases h2
    | release => rw [hp] at h1 h2; exact hold h1 h2 (fun b => by rw [hp]; simp)
    | readServices => rw [hp] at h1 h2; cases sv <;> exact hold h1 h2 (fun b => by rw [hp]; simp)
    | readTable => rw [hp] at h1 h2; cases tb <;> exact hold h1 h2 (fun b => by rw [hp]; simp)
    | done => rw [hp] at h1 h2; exact hold h1 h2 (fun b => by rw [hp]; simp)
  · rw [hcells]
    intro hf j hj
    rw [hpc] at hj
    have hreset : (∀ k, Inside (s.pc k) → k = i) ∧ ¬ Inside (advance s.cells (s.pc i)).2 := by
      have hid := h.idle
      have hins := h.inside
      obtain ⟨⟨f, sv, tb⟩, pc⟩ := s
      dsimp only at hf hid hki hins ⊢
      cases f with
      | false =>
        refine ⟨fun k hk => absurd hk (hid rfl k), fun hi => ?_⟩
        cases hp : pc i with
        | exchange b => rw [hp] at hf; cases hf
        | setServices | setTable | release => exact hid rfl i (by rw [hp]; trivial)
        | load => rw [hp] at hi; exact hi
        | readServices => rw [hp] at hi; cases sv <;> exact hi
        | readTable => rw [hp] at hi; cases tb <;> exact hi
        | done => rw [hp] at hi; exact hi
      | true =>
        cases hp : pc i with
        | release => exact ⟨fun k hk => hins k i hk (by rw [hp]; trivial), fun hi => hi⟩
        | exchange b => rw [hp] at hf; cases hf
        | setServices b => rw [hp] at hf; cases sv <;> cases hf
        | setTable b => rw [hp] at hf; cases tb <;> cases hf
        | load => rw [hp] at hf; cases hf
        | readServices => rw [hp] at hf; cases sv <;> cases hf
        | readTable => rw [hp] at hf; cases tb <;> cases hf
        | done => rw [hp] at hf; cases hf
    by_cases e : j = i
    · rw [if_pos e] at hj; exact hreset.2 hj
    · rw [if_neg e] at hj; exact e (hreset.1 j hj)

theorem run_inv {s : State} (h : Inv s) (is : List Nat) : Inv (run s is) := by
  induction is generalizing s with
  | nil => exact h
  | cons i is ih => exact ih (step_inv h i)

/-- Whatever the threads do, at most one `init` returns `Ok`. -/
theorem one_init_ok (jobs : Nat → Job) (is : List Nat) (i j : Nat) (hi : (run (start jobs) is).pc i = .done .ok) (hj : (run (start jobs) is).pc j = .done .ok) : i = j :=
  (run_inv (start_inv jobs) is).won i j (by rw [hi]; trivial) (by rw [hj]; trivial)

/-- The services that are set are those that some `init` was given. -/
theorem services_given (jobs : Nat → Job) (is : List Nat) (b : Nat) (h : (run (start jobs) is).cells.services = some b) : ∃ i, jobs i = .init b := by
  have key : ∀ (is : List Nat) (s : State), (∀ i c, s.pc i = .exchange c ∨ s.pc i = .setServices c → jobs i = .init c) → (∀ c, s.cells.services = some c → ∃ i, jobs i = .init c) →
      ∀ c, (run s is).cells.services = some c → ∃ i, jobs i = .init c := by
    intro is
    induction is with
    | nil => exact fun s _ h2 => h2
    | cons i is ih =>
      intro s h1 h2
      refine ih (step s i) (fun j c hj => ?_) (fun c hc => ?_)
      · have hpc : (step s i).pc j = if j = i then (advance s.cells (s.pc i)).2 else s.pc j := rfl
        rw [hpc] at hj
        by_cases e : j = i
        · rw [if_pos e] at hj
          subst e
          obtain ⟨⟨f, sv, tb⟩, pc⟩ := s
          dsimp only at hj
          cases hp : pc j with
          | exchange b =>
            rw [hp] at hj
            have := h1 j b (Or.inl hp)
            cases f <;> simp [advance] at hj
            subst hj
            exact this
          | setServices b => rw [hp] at hj; cases sv <;> simp [advance] at hj
          | setTable b => rw [hp] at hj; cases tb <;> simp [advance] at hj
          | release => rw [hp] at hj; simp [advance] at hj
          | load => rw [hp] at hj; cases f <;> simp [advance] at hj
          | readServices => rw [hp] at hj; cases sv <;> simp [advance] at hj
          | readTable b => rw [hp] at hj; cases tb <;> simp [advance] at hj
          | done => rw [hp] at hj; simp [advance] at hj
        · rw [if_neg e] at hj; exact h1 j c hj
      · have hcells : (step s i).cells = (advance s.cells (s.pc i)).1 := rfl
        rw [hcells] at hc
        obtain ⟨⟨f, sv, tb⟩, pc⟩ := s
        dsimp only at hc h2
        cases hp : pc i with
        | exchange b => rw [hp] at hc; cases f <;> exact h2 c hc
        | setServices b =>
          rw [hp] at hc
          cases sv with
          | some x => exact h2 c hc
          | none =>
            have : some b = some c := hc
            cases this
            exact ⟨i, h1 i c (Or.inr hp)⟩
        | setTable b => rw [hp] at hc; cases tb <;> exact h2 c hc
        | release => rw [hp] at hc; exact h2 c hc
        | load => rw [hp] at hc; cases f <;> exact h2 c hc
        | readServices => rw [hp] at hc; cases sv <;> exact h2 c hc
        | readTable b => rw [hp] at hc; cases tb <;> exact h2 c hc
        | done => rw [hp] at hc; exact h2 c hc
  refine key is (start jobs) (fun i c hc => ?_) (fun c hc => by cases hc) b h
  have hp : (start jobs).pc i = (jobs i).pc := rfl
  rw [hp] at hc
  cases hj : jobs i with
  | init x =>
    rw [hj] at hc
    simp [Job.pc] at hc
    rw [hc]
  | inner => rw [hj] at hc; simp [Job.pc] at hc

/-- Whoever gets the state gets the same services and table as everybody else, those of an `init` call; and the table's mutex uses these services. -/
theorem inner_agrees (jobs : Nat → Job) (is : List Nat) (i : Nat) (b t : Nat) (h : (run (start jobs) is).pc i = .done (.both b t)) :
    t = b ∧ (∃ k, jobs k = .init b) ∧ ∀ js j b' t', (run (start jobs) (is ++ js)).pc j = .done (.both b' t') → b' = b ∧ t' = b := by
  have hinv := run_inv (start_inv jobs) is
  have hk := hinv.knows i
  rw [h] at hk
  obtain ⟨h1, h2⟩ := hk
  have htb : t = b := by
    rcases hinv.cells with hc | hc
    · rw [h2] at hc; cases hc
    · rw [h1, h2] at hc; cases hc; rfl
  refine ⟨htb, services_given jobs is b h1, fun js j b' t' hj => ?_⟩
  have hk := (run_inv (start_inv jobs) (is ++ js)).knows j
  rw [hj] at hk
  rw [run_append] at hk
  obtain ⟨h3, h4⟩ := hk
  have hg := run_grows (run (start jobs) is) js
  rw [hg.services b h1] at h3
  rw [hg.table t h2] at h4
  cases h3
  cases h4
  exact ⟨rfl, htb⟩

/-- After `init` returned `Ok`, and as long as nobody calls it again, every call of `inner` returns the state. -/
theorem visible_after_init (jobs : Nat → Job) (is js : List Nat) (i k : Nat) (hi : (run (start jobs) is).pc i = .done .ok) (honly : ∀ j, j ≠ i → jobs j = .inner)
    (hk : (run (start jobs) is).pc k = .load) (r : Ret) (hr : (run (start jobs) (is ++ js)).pc k = .done r) :
    ∃ b, jobs i = .init b ∧ r = .both b b := by
  have hinv := run_inv (start_inv jobs) is
  have hki := hinv.knows i
  rw [hi] at hki
  obtain ⟨h1, h2⟩ := hki
  obtain ⟨b, hb⟩ := Option.isSome_iff_exists.1 h1
  rw [hb] at h2
  obtain ⟨i', hi'⟩ := services_given jobs is b hb
  have : i' = i := by
    by_cases e : i' = i
    · exact e
    · rw [honly i' e] at hi'; cases hi'
  subst this
  refine ⟨b, hi', ?_⟩
  -- nobody else is inside
  have hout : ∀ (l : List Nat) (j : Nat), j ≠ i' → ((run (start jobs) l).pc j = .load ∨ (run (start jobs) l).pc j = .readServices ∨ (∃ c, (run (start jobs) l).pc j = .readTable c) ∨ ∃ r, (run (start jobs) l).pc j = .done r) := by
    intro l
    have key : ∀ (l : List Nat) (s : State), (∀ j, j ≠ i' → (s.pc j = .load ∨ s.pc j = .readServices ∨ (∃ c, s.pc j = .readTable c) ∨ ∃ r, s.pc j = .done r)) →
        ∀ j, j ≠ i' → ((run s l).pc j = .load ∨ (run s l).pc j = .readServices ∨ (∃ c, (run s l).pc j = .readTable c) ∨ ∃ r, (run s l).pc j = .done r) := by
      intro l
      induction l with
      | nil => exact fun s h => h
      | cons x l ih =>
        intro s h
        refine ih _ (fun j hj => ?_)
        have hpc : (step s x).pc j = if j = x then (advance s.cells (s.pc x)).2 else s.pc j := rfl
        rw [hpc]
        by_cases e : j = x
        · rw [if_pos e, ← e]
          rcases h j hj with h | h | ⟨c, h⟩ | ⟨r, h⟩ <;> rw [h]
          · unfold advance; dsimp only; split <;> simp
          · unfold advance; dsimp only; split <;> simp
          · unfold advance; dsimp only; split <;> simp
          · simp [advance]
        · rw [if_neg e]; exact h j hj
    exact key l (start jobs) (fun j hj => Or.inl (by show (jobs j).pc = _; rw [honly j hj]; rfl))
  have hflag : (run (start jobs) is).cells.flag = false := by
    have key : ∀ (l : List Nat) (s : State), (∀ j, j ≠ i' → ((s.pc j = .load ∨ s.pc j = .readServices ∨ (∃ c, s.pc j = .readTable c) ∨ ∃ r, s.pc j = .done r))) →
        ((s.cells.flag = true → Inside (s.pc i') ∨ s.pc i' = .done .already ∨ s.pc i' = .done .failed)) →
        ((run s l).cells.flag = true → Inside ((run s l).pc i') ∨ (run s l).pc i' = .done .already ∨ (run s l).pc i' = .done .failed) := by
      intro l
      induction l with
      | nil => exact fun s _ h => h
      | cons x l ih =>
        intro s ho h
        refine ih _ (fun j hj => ?_) (fun hf => ?_)
        · have hpc : (step s x).pc j = if j = x then (advance s.cells (s.pc x)).2 else s.pc j := rfl
          rw [hpc]
          by_cases e : j = x
          · rw [if_pos e, ← e]
            rcases ho j hj with h | h | ⟨c, h⟩ | ⟨r, h⟩ <;> rw [h]
            · unfold advance; dsimp only; split <;> simp
            · unfold advance; dsimp only; split <;> simp
            · unfold advance; dsimp only; split <;> simp
            · simp [advance]
          · rw [if_neg e]; exact ho j hj
        · have hpc : (step s x).pc i' = if i' = x then (advance s.cells (s.pc x)).2 else s.pc i' := rfl
          have hcl : (step s x).cells = (advance s.cells (s.pc x)).1 := rfl
          rw [hcl] at hf
          rw [hpc]
          by_cases e : i' = x
          · subst e
            rw [if_pos rfl]
            obtain ⟨⟨f, sv, tb⟩, pc⟩ := s
            dsimp only at h hf ⊢
            cases hp : pc i' with
            | exchange c =>
              rw [hp] at h hf
              cases f with
              | true => rcases h rfl with h | h | h <;> cases h
              | false => exact Or.inl trivial
            | setServices c => cases sv <;> simp [advance, Inside]
            | setTable c => cases tb <;> simp [advance, Inside]
            | release => rw [hp] at hf; cases hf
            | load =>
              rw [hp] at h hf
              cases f with
              | true => rcases h rfl with h | h | h <;> cases h
              | false => cases hf
            | readServices =>
              rw [hp] at h hf
              cases f with
              | true => rcases h rfl with h | h | h <;> cases h
              | false => cases sv <;> cases hf
            | readTable c =>
              rw [hp] at h hf
              cases f with
              | true => rcases h rfl with h | h | h <;> cases h
              | false => cases tb <;> cases hf
            | done r => rw [hp] at h hf; exact h hf
          · rw [if_neg e]
            apply h
            rcases ho x (fun ee => e ee.symm) with hx | hx | ⟨c, hx⟩ | ⟨r, hx⟩ <;> rw [hx] at hf
            · unfold advance at hf; dsimp only at hf; split at hf <;> exact hf
            · unfold advance at hf; dsimp only at hf; split at hf <;> exact hf
            · unfold advance at hf; dsimp only at hf; split at hf <;> exact hf
            · exact hf
    cases hf : (run (start jobs) is).cells.flag with
    | false => rfl
    | true =>
      have := key is (start jobs) (fun j hj => Or.inl (by show (jobs j).pc = _; rw [honly j hj]; rfl)) (fun h => by cases h) hf
      rw [hi] at this
      rcases this with h | h | h <;> cases h
  -- from here on the cells do not change and thread `k` finds them
  have key : ∀ (l : List Nat) (s : State), s.cells = ⟨false, some b, some b⟩ → s.pc i' = .done .ok →
      (∀ j, j ≠ i' → (s.pc j = .load ∨ s.pc j = .readServices ∨ (∃ c, s.pc j = .readTable c) ∨ ∃ r, s.pc j = .done r)) →
      (s.pc k = .load ∨ s.pc k = .readServices ∨ s.pc k = .readTable b ∨ s.pc k = .done (.both b b)) →
      ((run s l).pc k = .load ∨ (run s l).pc k = .readServices ∨ (run s l).pc k = .readTable b ∨ (run s l).pc k = .done (.both b b)) := by
    intro l
    induction l with
    | nil => exact fun s _ _ _ h => h
    | cons x l ih =>
      intro s hc hd ho hks
      have hpc : ∀ j, (step s x).pc j = if j = x then (advance s.cells (s.pc x)).2 else s.pc j := fun _ => rfl
      refine ih _ ?_ ?_ (fun j hj => ?_) ?_
      · show (advance s.cells (s.pc x)).1 = _
        by_cases e : x = i'
        · rw [e, hd, hc]; rfl
        · rcases ho x e with h | h | ⟨c, h⟩ | ⟨r, h⟩ <;> rw [h, hc] <;> rfl
      · rw [hpc]
        by_cases e : i' = x
        · rw [if_pos e, ← e, hd]; rfl
        · rw [if_neg e]; exact hd
      · rw [hpc]
        by_cases e : j = x
        · rw [if_pos e, ← e]
          rcases ho j hj with h | h | ⟨c, h⟩ | ⟨r, h⟩ <;> rw [h]
          · unfold advance; dsimp only; split <;> simp
          · unfold advance; dsimp only; split <;> simp
          · unfold advance; dsimp only; split <;> simp
          · simp [advance]
        · rw [if_neg e]; exact ho j hj
      · rw [hpc]
        by_cases e : k = x
        · rw [if_pos e, ← e, hc]
          rcases hks with h | h | h | h <;> rw [h] <;> simp [advance]
        · rw [if_neg e]; exact hks
  have hc : (run (start jobs) is).cells = ⟨false, some b, some b⟩ := by
    rcases hx : (run (start jobs) is).cells with ⟨f, sv, tb⟩
    rw [hx] at hflag hb h2
    dsimp only at hflag hb h2
    rw [hflag, hb, h2]
  have hfin := key js (run (start jobs) is) hc hi (hout is) (Or.inl hk)
  rw [← run_append, hr] at hfin
  simpa using hfin

example : (run (start fun i => if i = 0 then .init 7 else .inner) [1, 0, 0, 0, 0]).pc 0 = .done .ok ∧ (run (start fun i => if i = 0 then .init 7 else .inner) [1, 0, 0, 0, 0]).pc 2 = .load ∧
    (run (start fun i => if i = 0 then .init 7 else .inner) ([1, 0, 0, 0, 0] ++ [2, 2, 2])).pc 2 = .done (.both 7 7) := by decide

/-- A call alone is what the steps of its thread give. -/
theorem alone_is (s : State) (i : Nat) (j : Job) (h : s.pc i = j.pc) : (run s [i, i, i, i]).cells = (alone s.cells j).1 ∧ (run s [i, i, i, i]).pc i = (alone s.cells j).2 := by
  have hs : ∀ s : State, (step s i).cells = (advance s.cells (s.pc i)).1 ∧ (step s i).pc i = (advance s.cells (s.pc i)).2 := fun s => ⟨rfl, if_pos rfl⟩
  unfold alone
  rw [← h]
  show (step (step (step (step s i) i) i) i).cells = _ ∧ _
  have h1 := hs s
  have h2 := hs (step s i)
  have h3 := hs (step (step s i) i)
  have h4 := hs (step (step (step s i) i) i)
  rw [h1.1, h1.2] at h2
  rw [h2.1, h2.2] at h3
  rw [h3.1, h3.2] at h4
  exact h4

/-! ### Findings -/

/-- The flag is set and no `init` is under way that could reset it. -/
structure Stuck (s : State) : Prop where
  flag : s.cells.flag = true
  full : s.cells.services.isSome
  nobody : ∀ i, ¬ Inside (s.pc i)

theorem stuck_step {s : State} (h : Stuck s) (i : Nat) : Stuck (step s i) := by
  have hpc : ∀ j, (step s i).pc j = if j = i then (advance s.cells (s.pc i)).2 else s.pc j := fun _ => rfl
  obtain ⟨h1, h2, h3⟩ := h
  have hsame : (advance s.cells (s.pc i)).1 = s.cells := by
    obtain ⟨⟨f, sv, tb⟩, pc⟩ := s
    dsimp only at h1 h3 ⊢
    subst h1
    cases hp : pc i with
    | setServices | setTable | release => exact absurd (by rw [hp]; trivial) (h3 i)
    | readServices => cases sv <;> rfl
    | readTable => cases tb <;> rfl
    | _ => rfl
  have hc : (step s i).cells = s.cells := hsame
  refine ⟨by rw [hc]; exact h1, by rw [hc]; exact h2, fun j hj => ?_⟩
  rw [hpc] at hj
  by_cases e : j = i
  · rw [if_pos e] at hj
    rcases advance_inside hj with hj | hj
    · exact h3 i hj
    · rw [h1] at hj; cases hj
  · rw [if_neg e] at hj; exact h3 j hj

/-- Once stuck, it stays stuck: whoever asks for the state from then on gets nothing, whoever tries to initialize it is told that it is being initialized. -/
theorem stuck_forever {s : State} (h : Stuck s) (is : List Nat) (i : Nat) :
    (s.pc i = .load → (run s is).pc i = .load ∨ (run s is).pc i = .done .nothing) ∧ (∀ b, s.pc i = .exchange b → (run s is).pc i = .exchange b ∨ (run s is).pc i = .done .busy) := by
  have key : ∀ (is : List Nat) (s : State), Stuck s → ∀ p q, (advance ⟨true, s.cells.services, s.cells.table⟩ p).2 = .done q → (s.pc i = p ∨ s.pc i = .done q) →
      (∀ sv tb, (advance ⟨true, sv, tb⟩ p).2 = .done q) → ((run s is).pc i = p ∨ (run s is).pc i = .done q) := by
    intro is
    induction is with
    | nil => exact fun s _ p q _ h _ => h
    | cons x is ih =>
      intro s hs p q h1 h2 h3
      refine ih (step s x) (stuck_step hs x) p q (h3 _ _) ?_ h3
      have hpc : (step s x).pc i = if i = x then (advance s.cells (s.pc x)).2 else s.pc i := rfl
      rw [hpc]
      by_cases e : i = x
      · rw [if_pos e, ← e]
        rcases h2 with h2 | h2
        · rw [h2]
          refine Or.inr ?_
          have : s.cells = ⟨true, s.cells.services, s.cells.table⟩ := by
            have hfl := hs.flag
            rcases hsc : s.cells with ⟨f, a, b⟩
            rw [hsc] at hfl
            dsimp only at hfl ⊢
            rw [hfl]
          rw [this]
          exact h3 _ _
        · rw [h2]; exact Or.inr rfl
      · rw [if_neg e]; exact h2
  exact ⟨fun hl => key is s h .load .nothing rfl (Or.inl hl) (fun _ _ => rfl), fun b hb => key is s h (.exchange b) .busy rfl (Or.inl hb) (fun _ _ => rfl)⟩

/-- A second `init`, which should just fail, leaves the state stuck: no measurement is recorded any more. -/
theorem second_init_disables (jobs : Nat → Job) (is : List Nat) (i j b : Nat) (hi : (run (start jobs) is).pc i = .done .ok) (hj : (run (start jobs) is).pc j = .exchange b)
    (hf : (run (start jobs) is).cells.flag = false) :
    (run (start jobs) (is ++ [j, j])).pc j = .done .already ∧ Stuck (run (start jobs) (is ++ [j, j])) := by
  have hinv := run_inv (start_inv jobs) is
  have hinv2 := run_inv (start_inv jobs) (is ++ [j, j])
  have hki := hinv.knows i
  rw [hi] at hki
  obtain ⟨x, hx⟩ := Option.isSome_iff_exists.1 hki.1
  have hidle := hinv.idle hf
  rw [run_append] at hinv2 ⊢
  generalize run (start jobs) is = s at *
  have hc : s.cells = ⟨false, some x, s.cells.table⟩ := by
    rcases hs : s.cells with ⟨f, sv, tb⟩
    rw [hs] at hf hx
    dsimp only at hf hx ⊢
    rw [hf, hx]
  have e1 : (step s j).cells = ⟨true, some x, s.cells.table⟩ := by
    show (advance s.cells (s.pc j)).1 = _
    rw [hj, hc]; rfl
  have e2 : ∀ k, (step s j).pc k = if k = j then .setServices b else s.pc k := fun k => by
    show (if k = j then (advance s.cells (s.pc j)).2 else s.pc k) = _
    rw [hj, hc]; rfl
  have e3 : (step (step s j) j).cells = ⟨true, some x, s.cells.table⟩ := by
    show (advance (step s j).cells ((step s j).pc j)).1 = _
    rw [e1, e2, if_pos rfl]; rfl
  have e4 : ∀ k, (step (step s j) j).pc k = if k = j then .done .already else s.pc k := fun k => by
    show (if k = j then (advance (step s j).cells ((step s j).pc j)).2 else (step s j).pc k) = _
    rw [e1, e2, if_pos rfl, e2]
    by_cases e : k = j
    · rw [if_pos e, if_pos e]; rfl
    · rw [if_neg e, if_neg e, if_neg e]
  show (step (step s j) j).pc j = _ ∧ Stuck (step (step s j) j)
  refine ⟨by rw [e4, if_pos rfl], by rw [e3], by rw [e3]; rfl, fun k hk => ?_⟩
  rw [e4] at hk
  by_cases e : k = j
  · rw [if_pos e] at hk; exact hk
  · rw [if_neg e] at hk; exact hidle k hk

example : (run (start fun i => if i < 2 then .init i else .inner) [0, 0, 0, 0]).pc 0 = .done .ok ∧ (run (start fun i => if i < 2 then .init i else .inner) [0, 0, 0, 0]).pc 1 = .exchange 1 ∧
    (run (start fun i => if i < 2 then .init i else .inner) [0, 0, 0, 0]).cells.flag = false ∧
    (run (start fun i => if i < 2 then .init i else .inner) [0, 0, 0, 0, 1, 1, 2, 2, 2]).pc 2 = .done .nothing := by decide

/-- One thread is about to write a cell that another is about to read. The cells are not synchronized, so this is a data race. -/
def Race (s : State) : Prop :=
  ∃ i j b, s.pc i = .setServices b ∧ s.cells.services = none ∧ s.pc j = .readServices

/-- A reader that looks at the flag just before the initialization begins reads the cell while it is written. -/
theorem reader_races_init (jobs : Nat → Job) (i j b : Nat) (hij : i ≠ j) (hi : jobs i = .init b) (hj : jobs j = .inner) : Race (run (start jobs) [j, i]) := by
  have h1 : (start jobs).pc j = .load := by show (jobs j).pc = _; rw [hj]; rfl
  have h2 : (start jobs).pc i = .exchange b := by show (jobs i).pc = _; rw [hi]; rfl
  have e1 : (step (start jobs) j).cells = .uninit := by show (advance _ ((start jobs).pc j)).1 = _; rw [h1]; rfl
  have e2 : (step (start jobs) j).pc j = .readServices := by show (if j = j then _ else _) = _; rw [if_pos rfl, h1]; rfl
  have e3 : (step (start jobs) j).pc i = .exchange b := by show (if i = j then _ else _) = _; rw [if_neg hij]; exact h2
  refine ⟨i, j, b, ?_, ?_, ?_⟩
  · show (if i = i then _ else _) = _; rw [if_pos rfl, e3, e1]; rfl
  · show (advance _ ((step (start jobs) j).pc i)).1.services = none; rw [e3, e1]; rfl
  · show (if j = i then _ else _) = _; rw [if_neg (Ne.symm hij)]; exact e2

end Verif.Perf.Static
