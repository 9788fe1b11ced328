import Verif.Connect.Props
/-!
C44, continued: authentication before any driver is asked, the children, and the absence of panics.
-/
namespace Verif.Connect
open Verif.Protocol (Db Usage users lookup Reachable BY_CHILD_CONTROLLER)
variable {W : Type}

/-- Connecting is subject to authentication: the controller has a device path, which is well formed, and there is a
Security2 protocol. -/
def Guarded (env : Env W) (c : Nat) (path : Option Nat) (w : W) (sec dp : Nat) : Prop :=
  lookup (env.db w) c env.pathGuid = some dp ∧ (env.db w).locateProtocol env.securityGuid = .ok sec ∧
    env.pathOk w dp path = true

/-- The remaining path counts for authentication only when the connection is not recursive. -/
def authed (path : Option Nat) : Bool → Option Nat
  | true => none
  | false => path

/-- The authentication asks the Security2 protocol exactly when it can, and then follows its answer. -/
theorem authenticate_spec (env : Env W) (c : Nat) (path : Option Nat) (recursive : Bool) (w : W) :
    (∃ sec dp, Guarded env c (authed path recursive) w sec dp ∧
      authenticateConnect env c path recursive w = env.authenticate w sec dp (authed path recursive)) ∨
    ((∀ sec dp, ¬ Guarded env c (authed path recursive) w sec dp) ∧ authenticateConnect env c path recursive w = (w, none)) := by
  have hp : authPath path recursive = authed path recursive := by cases recursive <;> rfl
  unfold authenticateConnect Guarded lookup
  rw [hp]
  cases hg : (env.db w).getInterface c env.pathGuid with
  | ok dp =>
    cases hl : (env.db w).locateProtocol env.securityGuid with
    | ok sec =>
      simp only []
      by_cases hk : env.pathOk w dp (authed path recursive) = true
      · left
        rw [if_pos hk]
        exact ⟨sec, dp, ⟨rfl, rfl, hk⟩, rfl⟩
      · right
        rw [if_neg hk]
        refine ⟨?_, rfl⟩
        rintro s d ⟨h1, _, h3⟩
        injection h1 with h1
        subst h1
        exact hk h3
    | err e => exact Or.inr ⟨(by rintro s d ⟨_, h, _⟩; cases h), rfl⟩
    | panic => exact Or.inr ⟨(by rintro s d ⟨_, h, _⟩; cases h), rfl⟩
  | err e => exact Or.inr ⟨(by rintro s d ⟨h, _, _⟩; cases h), by cases (env.db w).locateProtocol env.securityGuid <;> rfl⟩
  | panic => exact Or.inr ⟨(by rintro s d ⟨h, _, _⟩; cases h), by cases (env.db w).locateProtocol env.securityGuid <;> rfl⟩

/-- A refused connection asks no driver. -/
theorem refused_asks_nobody {env : Env W} {n c : Nat} {drivers : List Nat} {path : Option Nat} {recursive : Bool}
    {w w1 : W} {e : EfiError} {sec dp : Nat} (hg : Guarded env c (authed path recursive) w sec dp)
    (ha : env.authenticate w sec dp (authed path recursive) = (w1, some e)) :
    connect env (n + 1) c drivers path recursive w = some (.err e, [⟨c, true, []⟩], w1) := by
  have : authenticateConnect env c path recursive w = (w1, some e) := by
    rcases authenticate_spec env c path recursive w with ⟨s, d, h1, h2⟩ | ⟨h1, _⟩
    · obtain ⟨a1, a2, _⟩ := h1
      obtain ⟨b1, b2, _⟩ := hg
      rw [b1] at a1
      injection a1 with a1
      rw [b2] at a2
      injection a2 with a2
      subst a1 a2
      rw [h2]; exact ha
    · exact absurd hg (h1 _ _)
  unfold connect
  rw [this]

mutual
/-- What connecting did, as a tree: the controller, then, if asked for, its children. -/
inductive Tree (env : Env W) : Nat → Nat → List Nat → Option Nat → Bool → W → Outcome EfiError Unit → List Connected → W → Prop where
  | refused {n c : Nat} {drivers : List Nat} {path : Option Nat} {recursive : Bool} {w w1 : W} {e : EfiError} :
      authenticateConnect env c path recursive w = (w1, some e) →
      Tree env (n + 1) c drivers path recursive w (.err e) [⟨c, true, []⟩] w1
  | leaf {n c : Nat} {drivers : List Nat} {path : Option Nat} {w w1 w2 : W} {r : Outcome EfiError Unit}
      {l : List (List Try)} : authenticateConnect env c path false w = (w1, none) →
      connectSingle env n c drivers path w1 = some (r, l, w2) →
      Tree env (n + 1) c drivers path false w r [⟨c, false, l⟩] w2
  | node {n c : Nat} {drivers : List Nat} {path : Option Nat} {w w1 w2 w3 : W} {r : Outcome EfiError Unit}
      {l : List (List Try)} {ks : List Nat} {l2 : List Connected} :
      authenticateConnect env c path true w = (w1, none) →
      connectSingle env n c drivers path w1 = some (r, l, w2) →
      (env.db w2).children c = .ok ks → Forest env n ks w2 l2 w3 →
      Tree env (n + 1) c drivers path true w r (⟨c, false, l⟩ :: l2) w3

/-- The controllers `ks` were connected one after the other, recursively and with no driver or path given. -/
inductive Forest (env : Env W) : Nat → List Nat → W → List Connected → W → Prop where
  | nil {n : Nat} {w : W} : Forest env n [] w [] w
  | cons {n k : Nat} {ks : List Nat} {w w1 w' : W} {r : Outcome EfiError Unit} {l l' : List Connected} :
      Tree env n k [] none true w r l w1 → Forest env n ks w1 l' w' → Forest env n (k :: ks) w (l ++ l') w'
end

theorem connectChildren_spec {env : Env W} {n : Nat} {f : Nat → W → ConnRes W}
    (hf : ∀ k w r l w', f k w = some (r, l, w') → r ≠ .panic → Tree env n k [] none true w r l w') :
    ∀ ks w r l w', connectChildren f ks w = some (r, l, w') → r ≠ .panic → Forest env n ks w l w' := by
  intro ks
  induction ks with
  | nil =>
    intro w r l w' h hp
    injection h with h
    injection h with h1 h
    injection h with h2 h3
    subst h2 h3
    exact .nil
  | cons k ks ih =>
    intro w r l w' h hp
    unfold connectChildren at h
    cases hk : f k w with
    | none => rw [hk] at h; cases h
    | some y =>
      obtain ⟨r1, l1, w1⟩ := y
      rw [hk] at h
      have go : r1 ≠ .panic → (match connectChildren f ks w1 with
          | none => none
          | some (r, l', w'') => some (r, l1 ++ l', w'')) = some (r, l, w') → Forest env n (k :: ks) w l w' := by
        intro hnp h
        cases hc : connectChildren f ks w1 with
        | none => rw [hc] at h; cases h
        | some z =>
          obtain ⟨r2, l2, w2⟩ := z
          rw [hc] at h
          simp only [] at h
          injection h with h
          injection h with h1 h
          injection h with h2 h3
          subst h1 h2 h3
          exact .cons (hf _ _ _ _ _ hk hnp) (ih _ _ _ _ hc hp)
      cases r1 with
      | ok u => exact go (fun h => by cases h) h
      | err e => exact go (fun h => by cases h) h
      | panic =>
        simp only [] at h
        injection h with h
        injection h with h1 h
        exact absurd h1.symm hp

/-- Every call of `core_connect_controller` that returns did this. -/
theorem connect_tree (env : Env W) : ∀ n c drivers path recursive w r l w',
    connect env n c drivers path recursive w = some (r, l, w') → r ≠ .panic →
      Tree env n c drivers path recursive w r l w' := by
  intro n
  induction n with
  | zero => intro c drivers path recursive w r l w' h; cases h
  | succ n ih =>
    intro c drivers path recursive w r l w' h hp
    unfold connect at h
    cases ha : authenticateConnect env c path recursive w with
    | mk w1 o =>
      simp only [ha] at h
      cases o with
      | some e =>
        simp only [] at h
        injection h with h
        injection h with h1 h
        injection h with h2 h3
        subst h1 h2 h3
        exact .refused ha
      | none =>
        simp only [] at h
        cases hs : connectSingle env n c drivers path w1 with
        | none => rw [hs] at h; cases h
        | some y =>
          obtain ⟨r1, l1, w2⟩ := y
          rw [hs] at h
          have go : r1 ≠ .panic → (if recursive = true then thenChildren env (fun k w => connect env n k [] none true w) c r1 [⟨c, false, l1⟩] w2
            else some (r1, [⟨c, false, l1⟩], w2)) = some (r, l, w') → Tree env (n + 1) c drivers path recursive w r l w' := by
            intro hnp h
            cases recursive with
            | false =>
              rw [if_neg (by simp)] at h
              injection h with h
              injection h with h1 h
              injection h with h2 h3
              subst h1 h2 h3
              exact .leaf ha hs
            | true =>
              rw [if_pos rfl] at h
              unfold thenChildren at h
              cases hc : (env.db w2).children c with
              | ok ks =>
                simp only [hc] at h
                cases hcc : connectChildren (fun k w => connect env n k [] none true w) ks w2 with
                | none => rw [hcc] at h; cases h
                | some z =>
                  obtain ⟨r2, l2, w3⟩ := z
                  rw [hcc] at h
                  have fin : r2 ≠ .panic → some (r1, [(⟨c, false, l1⟩ : Connected)] ++ l2, w3) = some (r, l, w') →
                      Tree env (n + 1) c drivers path true w r l w' := by
                    intro hn2 h
                    injection h with h
                    injection h with h1 h
                    injection h with h2 h3
                    subst h1 h2 h3
                    exact .node ha hs hc (connectChildren_spec (env := env) (n := n)
                      (fun k w r l w' h hp => ih _ _ _ _ _ _ _ _ h hp) _ _ _ _ _ hcc hn2)
                  cases r2 with
                  | ok u => exact fin (fun h => by cases h) h
                  | err e => exact fin (fun h => by cases h) h
                  | panic =>
                    simp only [] at h
                    injection h with h
                    injection h with h1 h
                    exact absurd h1.symm hp
              | err e =>
                simp only [hc] at h
                injection h with h
                injection h with h1 h
                exact absurd h1.symm hp
              | panic =>
                simp only [hc] at h
                injection h with h
                injection h with h1 h
                exact absurd h1.symm hp
          cases r1 with
          | ok u => exact go (fun h => by cases h) h
          | err e => exact go (fun h => by cases h) h
          | panic =>
            simp only [] at h
            injection h with h
            injection h with h1 h
            exact absurd h1.symm hp

/-- The record starts with the controller itself. -/
theorem Tree.head {env : Env W} {n c : Nat} {drivers : List Nat} {path : Option Nat} {recursive : Bool} {w w' : W}
    {r : Outcome EfiError Unit} {l : List Connected} (h : Tree env n c drivers path recursive w r l w') :
    ∃ e l', l = e :: l' ∧ e.controller = c := by
  cases h with
  | refused _ => exact ⟨_, _, rfl, rfl⟩
  | leaf _ _ => exact ⟨_, _, rfl, rfl⟩
  | node _ _ _ _ => exact ⟨_, _, rfl, rfl⟩

/-- Each controller of a forest is in the record. -/
theorem Forest.mem {env : Env W} {n : Nat} {k : Nat} : ∀ {ks : List Nat} {w w' : W} {l : List Connected},
    Forest env n ks w l w' → k ∈ ks → ∃ e ∈ l, e.controller = k := by
  intro ks
  induction ks with
  | nil => intro w w' l h hk; cases hk
  | cons x ks ih =>
    intro w w' l h hk
    cases h with
    | cons ht hf =>
      rcases List.mem_cons.1 hk with rfl | hk
      · obtain ⟨e, l0, e1, e2⟩ := ht.head
        exact ⟨e, List.mem_append_left _ (by rw [e1]; exact List.mem_cons_self), e2⟩
      · obtain ⟨e, h1, h2⟩ := ih hf hk
        exact ⟨e, List.mem_append_right _ h1, h2⟩

/-- A recursive connection, unless refused, also tries every controller that is a child once the drivers of its
parent ran, whatever they answered. -/
theorem children_connected {env : Env W} {n c : Nat} {drivers : List Nat} {path : Option Nat} {w w' : W}
    {r : Outcome EfiError Unit} {l : List Connected} (h : connect env (n + 1) c drivers path true w = some (r, l, w'))
    (hp : r ≠ .panic) :
    (∃ e, authenticateConnect env c path true w = (w', some e) ∧ r = .err e) ∨
    ∃ w1 w2 l1 l2, authenticateConnect env c path true w = (w1, none) ∧
      connectSingle env n c drivers path w1 = some (r, l1, w2) ∧ l = ⟨c, false, l1⟩ :: l2 ∧
      (Reachable (env.db w2) → ∀ g u k, u ∈ users (env.db w2) c g → u.attrs = BY_CHILD_CONTROLLER →
        u.controller = some k → ∃ e ∈ l2, e.controller = k) := by
  have ht := connect_tree env _ _ _ _ _ _ _ _ _ h hp
  cases ht with
  | refused ha => exact Or.inl ⟨_, ha, rfl⟩
  | node ha hs hc hf =>
    rename_i w1 w2 l1 ks l2
    right
    refine ⟨w1, w2, l1, l2, ha, hs, rfl, ?_⟩
    intro hr g u k hu hat hk
    obtain ⟨l0, a1, _, a3⟩ := Verif.Protocol.children_exact hr c
    rw [a1] at hc
    injection hc with hc
    subst hc
    exact hf.mem ((a3 k).2 ⟨g, u, hu, hat, hk⟩)

/-- Without the flag only the controller itself is tried. -/
theorem not_recursive {env : Env W} {n c : Nat} {drivers : List Nat} {path : Option Nat} {w w' : W}
    {r : Outcome EfiError Unit} {l : List Connected} (h : connect env (n + 1) c drivers path false w = some (r, l, w'))
    (hp : r ≠ .panic) : ∃ e, l = [e] ∧ e.controller = c := by
  have ht := connect_tree env _ _ _ _ _ _ _ _ _ h hp
  cases ht with
  | refused ha => exact ⟨_, rfl, rfl⟩
  | leaf ha hs => exact ⟨_, rfl, rfl⟩

/-! ### No panic -/

/-- The override protocols are not installed with a null interface. -/
structure NotNull (env : Env W) : Prop where
  platform : ∀ w h, lookup (env.db w) h env.platformGuid ≠ some 0
  family : ∀ w h, lookup (env.db w) h env.familyGuid ≠ some 0
  bus : ∀ w h, lookup (env.db w) h env.busGuid ≠ some 0

theorem then_panic {α β : Type} {r : Res W α} {f : α → W → Res W β} (h1 : ∀ w, r ≠ some (.panic, w))
    (h2 : ∀ a w0 w, f a w0 ≠ some (.panic, w)) : ∀ w, Res.then r f ≠ some (.panic, w) := by
  intro w h
  unfold Res.then at h
  cases r with
  | none => cases h
  | some y =>
    obtain ⟨o, w1⟩ := y
    cases o with
    | ok a => exact h2 _ _ _ h
    | err e => simp only [] at h; injection h with h; injection h with h1; cases h1
    | panic => exact h1 _ rfl

theorem drained_panic (env : Env W) (x : Option (List Nat × W)) (w : W) : drained env x ≠ some (.panic, w) := by
  intro h
  unfold drained at h
  split at h
  · cases h
  · injection h with h; injection h with h1; cases h1

theorem candidates_no_panic {env : Env W} (hr : ∀ w, Reachable (env.db w)) (hn : NotNull env) (n c : Nat)
    (drivers : List Nat) (w : W) : ∀ w', candidates env n c drivers w ≠ some (.panic, w') := by
  unfold candidates
  refine then_panic ?_ (fun s2 w2 => then_panic ?_ (fun s3 w3 => then_panic ?_ ?_))
  · intro w' h
    unfold platformBindings at h
    split at h
    · rename_i i hi
      have hz : i ≠ 0 := by
        intro e
        subst e
        rcases Verif.Protocol.locate_protocol_exact (hr w) env.platformGuid with ⟨a, _⟩ | ⟨d, j, a, b, _⟩
        · rw [a] at hi; cases hi
        · rw [b] at hi
          injection hi with hi
          subst hi
          exact hn.platform w d a
      rw [if_neg hz] at h
      exact drained_panic _ _ _ h
    · injection h with h; injection h with h1; cases h1
  · intro w' h
    have hm : ∀ hs (m : BMap Nat) w w', familyMap env hs m w ≠ (.panic, w') := by
      intro hs
      induction hs with
      | nil => intro m w w' h; injection h with h1; cases h1
      | cons x hs ih =>
        intro m w w' h
        unfold familyMap at h
        split at h
        · rename_i i hi
          have hz : i ≠ 0 := by
            intro e
            subst e
            exact hn.family w x (by unfold lookup; rw [hi])
          rw [if_neg hz] at h
          exact ih _ _ _ h
        · exact ih _ _ _ h
    unfold familyBindings at h
    split at h
    · unfold familyResult at h
      split at h
      · injection h with h; injection h with h1; cases h1
      · injection h with h; injection h with h1; cases h1
      · rename_i hx; exact hm _ _ _ _ hx
    · injection h with h; injection h with h1; cases h1
  · intro w' h
    unfold busBindings at h
    split at h
    · rename_i i hi
      have hz : i ≠ 0 := by
        intro e
        subst e
        exact hn.bus w3 c (by unfold lookup; rw [hi])
      rw [if_neg hz] at h
      exact drained_panic _ _ _ h
    · injection h with h; injection h with h1; cases h1
  · intro s4 w4 w' h
    injection h with h; injection h with h1; cases h1

/-- Connecting never panics, whatever the drivers do. -/
theorem connect_no_panic {env : Env W} (hr : ∀ w, Reachable (env.db w)) (hn : NotNull env) :
    ∀ n c drivers path recursive w l w', connect env n c drivers path recursive w ≠ some (.panic, l, w') := by
  intro n
  induction n with
  | zero => intro c drivers path recursive w l w' h; cases h
  | succ n ih =>
    intro c drivers path recursive w l w' h
    have hsingle : ∀ w l w', connectSingle env n c drivers path w ≠ some (.panic, l, w') := by
      intro w l w' h
      unfold connectSingle at h
      split at h
      · split at h
        · cases h
        · unfold verdict at h
          split at h
          · cases h
          · injection h with h
            injection h with h1 h
            split at h1 <;> cases h1
        · injection h with h; injection h with h1 h; cases h1
        · rename_i hx; exact candidates_no_panic hr hn _ _ _ _ _ hx
      · injection h with h; injection h with h1 h; cases h1
    have hchildren : ∀ ks w l w', connectChildren (fun k w => connect env n k [] none true w) ks w ≠ some (.panic, l, w') := by
      intro ks
      induction ks with
      | nil => intro w l w' h; injection h with h; injection h with h1 h; cases h1
      | cons k ks ih2 =>
        intro w l w' h
        unfold connectChildren at h
        split at h
        · cases h
        · rename_i hx; exact ih _ _ _ _ _ _ _ hx
        · split at h
          · cases h
          · rename_i hx
            injection h with h
            injection h with h1 h
            subst h1
            exact ih2 _ _ _ hx
    unfold connect at h
    split at h
    · injection h with h; injection h with h1 h; cases h1
    · split at h
      · cases h
      · rename_i hx; exact hsingle _ _ _ hx
      · rename_i r1 l1 w2 hnp hx
        have hr1 : r1 ≠ .panic := by
          intro e
          subst e
          exact hsingle _ _ _ hx
        split at h
        · unfold thenChildren at h
          split at h
          · split at h
            · cases h
            · rename_i hy; exact hchildren _ _ _ _ hy
            · injection h with h; injection h with h1 h; exact hr1 h1
          · rename_i hy
            obtain ⟨l0, a, _⟩ := Verif.Protocol.children_exact (hr w2) c
            exact hy _ a
        · injection h with h; injection h with h1 h; exact hr1 h1

end Verif.Connect
