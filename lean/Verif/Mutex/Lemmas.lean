import Verif.Mutex.Model
namespace Verif.Mutex

def Post {α : Type} (P : α → Prop) (Q : Stop → Prop) (r : Except Stop α) : Prop :=
  match r with
  | .error e => Q e
  | .ok a => P a

theorem Post.bind {α β : Type} {P : α → Prop} {P' : β → Prop} {Q : Stop → Prop} {r : Except Stop α} {k : α → Except Stop β}
    (h : Post P Q r) (hk : ∀ a, P a → Post P' Q (k a)) : Post P' Q (r >>= k) := by
  cases r with
  | error c => exact h
  | ok a => exact hk a h

theorem Post.mono {α : Type} {P P' : α → Prop} {Q Q' : Stop → Prop} {r : Except Stop α} (h : Post P Q r)
    (hp : ∀ a, P a → P' a) (hq : ∀ c, Q c → Q' c) : Post P' Q' r := by
  cases r with
  | error c => exact hq c h
  | ok a => exact hp a h

theorem Post.and {α : Type} {P P' : α → Prop} {Q Q' : Stop → Prop} {r : Except Stop α} (h : Post P Q r)
    (h' : Post P' Q' r) : Post (fun a => P a ∧ P' a) (fun c => Q c ∧ Q' c) r := by
  cases r with
  | error c => exact ⟨h, h'⟩
  | ok a => exact ⟨h, h'⟩

/-- A guard exists only of a locked mutex, and only one. -/
def Inv (s : Mx) : Prop := ∀ i, s.guards i ≤ if s.locked i then 1 else 0

/-- Same TPL, same locks, same guards; boot services stay. -/
structure Same (s s' : Mx) : Prop where
  tpl : s'.tpl = s.tpl
  locked : s'.locked = s.locked
  guards : s'.guards = s.guards
  bs : s.bs = true → s'.bs = true

theorem Same.refl (s : Mx) : Same s s := ⟨rfl, rfl, rfl, id⟩
theorem Same.trans {a b c : Mx} (h : Same a b) (h' : Same b c) : Same a c :=
  ⟨h'.tpl.trans h.tpl, h'.locked.trans h.locked, h'.guards.trans h.guards, fun x => h'.bs (h.bs x)⟩
theorem Same.inv {a b : Mx} (h : Same a b) (hi : Inv a) : Inv b := by
  intro i; rw [h.locked, h.guards]; exact hi i

def NoTwo (c : Stop) : Prop := c ≠ .twoGuards

/-- What a mutex implementation may assume of the activity let in at a point. -/
def Calm (poll : Mx → Except Stop Mx) : Prop := ∀ s, Inv s → Post (Same s) NoTwo (poll s)

theorem raise_post (t : Nat) (s : Mx) :
    Post (fun r => r.1 = s.tpl ∧ r.2 = { s with tpl := t } ∧ s.tpl ≤ t ∧ t ≤ 31) NoTwo (raiseTpl t s) := by
  unfold raiseTpl
  split
  · exact Stop.noConfusion
  · rename_i h; exact ⟨rfl, rfl, by omega, by omega⟩

theorem restore_post {poll : Mx → Except Stop Mx} (hp : Calm poll) (t : Nat) (s : Mx) (hi : Inv s) :
    Post (fun s' => Same { s with tpl := t } s') NoTwo (restoreTpl poll t s) := by
  unfold restoreTpl
  split
  · exact Stop.noConfusion
  · exact hp _ hi

/-- A guard of mutex `i` with release TPL `rel` was made in state `s`. -/
structure Taken (v : Kind) (i : Nat) (rel : Option Nat) (s s' : Mx) : Prop where
  was : s.locked i = false
  bs : s.bs = true → s'.bs = true
  tpl : rel = some s.tpl ∨ (rel = none ∧ s'.tpl = s.tpl)
  locked : s'.locked = fun j => if j = i then true else s.locked j
  guards : s'.guards = fun j => if j = i then s.guards j + 1 else s.guards j

theorem Taken.inv {v : Kind} {i : Nat} {rel : Option Nat} {s s' : Mx} (h : Taken v i rel s s') (hi : Inv s) : Inv s' := by
  intro j
  rw [h.locked, h.guards]
  have := hi j
  dsimp only
  by_cases hj : j = i
  · subst hj
    rw [h.was] at this
    simp at this
    simp [this]
  · simp only [hj, if_false]; exact this

theorem try_post (v : Kind) {poll : Mx → Except Stop Mx} (hp : Calm poll) (lvl : Nat → Nat) (i : Nat) (s : Mx) (hi : Inv s) :
    Post (fun r => match r.1 with
      | none => Same s r.2 ∧ s.locked i = true
      | some rel => Taken v i rel s r.2) NoTwo (tryAcquire v poll lvl i s) := by
  cases v with
  | core =>
    unfold tryAcquire coreTry
    dsimp only
    have h1 : Post (fun r : Option Nat × Mx => r.2.locked = s.locked ∧ r.2.guards = s.guards ∧ r.2.bs = s.bs ∧
        (r.1 = some s.tpl ∨ (r.1 = none ∧ r.2.tpl = s.tpl))) NoTwo
        (enter (lvl i) s) := by
      unfold enter
      split
      · refine Post.bind (raise_post (lvl i) s) ?_
        rintro ⟨old, s1⟩ ⟨rfl, rfl, _, _⟩
        exact ⟨rfl, rfl, rfl, Or.inl rfl⟩
      · exact ⟨rfl, rfl, rfl, Or.inr ⟨rfl, rfl⟩⟩
    refine h1.bind ?_
    rintro ⟨rel, s1⟩ ⟨a1, a2, a3, a4⟩
    dsimp only at a1 a2 a3 a4 ⊢
    have i1 : Inv s1 := by intro j; rw [a1, a2]; exact hi j
    refine (hp s1 i1).bind ?_
    intro s2 h2
    have i2 := h2.inv i1
    split
    · rename_i hl
      have hl' : s.locked i = true := by rw [← a1, ← h2.locked]; exact hl
      cases rel with
      | some old =>
        refine Post.bind (r := leave poll (some old) s2) (restore_post hp old s2 i2) ?_
        intro s3 h3
        rcases a4 with a4 | ⟨a4, _⟩
        · cases a4
          refine ⟨⟨h3.tpl, h3.locked.trans (h2.locked.trans a1), h3.guards.trans (h2.guards.trans a2), ?_⟩, hl'⟩
          intro hb; exact h3.bs (h2.bs (by rw [a3]; exact hb))
        · cases a4
      | none =>
        rcases a4 with a4 | ⟨_, a4⟩
        · cases a4
        refine ⟨⟨h2.tpl.trans a4, h2.locked.trans a1, h2.guards.trans a2, ?_⟩, hl'⟩
        intro hb; exact h2.bs (by rw [a3]; exact hb)
    · rename_i hl
      have hl2 : s2.locked i = false := by simpa using hl
      have hl' : s.locked i = false := by rw [← a1, ← h2.locked]; exact hl2
      have hg0 : ¬ 0 < (s2.set i true).guards i := by
        have := i2 i
        rw [hl2] at this
        show ¬ 0 < s2.guards i
        simp at this; omega
      unfold newGuard
      rw [if_neg hg0]
      refine ⟨hl', ?_, ?_, ?_, ?_⟩
      · intro hb; exact h2.bs (by rw [a3]; exact hb)
      · rcases a4 with a4 | ⟨a4, a5⟩
        · exact Or.inl a4
        · exact Or.inr ⟨a4, h2.tpl.trans a5⟩
      · show (fun j => if j = i then true else s2.locked j) = _
        rw [h2.locked, a1]
      · show (fun j => if j = i then s2.guards j + 1 else s2.guards j) = _
        rw [h2.guards, a2]
  | sdk =>
    unfold tryAcquire sdkTry
    dsimp only
    split
    · rename_i hl
      exact ⟨Same.refl s, hl⟩
    · rename_i hl
      have hl' : s.locked i = false := by simpa using hl
      have i1 : Inv (s.set i true) := by
        intro j
        have := hi j
        show s.guards j ≤ if (if j = i then true else s.locked j) = true then 1 else 0
        by_cases hj : j = i
        · subst hj; rw [hl'] at this; simp at this; simp [this]
        · simp only [hj, if_false]; exact this
      refine (hp _ i1).bind ?_
      intro s1 h1
      refine (raise_post (lvl i) s1).bind ?_
      rintro ⟨old, s2⟩ ⟨rfl, rfl, _, _⟩
      dsimp only
      have hg0 : ¬ 0 < s1.guards i := by
        rw [h1.guards]
        have := hi i
        rw [hl'] at this
        show ¬ 0 < s.guards i
        simp at this; omega
      unfold newGuard
      dsimp only
      rw [if_neg hg0]
      refine ⟨hl', h1.bs, Or.inl (by rw [h1.tpl]; rfl), ?_, ?_⟩
      · show s1.locked = _
        rw [h1.locked]; rfl
      · show (fun j => if j = i then s1.guards j + 1 else s1.guards j) = _
        rw [h1.guards]; rfl

theorem drop_post (v : Kind) {poll : Mx → Except Stop Mx} (hp : Calm poll) {i : Nat} {rel : Option Nat} {s s1 s2 : Mx}
    (hi : Inv s) (ht : Taken v i rel s s1) (hs : Same s1 s2) : Post (Same s) NoTwo (drop v poll i rel s2) := by
  have hl : (fun j => if j = i then false else s2.locked j) = s.locked := by
    funext j
    rw [hs.locked, ht.locked]
    by_cases hj : j = i
    · subst hj; simp [ht.was]
    · simp [hj]
  have hg : (fun j => if j = i then s2.guards j - 1 else s2.guards j) = s.guards := by
    funext j
    rw [hs.guards, ht.guards]
    by_cases hj : j = i
    · subst hj; simp
    · simp [hj]
  have i2 : Inv s2 := hs.inv (ht.inv hi)
  cases v with
  | core =>
    unfold drop coreDrop
    dsimp only
    have hd : Inv ((s2.set i false).dead i) := by
      intro j
      show (fun j => if j = i then s2.guards j - 1 else s2.guards j) j ≤ if (fun j => if j = i then false else s2.locked j) j = true then 1 else 0
      rw [hl, hg]; exact hi j
    refine (hp _ hd).bind ?_
    intro s3 h3
    have i3 := h3.inv hd
    cases rel with
    | none =>
      rcases ht.tpl with h | ⟨_, h⟩
      · cases h
      exact ⟨h3.tpl.trans (hs.tpl.trans h), h3.locked.trans hl, h3.guards.trans hg, fun hb => h3.bs (hs.bs (ht.bs hb))⟩
    | some old =>
      rcases ht.tpl with h | ⟨h, _⟩
      · cases h
        refine (restore_post hp _ s3 i3).mono ?_ (fun _ h => h)
        intro s4 h4
        exact ⟨h4.tpl, h4.locked.trans (h3.locked.trans hl), h4.guards.trans (h3.guards.trans hg),
          fun hb => h4.bs (h3.bs (hs.bs (ht.bs hb)))⟩
      · cases h
  | sdk =>
    unfold drop sdkDrop
    dsimp only
    have h1 : Post (fun s3 : Mx => s3.tpl = s.tpl ∧ s3.locked = s2.locked ∧ s3.guards = s2.guards ∧ (s2.bs = true → s3.bs = true)) NoTwo
        (leave poll rel s2) := by
      cases rel with
      | none =>
        rcases ht.tpl with h | ⟨_, h⟩
        · cases h
        exact ⟨hs.tpl.trans h, rfl, rfl, id⟩
      | some old =>
        rcases ht.tpl with h | ⟨h, _⟩
        · cases h
          refine (restore_post hp _ s2 i2).mono ?_ (fun _ h => h)
          intro s4 h4
          exact ⟨h4.tpl, h4.locked, h4.guards, h4.bs⟩
        · cases h
    refine h1.bind ?_
    rintro s3 ⟨b1, b2, b3, b4⟩
    refine ⟨b1, ?_, ?_, fun hb => b4 (hs.bs (ht.bs hb))⟩
    · show (fun j => if j = i then false else s3.locked j) = _
      rw [b2]; exact hl
    · show (fun j => if j = i then s3.guards j - 1 else s3.guards j) = _
      rw [b3]; exact hg

/-! ### Any program, any activity, either mutex -/

def SpecM (v : Kind) (lvl : Nat → Nat) (env : Nat → List (Nat × Prog)) (f : Nat) : Prop :=
  ∀ c s, Inv s → Post (Same s) NoTwo (exec v lvl env f c s)

theorem specM (v : Kind) (lvl : Nat → Nat) (env : Nat → List (Nat × Prog)) : ∀ f, SpecM v lvl env f := by
  intro f
  induction f with
  | zero => intro c s _; unfold exec; exact Stop.noConfusion
  | succ f ih =>
    have hp : Calm (exec v lvl env f .poll) := fun s hi => ih .poll s hi
    have hbody : ∀ (i : Nat) (rel : Option Nat) (body rest : Prog) (s0 s s1 : Mx), Same s0 s → Inv s → Taken v i rel s s1 →
        Post (Same s0) NoTwo (do
          let s ← exec v lvl env f .poll s1
          let s ← exec v lvl env f (.run body) s
          let s ← drop v (exec v lvl env f .poll) i rel s
          exec v lvl env f (.run rest) s) := by
      intro i rel body rest s0 s s1 h0 hi ht
      have i1 := ht.inv hi
      refine (ih .poll s1 i1).bind ?_
      intro s2 h2
      refine (ih (.run body) s2 (h2.inv i1)).bind ?_
      intro s3 h3
      refine (drop_post v hp hi ht (h2.trans h3)).bind ?_
      intro s4 h4
      refine (ih (.run rest) s4 (h4.inv hi)).mono ?_ (fun _ h => h)
      intro s5 h5
      exact h0.trans (h4.trans h5)
    intro c s hi
    cases c with
    | poll =>
      unfold exec
      refine (ih (.nest (env s.polls)) { s with polls := s.polls + 1 } hi).mono ?_ (fun _ h => h)
      intro s' h; exact ⟨h.tpl, h.locked, h.guards, h.bs⟩
    | nest l =>
      cases l with
      | nil => unfold exec; exact Same.refl s
      | cons x l =>
        obtain ⟨t, p⟩ := x
        unfold exec
        split
        · refine (ih (.run p) { s with tpl := t } hi).bind ?_
          intro s1 h1
          have i1 : Inv { s1 with tpl := s.tpl } := h1.inv hi
          refine (ih (.nest l) _ i1).mono ?_ (fun _ h => h)
          intro s2 h2
          exact ⟨h2.tpl, h2.locked.trans h1.locked, h2.guards.trans h1.guards, fun hb => h2.bs (h1.bs hb)⟩
        · exact ih (.nest l) s hi
    | run p =>
      cases p with
      | done => unfold exec; exact Same.refl s
      | lock i body rest =>
        unfold exec
        refine (ih .poll s hi).bind ?_
        intro s1 h1
        refine (try_post v hp lvl i s1 (h1.inv hi)).bind ?_
        rintro ⟨g, s2⟩ hg
        cases g with
        | none => exact Stop.noConfusion
        | some rel => exact hbody i rel body rest s s1 s2 h1 (h1.inv hi) hg
      | tryLock i body els rest =>
        unfold exec
        refine (ih .poll s hi).bind ?_
        intro s1 h1
        refine (try_post v hp lvl i s1 (h1.inv hi)).bind ?_
        rintro ⟨g, s2⟩ hg
        cases g with
        | none =>
          have h2 : Same s1 s2 := hg.1
          refine (ih (.run els) s2 (h2.inv (h1.inv hi))).bind ?_
          intro s3 h3
          refine (ih (.run rest) s3 (h3.inv (h2.inv (h1.inv hi)))).mono ?_ (fun _ h => h)
          intro s4 h4
          exact h1.trans (h2.trans (h3.trans h4))
        | some rel => exact hbody i rel body rest s s1 s2 h1 (h1.inv hi) hg
      | raise t body rest =>
        unfold exec
        refine (ih .poll s hi).bind ?_
        intro s1 h1
        have i1 := h1.inv hi
        refine (raise_post t s1).bind ?_
        rintro ⟨old, s2⟩ ⟨rfl, rfl, _, _⟩
        have i2 : Inv { s1 with tpl := t } := i1
        refine (ih .poll _ i2).bind ?_
        intro s3 h3
        have i3 := h3.inv i2
        refine (ih (.run body) s3 i3).bind ?_
        intro s4 h4
        refine (restore_post hp _ s4 (h4.inv i3)).bind ?_
        intro s5 h5
        have h35 := h3.trans h4
        have h15 : Same s1 s5 := ⟨h5.tpl, h5.locked.trans h35.locked, h5.guards.trans h35.guards, fun hb => h5.bs (h35.bs hb)⟩
        refine (ih (.run rest) s5 (h15.inv i1)).mono ?_ (fun _ h => h)
        intro s6 h6
        exact h1.trans (h15.trans h6)
      | initBs rest =>
        unfold exec
        refine (ih (.run rest) { s with bs := true } hi).mono ?_ (fun _ h => h)
        intro s' h; exact ⟨h.tpl, h.locked, h.guards, fun _ => h.bs rfl⟩

/-! ### Well-behaved code -/

/-- Code that, entered at TPL `t` by someone holding `held`, raises only upwards and locks only mutexes it does not hold
and whose TPL is not below the TPL it runs at. -/
def Ok (lvl : Nat → Nat) : Nat → List Nat → Prog → Prop
  | _, _, .done => True
  | t, held, .lock i body rest => t ≤ lvl i ∧ lvl i ≤ 31 ∧ i ∉ held ∧ Ok lvl (lvl i) (i :: held) body ∧ Ok lvl t held rest
  | t, held, .tryLock i body els rest =>
    t ≤ lvl i ∧ lvl i ≤ 31 ∧ Ok lvl (lvl i) (i :: held) body ∧ Ok lvl t held els ∧ Ok lvl t held rest
  | t, held, .raise t' body rest => t ≤ t' ∧ t' ≤ 31 ∧ Ok lvl t' held body ∧ Ok lvl t held rest
  | t, held, .initBs rest => Ok lvl t held rest

/-- All notify functions are such code. -/
def EnvOk (lvl : Nat → Nat) (env : Nat → List (Nat × Prog)) : Prop := ∀ k, ∀ x ∈ env k, Ok lvl x.1 [] x.2

/-- Locked mutexes: below the TPL, and either held by the running code or at a lower TPL. -/
structure Held (lvl : Nat → Nat) (held : List Nat) (s : Mx) : Prop where
  inv : Inv s
  bs : s.bs = true
  le : ∀ i, s.locked i = true → lvl i ≤ s.tpl
  mine : ∀ i, s.locked i = true → i ∈ held ∨ lvl i < s.tpl

theorem Held.same {lvl : Nat → Nat} {held : List Nat} {s s' : Mx} (h : Held lvl held s) (hs : Same s s') : Held lvl held s' := by
  refine ⟨hs.inv h.inv, hs.bs h.bs, ?_, ?_⟩
  · intro i hi; rw [hs.tpl]; exact h.le i (by rw [← hs.locked]; exact hi)
  · intro i hi; rw [hs.tpl]; exact h.mine i (by rw [← hs.locked]; exact hi)

theorem Held.up {lvl : Nat → Nat} {held : List Nat} {s : Mx} {t : Nat} (h : Held lvl held s) (ht : s.tpl ≤ t) :
    Held lvl held { s with tpl := t } := by
  refine ⟨h.inv, h.bs, ?_, ?_⟩
  · intro i hi; exact Nat.le_trans (h.le i hi) ht
  · intro i hi
    rcases h.mine i hi with h' | h'
    · exact Or.inl h'
    · exact Or.inr (Nat.lt_of_lt_of_le h' ht)

theorem Held.nest {lvl : Nat → Nat} {held : List Nat} {s : Mx} {t : Nat} (h : Held lvl held s) (ht : s.tpl < t) :
    Held lvl [] { s with tpl := t } := by
  refine ⟨h.inv, h.bs, ?_, ?_⟩
  · intro i hi; exact Nat.le_trans (h.le i hi) (Nat.le_of_lt ht)
  · intro i hi; exact Or.inr (Nat.lt_of_le_of_lt (h.le i hi) ht)

def OnlyFuel (c : Stop) : Prop := c = .fuel

def SpecC (lvl : Nat → Nat) (env : Nat → List (Nat × Prog)) (f : Nat) : Prop :=
  (∀ held s, Held lvl held s → Post (Same s) OnlyFuel (exec .core lvl env f .poll s)) ∧
  (∀ l held s, (∀ x ∈ l, Ok lvl x.1 [] x.2) → Held lvl held s → Post (Same s) OnlyFuel (exec .core lvl env f (.nest l) s)) ∧
  (∀ p held s, Ok lvl s.tpl held p → Held lvl held s → Post (Same s) OnlyFuel (exec .core lvl env f (.run p) s))

theorem raise_ok {t : Nat} {s : Mx} (h1 : s.tpl ≤ t) (h2 : t ≤ 31) : raiseTpl t s = .ok (s.tpl, { s with tpl := t }) := by
  unfold raiseTpl; rw [if_neg (by omega)]

theorem restore_ok {lvl : Nat → Nat} {held : List Nat} {poll : Mx → Except Stop Mx}
    (hp : ∀ held s, Held lvl held s → Post (Same s) OnlyFuel (poll s)) {t : Nat} {s : Mx} (h1 : t ≤ s.tpl)
    (hh : Held lvl held { s with tpl := t }) : Post (Same { s with tpl := t }) OnlyFuel (restoreTpl poll t s) := by
  unfold restoreTpl
  rw [if_neg (by omega)]
  exact hp held _ hh

theorem coreTry_ok {lvl : Nat → Nat} {held : List Nat} {poll : Mx → Except Stop Mx}
    (hp : ∀ held s, Held lvl held s → Post (Same s) OnlyFuel (poll s)) {i : Nat} {s : Mx} (hh : Held lvl held s)
    (h1 : s.tpl ≤ lvl i) (h2 : lvl i ≤ 31) :
    Post (fun r => match r.1 with
      | none => Same s r.2 ∧ s.locked i = true
      | some rel => Taken .core i rel s r.2 ∧ rel = some s.tpl ∧ r.2.tpl = lvl i) OnlyFuel (tryAcquire .core poll lvl i s) := by
  unfold tryAcquire coreTry
  dsimp only
  have hen : enter (lvl i) s = .ok (some s.tpl, { s with tpl := lvl i }) := by
    unfold enter
    rw [if_pos hh.bs, raise_ok h1 h2]
    rfl
  rw [hen]
  have hu := hh.up h1
  refine (hp held _ hu).bind ?_
  intro s2 h2
  have hh2 := hu.same h2
  split
  · rename_i hl
    have hback : Held lvl held { s2 with tpl := s.tpl } := by
      refine ⟨hh2.inv, hh2.bs, ?_, ?_⟩
      · intro j hj
        have hj : s2.locked j = true := hj
        exact hh.le j (by rw [h2.locked] at hj; exact hj)
      · intro j hj
        have hj : s2.locked j = true := hj
        exact hh.mine j (by rw [h2.locked] at hj; exact hj)
    refine Post.bind (r := leave poll (some s.tpl) s2) (restore_ok hp (by rw [h2.tpl]; exact h1) hback) ?_
    intro s3 h3
    refine ⟨⟨h3.tpl, h3.locked.trans h2.locked, h3.guards.trans h2.guards, fun hb => h3.bs (h2.bs hb)⟩, ?_⟩
    rw [h2.locked] at hl; exact hl
  · rename_i hl
    have hl2 : s2.locked i = false := by simpa using hl
    have hg0 : ¬ 0 < (s2.set i true).guards i := by
      have := hh2.inv i
      rw [hl2] at this
      show ¬ 0 < s2.guards i
      simp at this; omega
    unfold newGuard
    rw [if_neg hg0]
    refine ⟨⟨?_, ?_, Or.inl rfl, ?_, ?_⟩, rfl, h2.tpl⟩
    · rw [h2.locked] at hl2; exact hl2
    · intro hb; exact h2.bs hb
    · show (fun j => if j = i then true else s2.locked j) = _
      rw [h2.locked]
    · show (fun j => if j = i then s2.guards j + 1 else s2.guards j) = _
      rw [h2.guards]

theorem coreDrop_ok {lvl : Nat → Nat} {held : List Nat} {poll : Mx → Except Stop Mx}
    (hp : ∀ held s, Held lvl held s → Post (Same s) OnlyFuel (poll s)) {i : Nat} {s s1 s2 : Mx} (hh : Held lvl held s)
    (ht : Taken .core i (some s.tpl) s s1) (h1 : s1.tpl = lvl i) (hle : s.tpl ≤ lvl i) (hs : Same s1 s2) :
    Post (Same s) OnlyFuel (drop .core poll i (some s.tpl) s2) := by
  have hl : (fun j => if j = i then false else s2.locked j) = s.locked := by
    funext j
    rw [hs.locked, ht.locked]
    by_cases hj : j = i
    · subst hj; simp [ht.was]
    · simp [hj]
  have hg : (fun j => if j = i then s2.guards j - 1 else s2.guards j) = s.guards := by
    funext j
    rw [hs.guards, ht.guards]
    by_cases hj : j = i
    · subst hj; simp
    · simp [hj]
  unfold drop coreDrop
  dsimp only
  have hd : ((s2.set i false).dead i) = { s2 with locked := s.locked, guards := s.guards } := by
    rw [← hl, ← hg]; rfl
  rw [hd]
  have tpl2 : s2.tpl = lvl i := hs.tpl.trans h1
  have hheld : Held lvl held { s2 with locked := s.locked, guards := s.guards } := by
    refine ⟨hh.inv, hs.bs (ht.bs hh.bs), ?_, ?_⟩
    · intro j hj
      show lvl j ≤ s2.tpl
      have := hh.le j hj
      omega
    · intro j hj
      rcases hh.mine j hj with h | h
      · exact Or.inl h
      · exact Or.inr (by show lvl j < s2.tpl; omega)
  refine (hp held _ hheld).bind ?_
  intro s3 h3
  have hback : Held lvl held { s3 with tpl := s.tpl } := by
    refine ⟨h3.inv hheld.inv, h3.bs hheld.bs, ?_, ?_⟩
    · intro j hj
      have hj : s3.locked j = true := hj
      exact hh.le j (by rw [h3.locked] at hj; exact hj)
    · intro j hj
      have hj : s3.locked j = true := hj
      exact hh.mine j (by rw [h3.locked] at hj; exact hj)
  refine (restore_ok hp (by rw [h3.tpl]; show s.tpl ≤ s2.tpl; omega) hback).mono ?_ (fun _ h => h)
  intro s4 h4
  exact ⟨h4.tpl, h4.locked.trans h3.locked, h4.guards.trans h3.guards, fun hb => h4.bs (h3.bs (hs.bs (ht.bs hb)))⟩

theorem specC (lvl : Nat → Nat) (env : Nat → List (Nat × Prog)) (he : EnvOk lvl env) : ∀ f, SpecC lvl env f := by
  intro f
  induction f with
  | zero =>
    refine ⟨?_, ?_, ?_⟩
    all_goals intros; unfold exec; rfl
  | succ f ih =>
    obtain ⟨ihp, ihn, ihr⟩ := ih
    have hbody : ∀ (held : List Nat) (i : Nat) (body rest : Prog) (s0 s s1 : Mx), Same s0 s → Held lvl held s →
        Taken .core i (some s.tpl) s s1 → s1.tpl = lvl i → s.tpl ≤ lvl i → Ok lvl (lvl i) (i :: held) body → Ok lvl s.tpl held rest →
        Post (Same s0) OnlyFuel (do
          let s' ← exec .core lvl env f .poll s1
          let s' ← exec .core lvl env f (.run body) s'
          let s' ← drop .core (exec .core lvl env f .poll) i (some s.tpl) s'
          exec .core lvl env f (.run rest) s') := by
      intro held i body rest s0 s s1 h0 hh ht t1 hle okb okr
      have hh1 : Held lvl (i :: held) s1 := by
        refine ⟨ht.inv hh.inv, ht.bs hh.bs, ?_, ?_⟩
        · intro j hj
          rw [ht.locked] at hj
          by_cases hji : j = i
          · subst hji; omega
          · simp only [hji, if_false] at hj
            have := hh.le j hj; omega
        · intro j hj
          rw [ht.locked] at hj
          by_cases hji : j = i
          · subst hji; exact Or.inl (by simp)
          · simp only [hji, if_false] at hj
            rcases hh.mine j hj with h | h
            · exact Or.inl (by simp [h])
            · exact Or.inr (by omega)
      refine (ihp _ s1 hh1).bind ?_
      intro s2 h2
      refine (ihr body (i :: held) s2 (by rw [h2.tpl, t1]; exact okb) (hh1.same h2)).bind ?_
      intro s3 h3
      refine (coreDrop_ok ihp hh ht t1 hle (h2.trans h3)).bind ?_
      intro s4 h4
      refine (ihr rest held s4 (by rw [h4.tpl]; exact okr) (hh.same h4)).mono ?_ (fun _ h => h)
      intro s5 h5
      exact h0.trans (h4.trans h5)
    refine ⟨?_, ?_, ?_⟩
    · intro held s hh
      unfold exec
      have hh' : Held lvl held { s with polls := s.polls + 1 } := ⟨hh.inv, hh.bs, hh.le, hh.mine⟩
      refine (ihn (env s.polls) held _ (he s.polls) hh').mono ?_ (fun _ h => h)
      intro s' h; exact ⟨h.tpl, h.locked, h.guards, h.bs⟩
    · intro l held s hl hh
      cases l with
      | nil => unfold exec; exact Same.refl s
      | cons x l =>
        obtain ⟨t, p⟩ := x
        unfold exec
        split
        · rename_i ht
          have okp : Ok lvl t [] p := hl (t, p) (by simp)
          refine (ihr p [] { s with tpl := t } okp (hh.nest ht.1)).bind ?_
          intro s1 h1
          have hs1 : Same s { s1 with tpl := s.tpl } := ⟨rfl, h1.locked, h1.guards, h1.bs⟩
          refine (ihn l held _ (fun x hx => hl x (by simp [hx])) (hh.same hs1)).mono ?_ (fun _ h => h)
          intro s2 h2
          exact hs1.trans h2
        · exact ihn l held s (fun x hx => hl x (by simp [hx])) hh
    · intro p held s ok hh
      cases p with
      | done => unfold exec; exact Same.refl s
      | lock i body rest =>
        obtain ⟨o1, o2, o3, o4, o5⟩ := ok
        unfold exec
        refine (ihp held s hh).bind ?_
        intro s1 h1
        have hh1 := hh.same h1
        rw [← h1.tpl] at o1 o5
        refine (coreTry_ok ihp hh1 o1 o2).bind ?_
        rintro ⟨g, s2⟩ hg
        cases g with
        | none =>
          exfalso
          rcases hh1.mine i hg.2 with h | h
          · exact o3 h
          · omega
        | some rel =>
          obtain ⟨ht, hrel, htpl⟩ := hg
          subst hrel
          exact hbody held i body rest s s1 s2 h1 hh1 ht htpl o1 o4 o5
      | tryLock i body els rest =>
        obtain ⟨o1, o2, o3, o4, o5⟩ := ok
        unfold exec
        refine (ihp held s hh).bind ?_
        intro s1 h1
        have hh1 := hh.same h1
        rw [← h1.tpl] at o1 o4 o5
        refine (coreTry_ok ihp hh1 o1 o2).bind ?_
        rintro ⟨g, s2⟩ hg
        cases g with
        | none =>
          have h2 : Same s1 s2 := hg.1
          have hh2 := hh1.same h2
          refine (ihr els held s2 (by rw [h2.tpl]; exact o4) hh2).bind ?_
          intro s3 h3
          refine (ihr rest held s3 (by rw [h3.tpl, h2.tpl]; exact o5) (hh2.same h3)).mono ?_ (fun _ h => h)
          intro s4 h4
          exact h1.trans (h2.trans (h3.trans h4))
        | some rel =>
          obtain ⟨ht, hrel, htpl⟩ := hg
          subst hrel
          exact hbody held i body rest s s1 s2 h1 hh1 ht htpl o1 o3 o5
      | raise t body rest =>
        obtain ⟨o1, o2, o3, o4⟩ := ok
        unfold exec
        refine (ihp held s hh).bind ?_
        intro s1 h1
        have hh1 := hh.same h1
        rw [← h1.tpl] at o1 o4
        rw [raise_ok o1 o2]
        have hu := hh1.up o1
        refine (ihp held _ hu).bind ?_
        intro s3 h3
        have hh3 := hu.same h3
        refine (ihr body held s3 (by rw [h3.tpl]; exact o3) hh3).bind ?_
        intro s4 h4
        have h34 := h3.trans h4
        have hback : Same s1 { s4 with tpl := s1.tpl } := ⟨rfl, h34.locked, h34.guards, h34.bs⟩
        refine (restore_ok ihp (by rw [h34.tpl]; exact o1) (hh1.same hback)).bind ?_
        intro s5 h5
        have h15 : Same s1 s5 := hback.trans h5
        refine (ihr rest held s5 (by rw [h15.tpl]; exact o4) (hh1.same h15)).mono ?_ (fun _ h => h)
        intro s6 h6
        exact h1.trans (h15.trans h6)
      | initBs rest =>
        unfold exec
        have hs : Same s { s with bs := true } := ⟨rfl, rfl, rfl, fun _ => rfl⟩
        refine (ihr rest held { s with bs := true } ok (hh.same hs)).mono ?_ (fun _ h => h)
        intro s' h; exact hs.trans h

end Verif.Mutex
