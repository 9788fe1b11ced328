import Verif.Paging.TableLemmas
namespace Verif.Paging
open Verif.Gcd

variable {ns : Nat}

/-- The table changed at pages of the range only, to what the attributes ask for; not at all if they ask for nothing. -/
def TableSet (attrs base upto : Nat) (t t' : Table) : Prop :=
  (attrs &&& PT_MASK = 0 → t' = t) ∧
  (attrs &&& PT_MASK ≠ 0 → ∀ p, t' p = if InPages base (upto - base) p then mappingFor attrs else t p)

/-- A page that got another cache type. -/
def Recached (t t' : Table) (p : Nat) : Prop :=
  ∃ a, t' p = some a ∧ a &&& 0x101F ≠ 0 ∧ ∀ b, t p = some b → a &&& 0x101F ≠ b &&& 0x101F

/-- `m` is `m0` with the attributes of `[base, upto)` set, in the memory space and in the page table. -/
structure Part (ns : Nat) (m0 m : Mem) (attrs base upto : Nat) : Prop where
  later : Later ns m0.gcd m.gcd
  ne : m0.gcd.blocks ≠ []
  dflt : m.dflt = m0.dflt
  refusals : m.refusals = m0.refusals
  le : base ≤ upto
  aligned : upto = base ∨ (base % 4096 = 0 ∧ upto % 4096 = 0)
  face : ∀ a c, cellAt m0.gcd.blocks a = some c → ∃ c', cellAt m.gcd.blocks a = some c' ∧ c'.type = c.type ∧ c'.caps = c.caps ∧
    c'.attrs = (if base ≤ a ∧ a < upto then attrs else c.attrs) ∧ (c.allocated = true → c'.allocated = true ∧ c'.image = c.image)
  supported : ∀ a, base ≤ a → a < upto → ∃ c, cellAt m0.gcd.blocks a = some c ∧ c.type ≠ .nonExistent ∧ c.caps ||| attrs = c.caps
  noTable : m0.table = none → m.table = none
  table : ∀ t, m0.table = some t → ∃ t', m.table = some t' ∧ TableSet attrs base upto t t'
  signals : m0.signals ≤ m.signals
  signalled : ∀ t t' p, m0.table = some t → m.table = some t' → Recached t t' p → m0.signals < m.signals

theorem tableSet_nil {attrs base : Nat} {t : Table} : TableSet attrs base base t t :=
  ⟨fun _ => rfl, fun _ p => by rw [if_neg]; rintro ⟨h1, h2⟩; rw [Nat.sub_self] at h2; simp only [Nat.add_zero] at h2; omega⟩

theorem not_recached {t : Table} {p : Nat} : ¬ Recached t t p := by
  rintro ⟨a, h1, _, h3⟩
  exact h3 a h1 rfl

theorem Part.refl {m : Mem} {attrs base : Nat} (hr : Reachable ns m.gcd) (hne : m.gcd.blocks ≠ []) : Part ns m m attrs base base where
  later := .refl hr
  ne := hne
  dflt := rfl
  refusals := rfl
  le := Nat.le_refl _
  aligned := Or.inl rfl
  face := fun a c h => ⟨c, h, rfl, rfl, by rw [if_neg (by omega)], fun h => ⟨h, rfl⟩⟩
  supported := fun a h1 h2 => by omega
  noTable := id
  table := fun t h => ⟨t, h, tableSet_nil⟩
  signals := Nat.le_refl _
  signalled := fun t t' p h h' hc => by
    rw [h] at h'; injection h' with h'; subst h'
    exact absurd hc not_recached

theorem tableSet_trans {attrs base mid upto : Nat} {t t1 t2 : Table} (h1 : TableSet attrs base mid t t1) (h2 : TableSet attrs mid upto t1 t2)
    (hle1 : base ≤ mid) (hle2 : mid ≤ upto) (ha1 : mid = base ∨ (base % 4096 = 0 ∧ mid % 4096 = 0))
    (ha2 : upto = mid ∨ (mid % 4096 = 0 ∧ upto % 4096 = 0)) : TableSet attrs base upto t t2 := by
  refine ⟨fun h0 => (h2.1 h0).trans (h1.1 h0), fun h0 p => ?_⟩
  rw [h2.2 h0 p, h1.2 h0 p]
  have key : ∀ x y, x ≤ y → (InPages x (y - x) p ↔ x / 4096 ≤ p ∧ p < y / 4096) := fun x y h => by
    unfold InPages; rw [show x + (y - x) = y by omega]
  by_cases c2 : InPages mid (upto - mid) p
  · rw [if_pos c2, if_pos]
    rw [key _ _ hle2] at c2
    rw [key _ _ (by omega)]
    omega
  · rw [if_neg c2]
    rw [key _ _ hle2] at c2
    by_cases c1 : InPages base (mid - base) p
    · rw [if_pos c1, if_pos]
      rw [key _ _ hle1] at c1
      rw [key _ _ (by omega)]
      omega
    · rw [if_neg c1, if_neg]
      rw [key _ _ hle1] at c1
      rw [key _ _ (by omega)]
      omega

theorem recached_trans {t t1 t2 : Table} {p : Nat} (h : Recached t t2 p) : Recached t t1 p ∨ Recached t1 t2 p := by
  obtain ⟨a, h1, h2, h3⟩ := h
  by_cases hc : ∀ b, t1 p = some b → a &&& 0x101F ≠ b &&& 0x101F
  · exact Or.inr ⟨a, h1, h2, hc⟩
  · simp only [Classical.not_forall, ne_eq, Classical.not_not] at hc
    obtain ⟨b, hb, e⟩ := hc
    exact Or.inl ⟨b, hb, by rw [← e]; exact h2, fun x hx => by rw [← e]; exact h3 x hx⟩

theorem Part.trans {m0 m1 m2 : Mem} {attrs base mid upto : Nat} (h0 : Reachable ns m0.gcd) (h1 : Part ns m0 m1 attrs base mid) (h2 : Part ns m1 m2 attrs mid upto) :
    Part ns m0 m2 attrs base upto where
  later := h1.later.trans h2.later
  ne := h1.ne
  dflt := h2.dflt.trans h1.dflt
  refusals := h2.refusals.trans h1.refusals
  le := Nat.le_trans h1.le h2.le
  aligned := by
    have a1 := h1.aligned; have a2 := h2.aligned
    omega
  face := fun a c h => by
    obtain ⟨c1, e1, t1, k1, s1, l1⟩ := h1.face a c h
    obtain ⟨c2, e2, t2, k2, s2, l2⟩ := h2.face a c1 e1
    refine ⟨c2, e2, t2.trans t1, k2.trans k1, ?_, fun ha => ?_⟩
    · have le1 := h1.le; have le2 := h2.le
      rw [s2, s1]
      by_cases c2 : mid ≤ a ∧ a < upto
      · rw [if_pos c2, if_pos (by omega)]
      · rw [if_neg c2]
        by_cases c1 : base ≤ a ∧ a < mid
        · rw [if_pos c1, if_pos (by omega)]
        · rw [if_neg c1, if_neg (by omega)]
    · have := l1 ha
      have l3 := l2 this.1
      exact ⟨l3.1, l3.2.trans this.2⟩
  supported := fun a hb hu => by
    by_cases hm : a < mid
    · exact h1.supported a hb hm
    · obtain ⟨c, hc, x1, x2⟩ := h2.supported a (by omega) hu
      -- the address was there before
      have hg0 := good_of (ns := ns) (h0) h1.ne
      have hlt : a < m0.gcd.max := by
        have hg1 := good_of h1.later.reach (ne_of_cell hc)
        have := (cellAt_bounds hg1.tiles hc).2
        rw [h1.later.max] at this; exact this
      obtain ⟨b, _, _, _, hb0⟩ := cellAt_some hg0.tiles (Nat.zero_le a) hlt
      obtain ⟨c1, e1, y1, y2, _⟩ := h1.face a b.st hb0
      rw [hc] at e1; injection e1 with e1; subst e1
      exact ⟨b.st, hb0, by rw [← y1]; exact x1, by rw [← y2]; exact x2⟩
  noTable := fun h => h2.noTable (h1.noTable h)
  table := fun t h => by
    obtain ⟨t1, e1, s1⟩ := h1.table t h
    obtain ⟨t2, e2, s2⟩ := h2.table t1 e1
    exact ⟨t2, e2, tableSet_trans s1 s2 h1.le h2.le h1.aligned h2.aligned⟩
  signals := Nat.le_trans h1.signals h2.signals
  signalled := fun t t2 p h h' hc => by
    obtain ⟨t1, e1, _⟩ := h1.table t h
    have le1 := h1.signals; have le2 := h2.signals
    rcases recached_trans (t1 := t1) hc with c | c
    · have := h1.signalled t t1 p h e1 c; omega
    · have := h2.signalled t1 t2 p e1 h' c; omega

/-! ### One piece -/

theorem face_updated {g g1 g2 : Gcd} {base len attrs : Nat} {c : Cell} (hu : Uniform g.blocks base len c)
    (hup : Updated g.blocks g1.blocks base len { c with attrs := attrs }) (hq : Quiet ns g1 g2) (a : Nat) (x : Cell)
    (hx : cellAt g.blocks a = some x) : ∃ c', cellAt g2.blocks a = some c' ∧ c'.type = x.type ∧ c'.caps = x.caps ∧
      c'.attrs = (if base ≤ a ∧ a < base + len then attrs else x.attrs) ∧
      (x.allocated = true → c'.allocated = true ∧ c'.image = x.image) := by
  by_cases ha : base ≤ a ∧ a < base + len
  · have h1 := hu.2 a ha.1 ha.2
    rw [hx] at h1; injection h1 with h1; subst h1
    have h2 := hup a
    rw [if_pos ha] at h2
    obtain ⟨c', e, ⟨f1, f2, f3⟩, f4⟩ := hq.face a _ h2
    refine ⟨c', e, f1, f2, ?_, fun hal => ?_⟩
    · rw [if_pos ha]; exact f3
    · rw [f4 hal]; exact ⟨hal, rfl⟩
  · have h2 := hup a
    rw [if_neg ha, hx] at h2
    obtain ⟨c', e, ⟨f1, f2, f3⟩, f4⟩ := hq.face a _ h2
    refine ⟨c', e, f1, f2, ?_, fun hal => ?_⟩
    · rw [if_neg ha]; exact f3
    · rw [f4 hal]; exact ⟨hal, rfl⟩

theorem tableSet_one {attrs base len : Nat} {t t' : Table} (h0 : attrs &&& PT_MASK ≠ 0) (h : t.Becomes t' base len (mappingFor attrs)) :
    TableSet attrs base (base + len) t t' := by
  refine ⟨fun e => absurd e h0, fun _ p => ?_⟩
  rw [Nat.add_sub_cancel_left]
  exact h p

theorem setTable_le {dbg : Bool} {f : Faults} {m : Mem} {old base len attrs : Nat} (hr : Reachable ns m.gcd) (hto : TableOk m)
    (hb : base < W) (hl : len < W) (ho : old < W) :
    m.refusals ≤ (m.setTable dbg f old base len attrs).2.refusals ∨ (m.setTable dbg f old base len attrs).1 = .panic := by
  unfold Mem.setTable
  by_cases h0 : attrs &&& PT_MASK = 0
  · rw [if_pos h0]; exact Or.inl (Nat.le_refl _)
  rw [if_neg h0]
  cases ht : m.table with
  | none =>
    have : m.setPaging dbg f base len attrs = (.err .notReady, m) := by unfold Mem.setPaging; rw [ht]
    rw [this]; exact Or.inl (Nat.le_refl _)
  | some t =>
    have := setPaging_spec (dbg := dbg) (f := f) (base := base) (len := len) (attrs := attrs) hr ht hto
    generalize m.setPaging dbg f base len attrs = x at this
    cases this with
    | done m' t' _ _ _ _ h5 _ _ _ => exact Or.inl (Nat.le_of_eq h5.symm)
    | failed e m' h1 _ _ h5 hq _ =>
      left
      have hk : ((match e with
        | EfiError.notReady => ((Outcome.err EfiError.notReady : Outcome EfiError Unit), m')
        | e => (dbgFail dbg (.err e), m'.setGcd base len old))).2 = m'.setGcd base len old := by
        cases e <;> first | rfl | exact absurd rfl h1
      show m.refusals ≤ _
      have := (setGcd_later (ns := ns) (m := m') (attrs := old) hq.later.reach hb hl ho).2.2.2.1
      rw [← h5]
      cases e <;> first | exact this | exact absurd rfl h1
    | panic m' => exact Or.inr rfl

/-- One round: the attributes of the piece are set in both places, or in neither; unless the memory space refuses, which is
counted. -/
theorem setPiece_spec {dbg : Bool} {f : Faults} {m m' : Mem} {r : Outcome EfiError Unit} {base len attrs : Nat} {c : Cell}
    (hr : Reachable ns m.gcd) (hto : TableOk m) (hb : base < W) (hl : len < W) (ha : attrs < W) (hc : c.attrs < W)
    (hu : Uniform m.gcd.blocks base len c) (h : m.setPiece dbg f c.attrs base len attrs = (r, m')) (hp : r ≠ .panic)
    (href : m'.refusals = m.refusals) :
    ((r = .ok () ∨ (r = .err .notReady ∧ m.table = none)) ∧ Part ns m m' attrs base (base + len)) ∨
    (∃ e, e ≠ .notReady ∧ r = .err e ∧ Part ns m m' attrs base base) := by
  have hne := ne_of_uniform hu
  unfold Mem.setPiece at h
  split at h
  · injection h with h1 h2; exact absurd h1.symm hp
  · rcases setGcd_cases (m := m) (attrs := attrs) hr hb hl ha with ⟨g1, e1, lt1, sz1, al1, al2, x, hx, x1, x2, x3⟩ | e1
    · have hxc := uniform_unique hx hu
      subst hxc
      rw [e1] at h
      have face0 := fun g2 hq a y hy => face_updated (ns := ns) (g2 := g2) hu x3 hq a y hy
      have supp : ∀ a, base ≤ a → a < base + len → ∃ c, cellAt m.gcd.blocks a = some c ∧ c.type ≠ .nonExistent ∧ c.caps ||| attrs = c.caps :=
        fun a k1 k2 => ⟨x, hu.2 a k1 k2, x1, x2⟩
      unfold Mem.setTable at h
      by_cases h0 : attrs &&& PT_MASK = 0
      · rw [if_pos h0] at h
        injection h with h1 h2
        subst h1; subst h2
        refine Or.inl ⟨Or.inl rfl, lt1, hne, rfl, rfl, by omega, Or.inr ⟨al1, by omega⟩, face0 g1 (.refl lt1.reach), supp, id,
          fun t ht => ⟨t, ht, fun _ => rfl, fun e => absurd h0 e⟩, Nat.le_refl _, fun t t' p k1 k2 k3 => ?_⟩
        have k2 : m.table = some t' := k2
        rw [k1] at k2; injection k2 with k2; subst k2
        exact absurd k3 not_recached
      · rw [if_neg h0] at h
        cases ht : m.table with
        | none =>
          have : (Mem.setPaging dbg f { m with gcd := g1 } base len attrs) = (.err .notReady, { m with gcd := g1 }) := by
            unfold Mem.setPaging; rw [show ({ m with gcd := g1 } : Mem).table = none from ht]
          rw [this] at h
          injection h with h1 h2
          subst h1; subst h2
          refine Or.inl ⟨Or.inr ⟨rfl, by first | exact ht | rfl⟩, lt1, hne, rfl, rfl, by omega, Or.inr ⟨al1, by omega⟩, face0 g1 (.refl lt1.reach), supp, id,
            (fun t h => by rw [ht] at h; cases h), Nat.le_refl _, (fun t t' p k1 => by rw [ht] at k1; cases k1)⟩
        | some t =>
          have hs := setPaging_spec (ns := ns) (dbg := dbg) (f := f) (m := { m with gcd := g1 }) (base := base) (len := len) (attrs := attrs)
            lt1.reach ht hto
          generalize Mem.setPaging dbg f { m with gcd := g1 } base len attrs = y at hs h
          cases hs with
          | done m2 t2 k1 k2 k3 k4 k5 k6 k7 k8 =>
            injection h with h1 h2
            subst h1; subst h2
            refine Or.inl ⟨Or.inl rfl, lt1.trans k6.later, hne, k4, k5, by omega, Or.inr ⟨al1, by omega⟩, face0 _ k6, supp,
              (fun h => by rw [ht] at h; cases h), fun t' h => ?_, k7, fun t0 t0' p j1 j2 j3 => ?_⟩
            · rw [ht] at h; injection h with h; subst h
              exact ⟨t2, k2, tableSet_one h0 k3⟩
            · rw [ht] at j1; injection j1 with j1; subst j1
              rw [k2] at j2; injection j2 with j2; subst j2
              obtain ⟨a, q1, q2, q3⟩ := j3
              have := k3 p
              by_cases hin : InPages base len p
              · rw [if_pos hin, q1] at this
                exact k8 p a hin this.symm q2 q3
              · rw [if_neg hin, q1] at this
                exact absurd rfl (q3 a this.symm)
          | failed e m2 k1 k2 k3 k4 k5 k6 =>
            have hh : (dbgFail dbg (.err e), m2.setGcd base len x.attrs) = (r, m') := by
              cases e <;> first | exact h | exact absurd rfl k1
            injection hh with h1 h2
            have hre : r = .err e := by
              unfold dbgFail at h1
              split at h1
              · exact absurd h1.symm hp
              · exact h1.symm
            right
            refine ⟨e, k1, hre, ?_⟩
            rcases setGcd_cases (m := m2) (base := base) (len := len) (attrs := x.attrs) k5.later.reach hb hl hc with
              ⟨g3, e3, lt3, sz3, _, _, z, hz, z1, z2, z3⟩ | e3
            · rw [e3] at h2
              subst h2
              refine ⟨(lt1.trans k5.later).trans lt3, hne, k3, k4, Nat.le_refl _, Or.inl rfl, fun a y hy => ?_, fun a _ _ => by omega,
                (fun h => by rw [ht] at h; cases h), fun t' h => ?_, Nat.le_of_eq k6.symm, fun t0 t0' p j1 j2 j3 => ?_⟩
              · obtain ⟨c1, f0, f1, f2, f3, f4⟩ := face0 _ k5 a y hy
                have z3a := z3 a
                rw [if_neg (by omega)]
                by_cases hin : base ≤ a ∧ a < base + len
                · have hz0 := hz.2 a hin.1 hin.2
                  rw [f0] at hz0; injection hz0 with hz0; subst hz0
                  have hy0 := hu.2 a hin.1 hin.2
                  rw [hy] at hy0; injection hy0 with hy0; subst hy0
                  rw [if_pos hin] at z3a
                  exact ⟨_, z3a, f1, f2, rfl, f4⟩
                · rw [if_neg hin, f0] at z3a
                  rw [if_neg hin] at f3
                  exact ⟨c1, z3a, f1, f2, f3, f4⟩
              · exact ⟨t', by show m2.table = _; rw [k2]; exact h, tableSet_nil⟩
              · have e1 : m2.table = some t0' := j2
                rw [k2] at e1
                have e2 : m.table = some t0' := e1
                rw [j1] at e2; injection e2 with e2; subst e2
                exact absurd j3 not_recached
            · rw [e3] at h2
              subst h2
              exfalso
              have : m2.refusals + 1 = m.refusals := href
              have k4 : m2.refusals = m.refusals := k4
              omega
          | panic m2 =>
            injection h with h1 h2
            exact absurd h1.symm hp
    · exfalso
      rw [e1] at h
      have := setTable_le (ns := ns) (dbg := dbg) (f := f) (m := { m with refusals := m.refusals + 1 }) (old := c.attrs) (base := base)
        (len := len) (attrs := attrs) hr hto hb hl hc
      rw [h] at this
      rcases this with this | this
      · have this : m.refusals + 1 ≤ m'.refusals := this
        omega
      · exact hp this

end Verif.Paging
