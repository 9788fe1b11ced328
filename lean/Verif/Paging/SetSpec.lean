import Verif.Paging.Loop
import Verif.Paging.Wide
namespace Verif.Paging
open Verif.Gcd

variable {ns : Nat}

theorem mappingFor_ok {attrs a : Nat} (h : mappingFor attrs = some a) : a.testBit 13 = false := by
  unfold mappingFor at h
  split at h
  · cases h
  · rename_i hb
    injection h with h
    rw [← h, testBit_mask _ _ (by decide)]
    simpa using hb

theorem tableOk_becomes {m m' : Mem} {t t' : Table} {base len attrs : Nat} (h : TableOk m) (ht : m.table = some t)
    (ht' : m'.table = some t') (hb : t.Becomes t' base len (mappingFor attrs)) : TableOk m' := by
  intro x p a hx hp
  rw [ht'] at hx; injection hx with hx; subst hx
  rw [hb p] at hp
  split at hp
  · exact mappingFor_ok hp
  · exact h t p a ht hp

theorem tableOk_same {m m' : Mem} (h : TableOk m) (e : m'.table = m.table) : TableOk m' := by
  intro t p a ht hp
  rw [e] at ht
  exact h t p a ht hp

/-- What holds after a round that sets attributes somewhere in `[lo, hi)`, refused or not. -/
structure Onward (ns attrs lo hi : Nat) (m m' : Mem) : Prop where
  later : Later ns m.gcd m'.gcd
  table : TableOk m'
  dflt : m'.dflt = m.dflt
  refusals : m.refusals ≤ m'.refusals
  pages : ∀ t', m'.table = some t' → ∃ t, m.table = some t ∧ ∀ p, t' p = t p ∨
    (t' p = mappingFor attrs ∧ lo ≤ p * 4096 ∧ p * 4096 + 4096 ≤ hi)

theorem Onward.same {attrs lo hi : Nat} {m m' : Mem} (h1 : Later ns m.gcd m'.gcd) (h2 : TableOk m) (h3 : m'.dflt = m.dflt)
    (h4 : m.refusals ≤ m'.refusals) (h5 : m'.table = m.table) : Onward ns attrs lo hi m m' :=
  ⟨h1, tableOk_same h2 h5, h3, h4, fun t' ht' => ⟨t', by rw [← h5]; exact ht', fun _ => Or.inl rfl⟩⟩

theorem Onward.trans {attrs lo hi : Nat} {m m1 m2 : Mem} (h1 : Onward ns attrs lo hi m m1) (h2 : Onward ns attrs lo hi m1 m2) :
    Onward ns attrs lo hi m m2 :=
  ⟨h1.later.trans h2.later, h2.table, h2.dflt.trans h1.dflt, Nat.le_trans h1.refusals h2.refusals, fun t2 e2 => by
    obtain ⟨t1, e1, k1⟩ := h2.pages t2 e2
    obtain ⟨t, e, k⟩ := h1.pages t1 e1
    refine ⟨t, e, fun p => ?_⟩
    rcases k1 p with h | h
    · rw [h]; exact k p
    · exact Or.inr h⟩

theorem Onward.mono {attrs lo hi lo' hi' : Nat} {m m' : Mem} (h : Onward ns attrs lo hi m m') (h1 : lo' ≤ lo) (h2 : hi ≤ hi') :
    Onward ns attrs lo' hi' m m' :=
  ⟨h.later, h.table, h.dflt, h.refusals, fun t' ht' => by
    obtain ⟨t, e, k⟩ := h.pages t' ht'
    refine ⟨t, e, fun p => ?_⟩
    rcases k p with k | ⟨k1, k2, k3⟩
    · exact Or.inl k
    · exact Or.inr ⟨k1, by omega, by omega⟩⟩

theorem setTable_onward {dbg : Bool} {f : Faults} {m m' : Mem} {r : Outcome EfiError Unit} {old base len attrs : Nat} (hr : Reachable ns m.gcd)
    (hto : TableOk m) (hb : base < W) (hl : len < W) (ho : old < W) (h : m.setTable dbg f old base len attrs = (r, m')) (hp : r ≠ .panic) :
    Onward ns attrs base (base + len) m m' := by
  unfold Mem.setTable at h
  by_cases h0 : attrs &&& PT_MASK = 0
  · rw [if_pos h0] at h
    injection h with _ h; subst h
    exact .same (.refl hr) hto rfl (Nat.le_refl _) rfl
  rw [if_neg h0] at h
  cases ht : m.table with
  | none =>
    have : m.setPaging dbg f base len attrs = (.err .notReady, m) := by unfold Mem.setPaging; rw [ht]
    rw [this] at h
    injection h with _ h; subst h
    exact .same (.refl hr) hto rfl (Nat.le_refl _) rfl
  | some t =>
    have hs := setPaging_spec (dbg := dbg) (f := f) (base := base) (len := len) (attrs := attrs) hr ht hto
    generalize m.setPaging dbg f base len attrs = x at hs h
    cases hs with
    | done m1 t' k0 k1 k2 k3 k4 hq _ _ =>
      injection h with _ h; subst h
      refine ⟨hq.later, tableOk_becomes hto ht k1 k2, k3, Nat.le_of_eq k4.symm, fun x hx => ⟨t, ht, fun p => ?_⟩⟩
      rw [k1] at hx; injection hx with hx; subst hx
      have := k2 p
      split at this
      · rename_i hin
        refine Or.inr ⟨this, ?_⟩
        obtain ⟨r1, r2, _⟩ := rangeOk_iff.1 k0
        unfold InPages at hin
        omega
      · exact Or.inl this
    | failed e m1 k1 k2 k3 k4 hq _ =>
      have hh : (dbgFail dbg (.err e), m1.setGcd base len old) = (r, m') := by
        cases e <;> first | exact h | exact absurd rfl k1
      injection hh with _ hh
      obtain ⟨x1, x2, x3, x4, _⟩ := setGcd_later (ns := ns) (m := m1) (attrs := old) hq.later.reach hb hl ho
      rw [hh] at x1 x2 x3 x4
      exact .same (hq.later.trans x1) hto (x3.trans k3) (by omega) (x2.trans k2)
    | panic m1 =>
      injection h with h _
      exact absurd h.symm hp

theorem setPiece_onward {dbg : Bool} {f : Faults} {m m' : Mem} {r : Outcome EfiError Unit} {old base len attrs : Nat} (hr : Reachable ns m.gcd)
    (hto : TableOk m) (hb : base < W) (hl : len < W) (ha : attrs < W) (ho : old < W) (h : m.setPiece dbg f old base len attrs = (r, m'))
    (hp : r ≠ .panic) : Onward ns attrs base (base + len) m m' := by
  unfold Mem.setPiece at h
  split at h
  · injection h with h _; exact absurd h.symm hp
  · obtain ⟨x1, x2, x3, x4, _⟩ := setGcd_later (ns := ns) (m := m) (attrs := attrs) hr hb hl ha
    have y := setTable_onward (ns := ns) x1.reach (tableOk_same hto x2) hb hl ho h hp
    exact Onward.trans (.same x1 hto x3 x4 x2) y

/-- The piece of the range the loop takes next. -/
theorem piece {g : Gcd} (hr : Reachable ns g) (hne : g.blocks ≠ []) {cur stop : Nat} (h1 : cur < stop) (h2 : stop ≤ g.max) :
    ∃ d n, g.descriptorFor cur = .ok d ∧ min (addw d.base d.len) stop = cur + n ∧ subw (cur + n) cur = n ∧ n < W ∧ cur < W ∧ cur + n ≤ stop ∧
      d.st.attrs < W ∧ Uniform g.blocks cur n d.st := by
  obtain ⟨d, e, hm, b1, b2, b3⟩ := descriptor_contains hr hne (a := cur) (by omega)
  have hg := good_of hr hne
  have hb := tiles_mem hg.tiles hm
  have hW := (reachable_inv hr).inv.ltW
  have haw : addw d.base d.len = d.base + d.len := by
    unfold addw; exact Nat.mod_eq_of_lt (by omega)
  refine ⟨d, min (d.base + d.len) stop - cur, e, by rw [haw]; omega, ?_, by omega, by omega, by omega, reachable_wide hr _ _ b3, by omega, fun a x1 x2 => ?_⟩
  · unfold subw
    rw [show cur + (min (d.base + d.len) stop - cur) + W - cur = (min (d.base + d.len) stop - cur) + W by omega, Nat.add_mod_right]
    exact Nat.mod_eq_of_lt (by omega)
  · exact cellAt_mem hg.tiles hm (by omega) (by omega)

theorem setLoop_onward {dbg : Bool} {f : Faults} {attrs lo stop : Nat} (ha : attrs < W) {n : Nat} : ∀ {m m' : Mem} {cur : Nat}
    {res r : Outcome EfiError Unit}, Reachable ns m.gcd → m.gcd.blocks ≠ [] → TableOk m → stop ≤ m.gcd.max → lo ≤ cur →
    Mem.setLoop dbg f attrs stop n m cur res = some (r, m') → r ≠ .panic → Onward ns attrs lo stop m m' := by
  induction n with
  | zero => intro m m' cur res r _ _ _ _ _ h; cases h
  | succ n ih =>
    intro m m' cur res r hr hne hto hmax hlo h hp
    unfold Mem.setLoop at h
    by_cases hc : cur < stop
    · rw [if_pos hc] at h
      obtain ⟨d, k, e, e1, e2, hk, hcur, hle, hw, hu⟩ := piece hr hne hc hmax
      rw [e] at h
      dsimp only at h
      rw [e1, e2] at h
      have hstep : ∀ r1 m1, m.setPiece dbg f d.st.attrs cur k attrs = (r1, m1) → r1 ≠ .panic → Onward ns attrs lo stop m m1 := fun r1 m1 hx hp =>
        (setPiece_onward hr hto hcur hk ha hw hx hp).mono hlo hle
      rcases hx : m.setPiece dbg f d.st.attrs cur k attrs with ⟨r1, m1⟩
      rw [hx] at h
      cases r1 with
      | ok u =>
        have o1 := hstep _ _ hx (by simp)
        exact o1.trans (ih o1.later.reach (o1.later.some hne) o1.table (by rw [o1.later.max]; exact hmax) (by omega) h hp)
      | panic =>
        injection h with h; injection h with h _
        exact absurd h.symm hp
      | err er =>
        have o1 := hstep _ _ hx (by simp)
        by_cases hnr : er = .notReady
        · subst hnr
          exact o1.trans (ih o1.later.reach (o1.later.some hne) o1.table (by rw [o1.later.max]; exact hmax) (by omega) h hp)
        · have : some (Outcome.err er, m1) = some (r, m') := by
            cases er <;> first | exact h | exact absurd rfl hnr
          injection this with this; injection this with _ this
          subst this; exact o1
    · rw [if_neg hc] at h
      injection h with h; injection h with _ h
      subst h
      exact .same (.refl hr) hto rfl (Nat.le_refl _) rfl

theorem setLoop_spec {dbg : Bool} {f : Faults} {attrs stop base : Nat} (ha : attrs < W) {m0 : Mem} (h0 : Reachable ns m0.gcd)
    (hmax0 : stop ≤ m0.gcd.max) {n : Nat} : ∀ {m m' : Mem} {cur : Nat} {res r : Outcome EfiError Unit}, Part ns m0 m attrs base cur →
    TableOk m → cur ≤ stop → (res = .ok () ∨ (res = .err .notReady ∧ m0.table = none)) →
    Mem.setLoop dbg f attrs stop n m cur res = some (r, m') → r ≠ .panic → m'.refusals = m0.refusals →
    ((r = .ok () ∨ (r = .err .notReady ∧ m0.table = none)) ∧ Part ns m0 m' attrs base stop) ∨
    (∃ e, e ≠ .notReady ∧ r = .err e ∧ ∃ upto, upto ≤ stop ∧ Part ns m0 m' attrs base upto) := by
  induction n with
  | zero => intro m m' cur res r _ _ _ _ h; cases h
  | succ n ih =>
    intro m m' cur res r hpart hto hcs hres h hp href
    unfold Mem.setLoop at h
    have hr := hpart.later.reach
    have hne := hpart.later.some hpart.ne
    have hmax : stop ≤ m.gcd.max := by rw [hpart.later.max]; exact hmax0
    by_cases hc : cur < stop
    · rw [if_pos hc] at h
      obtain ⟨d, k, e, e1, e2, hk, hcur, hle, hw, hu⟩ := piece hr hne hc hmax
      rw [e] at h
      dsimp only at h
      rw [e1, e2] at h
      rcases hx : m.setPiece dbg f d.st.attrs cur k attrs with ⟨r1, m1⟩
      rw [hx] at h
      -- the rest of the loop does not take refusals back
      have hm1 : r1 ≠ .panic → m1.refusals ≤ m0.refusals → m1.refusals = m.refusals := fun hr1 hle1 => by
        have o1 := (setPiece_onward hr hto hcur hk ha hw hx hr1).refusals
        have := hpart.refusals
        omega
      have cont : r1 ≠ .panic → ∀ res', (res' = .ok () ∨ (res' = .err .notReady ∧ m0.table = none)) →
          (r1 = .ok () ∨ r1 = .err .notReady) →
          Mem.setLoop dbg f attrs stop n m1 (cur + k) res' = some (r, m') →
          ((r = .ok () ∨ (r = .err .notReady ∧ m0.table = none)) ∧ Part ns m0 m' attrs base stop) ∨
          (∃ e, e ≠ .notReady ∧ r = .err e ∧ ∃ upto, upto ≤ stop ∧ Part ns m0 m' attrs base upto) := by
        intro hr1 res' hres' hk1 hl1
        have o1 := setPiece_onward hr hto hcur hk ha hw hx hr1
        have o2 := setLoop_onward ha o1.later.reach (o1.later.some hne) o1.table (by rw [o1.later.max]; exact hmax) (Nat.le_refl _) hl1 hp
        have hrf := hm1 hr1 (by have := o2.refusals; omega)
        rcases setPiece_spec hr hto hcur hk ha hw hu hx hr1 hrf with ⟨_, hp1⟩ | ⟨e', ne', he', _⟩
        · exact ih (hpart.trans h0 hp1) o1.table hle hres' hl1 hp href
        · exfalso
          rcases hk1 with hk1 | hk1
          · rw [hk1] at he'; cases he'
          · rw [hk1] at he'; injection he' with he'; exact ne' he'.symm
      cases r1 with
      | ok u => exact cont (by simp) res hres (Or.inl rfl) h
      | panic =>
        injection h with h; injection h with h _
        exact absurd h.symm hp
      | err er =>
        by_cases hnr : er = .notReady
        · subst hnr
          have ht : m0.table = none := by
            have o1 := setPiece_onward hr hto hcur hk ha hw hx (by simp)
            have o2 := setLoop_onward ha o1.later.reach (o1.later.some hne) o1.table (by rw [o1.later.max]; exact hmax) (Nat.le_refl _) h hp
            have hrf := hm1 (by simp) (by have := o2.refusals; omega)
            rcases setPiece_spec hr hto hcur hk ha hw hu hx (by simp) hrf with ⟨h | h, _⟩ | ⟨e', ne', he', _⟩
            · cases h
            · cases hx0 : m0.table with
              | none => rfl
              | some t =>
                obtain ⟨t', ht', _⟩ := hpart.table t hx0
                rw [h.2] at ht'; cases ht'
            · injection he' with he'; exact absurd he'.symm ne'
          exact cont (by simp) _ (Or.inr ⟨rfl, ht⟩) (Or.inr rfl) h
        · have this : some (Outcome.err er, m1) = some (r, m') := by
            cases er <;> first | exact h | exact absurd rfl hnr
          injection this with this; injection this with e3 e4
          subst e4
          have hrf := hm1 (by simp) (by omega)
          rcases setPiece_spec hr hto hcur hk ha hw hu hx (by simp) hrf with ⟨h | h, _⟩ | ⟨e', ne', he', hp1⟩
          · cases h
          · injection h.1 with h; exact absurd h hnr
          · right
            exact ⟨er, hnr, e3.symm, cur, by omega, hpart.trans h0 hp1⟩
    · rw [if_neg hc] at h
      injection h with h; injection h with h1 h2
      subst h1; subst h2
      have : cur = stop := by omega
      subst this
      exact Or.inl ⟨hres, hpart⟩

/-- The loop ends: every round takes it further. -/
theorem setLoop_returns {dbg : Bool} {f : Faults} {attrs stop : Nat} (ha : attrs < W) {n : Nat} : ∀ {m : Mem} {cur : Nat}
    {res : Outcome EfiError Unit}, Reachable ns m.gcd → m.gcd.blocks ≠ [] → TableOk m → stop ≤ m.gcd.max → cur ≤ stop → stop < cur + n →
    Mem.setLoop dbg f attrs stop n m cur res ≠ none := by
  induction n with
  | zero =>
    intro m cur res hr hne hto hmax hcs hn
    exact absurd hcs (by omega)
  | succ n ih =>
    intro m cur res hr hne hto hmax hcs hn
    unfold Mem.setLoop
    by_cases hc : cur < stop
    · rw [if_pos hc]
      obtain ⟨d, k, e, e1, e2, hk, hcur, hle, hw, hu⟩ := piece hr hne hc hmax
      rw [e]
      dsimp only
      rw [e1, e2]
      rcases hx : m.setPiece dbg f d.st.attrs cur k attrs with ⟨r1, m1⟩
      have := hu.1
      cases r1 with
      | ok u =>
        have o1 := setPiece_onward hr hto hcur hk ha hw hx (by simp)
        exact ih o1.later.reach (o1.later.some hne) o1.table (by rw [o1.later.max]; exact hmax) (by omega) (by omega)
      | panic => simp
      | err er =>
        have o1 := setPiece_onward hr hto hcur hk ha hw hx (by simp)
        have := ih (res := .err .notReady) (cur := cur + k) o1.later.reach (o1.later.some hne) o1.table (by rw [o1.later.max]; exact hmax) (by omega) (by omega)
        cases er <;> first | exact this | simp
    · rw [if_neg hc]; simp

end Verif.Paging
