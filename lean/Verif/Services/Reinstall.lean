import Verif.Services.Props
/-!
C76: reinstalling protocol interfaces.
-/
namespace Verif.Services
open Verif.Protocol

variable {α : Type}

/-! ### Installing -/

theorem signalAll_made {w : World α} (hw : Honest w) (quiet : Bool) : ∀ (l : List Nat) (s : St α), Made w.hash w.lim s.db →
    Made w.hash w.lim (signalAll w quiet s l).2.db := by
  intro l
  induction l with
  | nil => intro s h; exact h
  | cons e l ih =>
    intro s h
    unfold signalAll
    refine ih _ ?_
    cases quiet with
    | true => exact h
    | false => exact hw.signal s e h

theorem signalAll_quiet (w : World α) : ∀ (l : List Nat) (s : St α), (signalAll w true s l).2.db = s.db := by
  intro l
  induction l with
  | nil => intro s; rfl
  | cons e l ih => intro s; unfold signalAll; exact ih _

theorem signalAll_lookup {w : World α} (hk : Keeps w) (quiet : Bool) (h g : Nat) : ∀ (l : List Nat) (s : St α),
    lookup (signalAll w quiet s l).2.db h g = lookup s.db h g := by
  intro l
  induction l with
  | nil => intro s; rfl
  | cons e l ih =>
    intro s
    unfold signalAll
    refine (ih _).trans ?_
    cases quiet with
    | true => rfl
    | false => exact hk.signal s e h g

theorem signalAll_users {w : World α} {h g : Nat} (hk : ∀ s e, users (w.signal s e).2.db h g = users s.db h g) (quiet : Bool) : ∀ (l : List Nat) (s : St α),
    users (signalAll w quiet s l).2.db h g = users s.db h g := by
  intro l
  induction l with
  | nil => intro s; rfl
  | cons e l ih =>
    intro s
    unfold signalAll
    refine (ih _).trans ?_
    cases quiet with
    | true => rfl
    | false => exact hk s e

/-- A successful installation, with its consequences. -/
theorem coreInstall_ok {w : World α} {quiet : Bool} {s s' : St α} (hm : Made w.hash w.lim s.db) {handle : Option Nat} {g i h : Nat}
    (he : coreInstall w quiet s handle g i = (.ok h, s')) :
    (handle = some h ∧ s.db.valid h = true ∧ lookup s.db h g = none ∨ handle = none ∧ h ≠ 0 ∧ s.db.valid h = false) ∧
    (Honest w → Made w.hash w.lim s'.db) ∧
    (Keeps w → ∀ h' g', lookup s'.db h' g' = if h' = h ∧ g' = g then some i else lookup s.db h' g') ∧
    (∀ h' g', (∀ s e, users (w.signal s e).2.db h' g' = users s.db h' g') →
      users s'.db h' g' = if h' = h ∧ g' = g then [] else users s.db h' g') ∧
    (quiet = true → Made w.hash w.lim s'.db ∧ ∀ h' g', lookup s'.db h' g' = (if h' = h ∧ g' = g then some i else lookup s.db h' g') ∧
      users s'.db h' g' = if h' = h ∧ g' = g then [] else users s.db h' g') := by
  unfold coreInstall at he
  split at he
  · rename_i h0 ns db hi
    simp only [Prod.mk.injEq, Outcome.ok.injEq] at he
    obtain ⟨rfl, rfl⟩ := he
    have h1 : (s.db.install w.hash w.lim handle g i).1 = .ok (h0, ns) := by rw [hi]
    have h2 : (s.db.install w.hash w.lim handle g i).2 = db := by rw [hi]
    have heff := install_effect hm.reachable h1
    rw [h2] at heff
    have hmd : Made w.hash w.lim db := by rw [← h2]; exact hm.step (.install handle g i)
    refine ⟨?_, fun hw => ?_, fun hk h' g' => ?_, fun h' g' hk => ?_, fun hq => ⟨?_, fun h' g' => ?_⟩⟩
    · rcases install_returns hm.reachable h1 with e | ⟨e1, e2, e3⟩
      · subst e
        have := install_existing (db := s.db) w.hash w.lim h0 g i
        by_cases hc : s.db.valid h0 = true ∧ lookup s.db h0 g = none
        · exact Or.inl ⟨rfl, hc⟩
        · rw [if_neg hc, h1] at this; cases this
      · exact Or.inr ⟨e1, e3, e2⟩
    · exact unregister_all_made (signalAll_made hw quiet _ _ hmd) _
    · simp only
      rw [unregister_all_lookup, signalAll_lookup hk]
      exact (heff h' g').1
    · simp only
      rw [unregister_all_users, signalAll_users hk]
      exact (heff h' g').2
    · subst hq
      refine unregister_all_made ?_ _
      rw [signalAll_quiet]
      exact hmd
    · subst hq
      simp only
      rw [unregister_all_lookup, unregister_all_users, signalAll_quiet]
      exact heff h' g'
  · cases he
  · cases he

/-- An installation that fails has no effect. -/
theorem coreInstall_fail {w : World α} {quiet : Bool} {s s' : St α} (hm : Made w.hash w.lim s.db) {handle : Option Nat} {g i : Nat} {r : Outcome Err Nat}
    (he : coreInstall w quiet s handle g i = (r, s')) (hr : ∀ h, r ≠ .ok h) :
    s' = s ∧ (∀ h, handle = some h → r = .err .invalidParameter ∧ ¬ (s.db.valid h = true ∧ lookup s.db h g = none)) ∧ (handle = none → r = .panic) := by
  have hfail : (∀ x, (s.db.install w.hash w.lim handle g i).1 ≠ .ok x) → (s.db.install w.hash w.lim handle g i).2 = s.db := install_failure hm.reachable
  unfold coreInstall at he
  split at he
  · simp only [Prod.mk.injEq] at he
    exact absurd he.1.symm (hr _)
  · rename_i e db hi
    rw [hi] at hfail
    have hdb : db = s.db := hfail (fun x => by simp)
    simp only [Prod.mk.injEq] at he
    obtain ⟨rfl, rfl⟩ := he
    refine ⟨by rw [hdb], fun h hh => ?_, fun hn => ?_⟩
    · subst hh
      have := install_existing (db := s.db) w.hash w.lim h g i
      rw [hi] at this
      by_cases hc : s.db.valid h = true ∧ lookup s.db h g = none
      · rw [if_pos hc] at this; obtain ⟨_, hx⟩ := this; cases hx
      · rw [if_neg hc] at this; exact ⟨by simpa using this, hc⟩
    · subst hn
      rcases install_new hm.reachable w.hash w.lim g i with ⟨_, _, hx, _⟩ | ⟨hx, _⟩
      · rw [hi] at hx; cases hx
      · rw [hi] at hx; cases hx
  · rename_i db hi
    rw [hi] at hfail
    have hdb : db = s.db := hfail (fun x => by simp)
    simp only [Prod.mk.injEq] at he
    obtain ⟨rfl, rfl⟩ := he
    refine ⟨by rw [hdb], fun h hh => ?_, fun _ => rfl⟩
    subst hh
    have := install_existing (db := s.db) w.hash w.lim h g i
    rw [hi] at this
    by_cases hc : s.db.valid h = true ∧ lookup s.db h g = none
    · rw [if_pos hc] at this; obtain ⟨_, hx⟩ := this; cases hx
    · rw [if_neg hc] at this; cases this

/-- On a valid handle without the protocol an installation succeeds. -/
theorem coreInstall_succeeds {w : World α} (quiet : Bool) {s : St α} (hm : Made w.hash w.lim s.db) {h g : Nat} (i : Nat) (hv : s.db.valid h = true)
    (hl : lookup s.db h g = none) : ∃ s', coreInstall w quiet s (some h) g i = (.ok h, s') := by
  cases hc : coreInstall w quiet s (some h) g i with
  | mk r s' =>
    cases r with
    | ok h' =>
      rcases (coreInstall_ok hm hc).1 with ⟨e, _⟩ | ⟨e, _⟩
      · injection e with e; subst e; exact ⟨_, rfl⟩
      · cases e
    | err e => exact absurd ⟨hv, hl⟩ ((coreInstall_fail hm hc (fun h => by simp)).2.1 h rfl).2
    | panic => exact absurd ⟨hv, hl⟩ ((coreInstall_fail hm hc (fun h => by simp)).2.1 h rfl).2

/-! ### Users of another protocol -/

/-- Nobody opens the private interface of the core. -/
structure Private (w : World α) : Prop where
  disconnect : ∀ s h d h', users (w.disconnect s h d).2.db h' DUMMY = users s.db h' DUMMY
  connect : ∀ s h h', users (w.connect s h).db h' DUMMY = users s.db h' DUMMY
  signal : ∀ s e h', users (w.signal s e).2.db h' DUMMY = users s.db h' DUMMY

theorem closeDrivers_private {w : World α} (hp : Private w) (h g : Nat) (h' : Nat) : ∀ (n : Nat) (s : St α) (r : Outcome Err Bool) (s' : St α),
    closeDrivers w h g n s = some (r, s') → users s'.db h' DUMMY = users s.db h' DUMMY := by
  intro n
  induction n with
  | zero => intro s r s' h; cases h
  | succ n ih =>
    intro s r s' he
    unfold closeDrivers at he
    split at he
    · injection he with he; injection he with _ he; rw [← he]
    · injection he with he; injection he with _ he; rw [← he]
    · split at he
      · injection he with he; injection he with _ he; rw [← he]
      · rename_i us _ u hu
        have hd := hp.disconnect s h u.agent h'
        split at he
        · rename_i s1 e; rw [e] at hd; exact (ih s1 r s' he).trans hd
        · rename_i s1 e; rw [e] at hd; injection he with he; injection he with _ he; rw [← he]; exact hd

theorem uninstall_private {w : World α} (hw : Honest w) (hp : Private w) {fuel : Nat} {s s' : St α} (hm : Made w.hash w.lim s.db) {h g i : Nat}
    (hg : g ≠ DUMMY) {r : Outcome Err Unit} (he : uninstall w fuel s h g i = some (r, s')) (h' : Nat) : users s'.db h' DUMMY = users s.db h' DUMMY := by
  by_cases hl : lookup s.db h g = some i
  · unfold uninstall at he
    rw [getInterface_eq, valid_of_lookup hl, hl] at he
    simp only [if_true, ne_eq, not_true, if_false] at he
    split at he
    · cases he
    · rename_i s1 hc
      injection he with he; injection he with _ he; rw [← he]
      exact closeDrivers_private hp h g h' _ _ _ _ hc
    · rename_i s1 hc
      injection he with he; injection he with _ he; rw [← he]
      exact closeDrivers_private hp h g h' _ _ _ _ hc
    · rename_i s1 hc
      injection he with he; injection he with _ he; rw [← he, hp.connect]
      exact closeDrivers_private hp h g h' _ _ _ _ hc
    · rename_i s1 hc
      have hm1 := closeDrivers_made hw h g fuel s _ s1 hm hc
      have hv1 := (closeDrivers_done hw h g fuel s true s1 hm hc rfl).1
      have hpu := closeDrivers_private hp h g h' _ _ _ _ hc
      have hne : ¬ (h' = h ∧ DUMMY = g) := fun x => hg x.2.symm
      obtain ⟨d1, d2, d3, d4⟩ := dropLight_users (g := g) hm1 hv1
      obtain ⟨db', hmd, f1, f2⟩ := finish_spec (w := w) hm1 h g i hv1
      injection he with he
      by_cases hall : (∀ u ∈ users s1.db h g, Closable s1.db u = true) ∧ ((users s1.db h g).map key).Nodup
      · by_cases hl1 : lookup s1.db h g = some i
        · obtain ⟨g1, g2⟩ := (f1 hall).1 hl1
          rw [g1] at he
          injection he with _ he
          rw [← he, (g2 h' DUMMY).2, if_neg hne]
          exact hpu
        · -- the interface was replaced meanwhile
          have : finish w s1 h g i = (.err .notFound, { s1 with db := (dropLight h g (users s1.db h g) s1.db).2 }) := by
            have hno : ((dropLight h g (users s1.db h g) s1.db).2.uninstall h g i).1 = .err .notFound := by
              rw [uninstall_result, if_neg (by rw [valid_same hm1.reachable d1.reachable d2, hv1]; simp), if_pos (by rw [d2]; exact hl1)]
            have hdb := (uninstall_effect (db := (dropLight h g (users s1.db h g) s1.db).2) h g i).2 (by rw [hno]; simp)
            unfold finish
            rw [usagesOf_eq, hv1]
            simp only [if_true]
            rw [if_neg (by rw [d4.2 hall]; simp), hno, hdb]
          rw [this] at he
          injection he with _ he
          rw [← he]
          simp only
          rw [d3, if_neg hne]
          exact hpu
      · rw [(f2 hall).1] at he
        injection he with _ he
        rw [← he, hp.connect, ((f2 hall).2 h' DUMMY).2, if_neg hne]
        exact hpu
  · rw [uninstall_refused w fuel s h g i hl] at he
    injection he with he; injection he with _ he; rw [← he]

/-! ### Reinstalling -/

/-- The dummy is taken out again. -/
theorem drop_dummy {hash : Nat → Nat → Nat} {lim : Nat} {db : Db} (hm : Made hash lim db) {h : Nat} (hl : lookup db h DUMMY = some 0) (hu : users db h DUMMY = []) :
    (db.uninstall h DUMMY 0).1 = .ok () ∧ Made hash lim (db.uninstall h DUMMY 0).2 ∧
    ∀ h' g', lookup (db.uninstall h DUMMY 0).2 h' g' = if h' = h ∧ g' = DUMMY then none else lookup db h' g' := by
  have hok : (db.uninstall h DUMMY 0).1 = .ok () := by
    rw [uninstall_result, if_neg (by rw [valid_of_lookup hl]; simp), if_neg (by rw [hl]; simp), if_neg (by rw [hu]; simp)]
  exact ⟨hok, hm.step (.uninstall h DUMMY 0), fun h' g' => ((uninstall_effect h DUMMY 0).1 hok h' g').1⟩

/-- If drivers and event functions install and uninstall nothing themselves: a reinstallation that succeeds replaces the old interface by the new one, one that
is refused changes no interface; in both cases the handle stays, even if it has no other interface, and nothing of the private interface is left. No assertion
fails. -/
theorem reinstall_exact {w : World α} (hw : Honest w) (hk : Keeps w) (hp : Private w) {dbg : Bool} {fuel : Nat} {s s' : St α}
    (hm : Made w.hash w.lim s.db) {h g old new : Nat} (hg : g ≠ DUMMY) (hnd : lookup s.db h DUMMY = none) {st : Status}
    (he : reinstall w dbg fuel s h g old new = some (st, s')) :
    Made w.hash w.lim s'.db ∧ st ≠ .panics ∧ (st = .success → lookup s.db h g = some old) ∧
    ∀ h' g', lookup s'.db h' g' = if st = .success ∧ h' = h ∧ g' = g then some new else lookup s.db h' g' := by
  unfold reinstall at he
  have hex := install_existing (db := s.db) w.hash w.lim h DUMMY 0
  cases hin : s.db.install w.hash w.lim (some h) DUMMY 0 with
  | mk r db =>
    rw [hin] at he hex
    have hfail : (∀ x, r ≠ .ok x) → db = s.db := by
      have := install_failure (hash := w.hash) (lim := w.lim) (handle := some h) (g := DUMMY) (i := 0) hm.reachable
      rw [hin] at this; exact this
    cases r with
    | err e =>
      simp only [Option.some.injEq, Prod.mk.injEq] at he
      obtain ⟨rfl, rfl⟩ := he
      rw [hfail (fun x => by simp)]
      refine ⟨hm, by cases e <;> simp [Status.of], by cases e <;> simp [Status.of], fun h' g' => ?_⟩
      rw [if_neg]
      cases e <;> simp [Status.of]
    | panic =>
      exfalso
      by_cases hc : s.db.valid h = true ∧ lookup s.db h DUMMY = none
      · rw [if_pos hc] at hex; obtain ⟨_, hx⟩ := hex; cases hx
      · rw [if_neg hc] at hex; cases hex
    | ok p =>
      obtain ⟨h0, ns⟩ := p
      simp only at he
      have h1 : (s.db.install w.hash w.lim (some h) DUMMY 0).1 = .ok (h0, ns) := by rw [hin]
      have hh0 : h0 = h := by
        rcases install_returns hm.reachable h1 with e | ⟨e, _⟩
        · injection e with e; exact e.symm
        · cases e
      subst hh0
      have heff := install_effect hm.reachable h1
      rw [hin] at heff
      simp only at heff
      have hmd : Made w.hash w.lim db := by
        have := hm.step (.install (some h0) DUMMY 0)
        simp only [Db.step, hin] at this
        exact this
      cases hun : uninstall w fuel { s with db := db } h0 g old with
      | none => rw [hun] at he; cases he
      | some q =>
        obtain ⟨r, s1⟩ := q
        rw [hun] at he
        have hm1 : Made w.hash w.lim s1.db := uninstall_made hw (s := { s with db := db }) hmd hun
        obtain ⟨hnp, hlk⟩ := uninstall_exact hw hk (s := { s with db := db }) hmd hun
        have hpu := uninstall_private hw hp (s := { s with db := db }) hmd hg hun h0
        have hd1 : lookup s1.db h0 DUMMY = some 0 := by
          rw [hlk, if_neg (fun x => hg x.2.2.symm)]
          exact (heff h0 DUMMY).1.trans (if_pos ⟨rfl, rfl⟩)
        have hu1 : users s1.db h0 DUMMY = [] := by
          rw [hpu]
          exact (heff h0 DUMMY).2.trans (if_pos ⟨rfl, rfl⟩)
        have hback : ∀ h' g', (if h' = h0 ∧ g' = DUMMY then none else lookup db h' g') = lookup s.db h' g' := fun h' g' => by
          rw [(heff h' g').1]
          by_cases e : h' = h0 ∧ g' = DUMMY
          · rw [if_pos e, e.1, e.2, hnd]
          · rw [if_neg e, if_neg e]
        cases r with
        | panic => exact absurd rfl hnp
        | err e =>
          obtain ⟨k1, k2, k3⟩ := drop_dummy hm1 hd1 hu1
          simp only [k1, ne_eq, not_true, and_false, if_false, Option.some.injEq, Prod.mk.injEq] at he
          obtain ⟨rfl, rfl⟩ := he
          refine ⟨k2, by cases e <;> simp [Status.of], by cases e <;> simp [Status.of], fun h' g' => ?_⟩
          rw [if_neg (by cases e <;> simp [Status.of]), k3, ← hback h' g']
          by_cases e : h' = h0 ∧ g' = DUMMY
          · rw [if_pos e, if_pos e]
          · rw [if_neg e, if_neg e, hlk, if_neg (by simp)]
        | ok u =>
          have hgone := uninstall_gone hw (s := { s with db := db }) hmd hun
          have hv1 : s1.db.valid h0 = true := valid_of_lookup hd1
          obtain ⟨s2, hci⟩ := coreInstall_succeeds (w := w) false hm1 new hv1 hgone.2.1
          simp only at he
          rw [hci] at he
          simp only at he
          obtain ⟨c1, c2, c3, c4, _⟩ := coreInstall_ok hm1 hci
          have hm2 := c2 hw
          have hd2 : lookup s2.db h0 DUMMY = some 0 := by
            rw [c3 hk, if_neg (fun x => hg x.2.symm)]; exact hd1
          have hu2 : users s2.db h0 DUMMY = [] := by
            rw [c4 h0 DUMMY (fun s e => hp.signal s e h0), if_neg (fun x => hg x.2.symm)]; exact hu1
          obtain ⟨k1, k2, k3⟩ := drop_dummy hm2 hd2 hu2
          simp only [k1, ne_eq, not_true, and_false, if_false, Option.some.injEq, Prod.mk.injEq] at he
          obtain ⟨rfl, rfl⟩ := he
          refine ⟨hw.connect _ _ k2, by simp, fun _ => ?_, fun h' g' => ?_⟩
          · have := hgone.1
            simp only at this
            rw [(heff h0 g).1, if_neg (fun x => hg x.2)] at this
            exact this
          · rw [hk.connect]
            simp only [true_and]
            rw [k3]
            by_cases e : h' = h0 ∧ g' = g
            · rw [if_pos e, if_neg (fun x => hg (e.2.symm.trans x.2)), c3 hk, if_pos e]
            · rw [if_neg e, ← hback h' g']
              by_cases e2 : h' = h0 ∧ g' = DUMMY
              · rw [if_pos e2, if_pos e2]
              · rw [if_neg e2, if_neg e2, c3 hk, if_neg e, hlk, if_neg (fun x => e x.2)]

/-- A handle that is not valid is refused at once. -/
theorem reinstall_invalid (w : World α) (dbg : Bool) (fuel : Nat) (s : St α) (h g old new : Nat) (hv : s.db.valid h = false) :
    reinstall w dbg fuel s h g old new = some (.invalidParameter, s) := by
  unfold reinstall
  have : s.db.install w.hash w.lim (some h) DUMMY 0 = (.err .invalidParameter, s.db) := by
    unfold Db.install
    simp only
    rw [if_neg (by rw [hv]; simp)]
  rw [this]
  rfl

end Verif.Services
