import Verif.Services.Lemmas
/-!
Property C76: uninstalling and reinstalling protocol interfaces.
-/
namespace Verif.Services
open Verif.Protocol

variable {α : Type}

/-! ### Specification vocabulary -/

/-- Drivers and event functions work on the database only through its calls. -/
structure Honest (w : World α) : Prop where
  disconnect : ∀ s h d, Made w.hash w.lim s.db → Made w.hash w.lim (w.disconnect s h d).2.db
  connect : ∀ s h, Made w.hash w.lim s.db → Made w.hash w.lim (w.connect s h).db
  signal : ∀ s e, Made w.hash w.lim s.db → Made w.hash w.lim (w.signal s e).2.db

/-- They neither install nor uninstall interfaces. -/
structure Keeps (w : World α) : Prop where
  disconnect : ∀ s h d h' g', lookup (w.disconnect s h d).2.db h' g' = lookup s.db h' g'
  connect : ∀ s h h' g', lookup (w.connect s h).db h' g' = lookup s.db h' g'
  signal : ∀ s e h' g', lookup (w.signal s e).2.db h' g' = lookup s.db h' g'

/-- A driver that has the interface open. -/
def Driver (u : Usage) : Prop := u.attrs = 0x10 ∨ u.attrs = 0x30

instance (u : Usage) : Decidable (Driver u) := by unfold Driver; infer_instance

/-! ### Lemmas -/

theorem closeDrivers_made {w : World α} (hw : Honest w) (h g : Nat) : ∀ (n : Nat) (s : St α) (r : Outcome Err Bool) (s' : St α),
    Made w.hash w.lim s.db → closeDrivers w h g n s = some (r, s') → Made w.hash w.lim s'.db := by
  intro n
  induction n with
  | zero => intro s r s' _ h; cases h
  | succ n ih =>
    intro s r s' hm he
    unfold closeDrivers at he
    split at he
    · injection he with he; injection he with _ he; rw [← he]; exact hm
    · injection he with he; injection he with _ he; rw [← he]; exact hm
    · split at he
      · injection he with he; injection he with _ he; rw [← he]; exact hm
      · rename_i us _ u hu
        have hd := hw.disconnect s h u.agent hm
        split at he
        · rename_i s1 e; rw [e] at hd; exact ih s1 r s' hd he
        · rename_i s1 e; rw [e] at hd; injection he with he; injection he with _ he; rw [← he]; exact hd

theorem closeDrivers_lookup {w : World α} (hk : Keeps w) (h g : Nat) : ∀ (n : Nat) (s : St α) (r : Outcome Err Bool) (s' : St α),
    closeDrivers w h g n s = some (r, s') → ∀ h' g', lookup s'.db h' g' = lookup s.db h' g' := by
  intro n
  induction n with
  | zero => intro s r s' h; cases h
  | succ n ih =>
    intro s r s' he h' g'
    unfold closeDrivers at he
    split at he
    · injection he with he; injection he with _ he; rw [← he]
    · injection he with he; injection he with _ he; rw [← he]
    · split at he
      · injection he with he; injection he with _ he; rw [← he]
      · rename_i us _ u hu
        have hd := hk.disconnect s h u.agent h' g'
        split at he
        · rename_i s1 e; rw [e] at hd; exact (ih s1 r s' he h' g').trans hd
        · rename_i s1 e; rw [e] at hd; injection he with he; injection he with _ he; rw [← he]; exact hd

/-- When the loop ends well no driver has the interface open. -/
theorem closeDrivers_done {w : World α} (hw : Honest w) (h g : Nat) : ∀ (n : Nat) (s : St α) (b : Bool) (s' : St α), Made w.hash w.lim s.db →
    closeDrivers w h g n s = some (.ok b, s') → b = true → s'.db.valid h = true ∧ ∀ u ∈ users s'.db h g, ¬ Driver u := by
  intro n
  induction n with
  | zero => intro s b s' _ h; cases h
  | succ n ih =>
    intro s b s' hm he hb
    unfold closeDrivers at he
    rw [usagesOf_eq] at he
    cases hv : s.db.valid h with
    | false => rw [hv] at he; cases he
    | true =>
      rw [hv] at he
      simp only [if_true] at he
      split at he
      · rename_i hn
        injection he with he; injection he with _ he; rw [← he]
        refine ⟨hv, fun u hu hd => ?_⟩
        have := List.find?_eq_none.1 hn u hu
        rw [isDriver_eq (attr_cases hm.reachable hu)] at this
        rcases hd with e | e <;> rw [e] at this <;> exact this rfl
      · rename_i u hu
        have hd := hw.disconnect s h u.agent hm
        split at he
        · rename_i s1 e; rw [e] at hd; exact ih s1 b s' hd he hb
        · injection he with he; injection he with he _; injection he with he; rw [← he] at hb; cases hb

/-- `finish` in full. -/
theorem finish_spec {w : World α} {s : St α} (hm : Made w.hash w.lim s.db) (h g i : Nat) (hvl : s.db.valid h = true) :
    ∃ db', Made w.hash w.lim db' ∧
      (((∀ u ∈ users s.db h g, Closable s.db u = true) ∧ ((users s.db h g).map key).Nodup →
          (lookup s.db h g = some i → finish w s h g i = (.ok (), { s with db := db' }) ∧
            ∀ h' g', lookup db' h' g' = (if h' = h ∧ g' = g then none else lookup s.db h' g') ∧
              users db' h' g' = if h' = h ∧ g' = g then [] else users s.db h' g') ∧
          (lookup s.db h g ≠ some i → finish w s h g i = (.err .notFound, { s with db := db' }) ∧
            ∀ h' g', lookup db' h' g' = lookup s.db h' g')) ∧
       (¬ ((∀ u ∈ users s.db h g, Closable s.db u = true) ∧ ((users s.db h g).map key).Nodup) →
          finish w s h g i = (.err .accessDenied, w.connect { s with db := db' } h) ∧
            ∀ h' g', lookup db' h' g' = lookup s.db h' g' ∧
              users db' h' g' = if h' = h ∧ g' = g then (users s.db h g).filter (fun v => !Closable s.db v) else users s.db h' g')) := by
  obtain ⟨d1, d2, d3, d4⟩ := dropLight_users (g := g) hm hvl
  have hvd : (dropLight h g (users s.db h g) s.db).2.valid h = true := by rw [valid_same hm.reachable d1.reachable d2]; exact hvl
  unfold finish
  rw [usagesOf_eq, hvl]
  simp only [if_true]
  by_cases hb : (dropLight h g (users s.db h g) s.db).1 = true
  · have hn : ¬ ((∀ u ∈ users s.db h g, Closable s.db u = true) ∧ ((users s.db h g).map key).Nodup) := fun x => by
      rw [d4.2 x] at hb; cases hb
    refine ⟨_, d1, fun x => absurd x hn, fun _ => ⟨?_, fun h' g' => ⟨d2 h' g', d3 h' g'⟩⟩⟩
    rw [if_pos hb]
  · have hbf := Bool.eq_false_iff.2 hb
    have hall := d4.1 hbf
    rw [if_neg hb]
    refine ⟨((dropLight h g (users s.db h g) s.db).2.uninstall h g i).2, d1.step (.uninstall h g i), fun _ => ⟨fun hl => ?_, fun hl => ?_⟩, fun x => absurd hall x⟩
    · have hu0 : users (dropLight h g (users s.db h g) s.db).2 h g = [] := by
        rw [d3 h g, if_pos ⟨rfl, rfl⟩, List.filter_eq_nil_iff]
        intro u hu
        rw [hall.1 u hu]; simp
      have hok : ((dropLight h g (users s.db h g) s.db).2.uninstall h g i).1 = .ok () := by
        rw [uninstall_result, if_neg (by rw [hvd]; simp), if_neg (by rw [d2, hl]; simp), if_neg (by rw [hu0]; simp)]
      refine ⟨by rw [hok], fun h' g' => ?_⟩
      obtain ⟨e1, e2⟩ := (uninstall_effect (db := (dropLight h g (users s.db h g) s.db).2) h g i).1 hok h' g'
      rw [e1, e2, d2 h' g', d3 h' g']
      by_cases e : h' = h ∧ g' = g
      · simp only [if_pos e, and_self]
      · simp only [if_neg e, and_self]
    · have hno : ((dropLight h g (users s.db h g) s.db).2.uninstall h g i).1 = .err .notFound := by
        rw [uninstall_result, if_neg (by rw [hvd]; simp), if_pos (by rw [d2]; exact hl)]
      refine ⟨by rw [hno], fun h' g' => ?_⟩
      rw [(uninstall_effect (db := (dropLight h g (users s.db h g) s.db).2) h g i).2 (by rw [hno]; simp)]
      exact d2 h' g'

/-! ### C76: uninstalling -/

/-- A wrong handle, or an interface that is not the one installed, is refused, and nothing happens. -/
theorem uninstall_refused (w : World α) (fuel : Nat) (s : St α) (h g i : Nat) (hl : lookup s.db h g ≠ some i) :
    uninstall w fuel s h g i = some (.err (if s.db.valid h then .notFound else .invalidParameter), s) := by
  unfold uninstall
  rw [getInterface_eq]
  cases s.db.valid h with
  | false => rfl
  | true =>
    simp only [if_true]
    cases hx : lookup s.db h g with
    | none => rfl
    | some j => simp only; rw [if_pos (fun e => hl (by rw [hx, e]))]

/-- While no driver has the interface open: if the other users can all be closed the interface is uninstalled, and nothing else changes but that these users
are gone. -/
theorem uninstall_closes {w : World α} (n : Nat) {s : St α} (hm : Made w.hash w.lim s.db) {h g i : Nat} (hl : lookup s.db h g = some i)
    (hc : ∀ u ∈ users s.db h g, Closable s.db u = true) (hn : ((users s.db h g).map key).Nodup) :
    ∃ s', uninstall w (n + 1) s h g i = some (.ok (), s') ∧ s'.rest = s.rest ∧
      ∀ h' g', lookup s'.db h' g' = (if h' = h ∧ g' = g then none else lookup s.db h' g') ∧
        users s'.db h' g' = if h' = h ∧ g' = g then [] else users s.db h' g' := by
  have hvl := valid_of_lookup hl
  obtain ⟨db', _, hf, _⟩ := finish_spec (w := w) hm h g i hvl
  obtain ⟨f1, f2⟩ := (hf ⟨hc, hn⟩).1 hl
  refine ⟨{ s with db := db' }, ?_, ?_, f2⟩
  · unfold uninstall
    rw [getInterface_eq, hvl, hl]
    simp only [if_true, ne_eq, not_true, if_false]
    unfold closeDrivers
    rw [usagesOf_eq, hvl]
    simp only [if_true]
    have : (users s.db h g).find? (fun u => isDriver u.attrs) = none := by
      rw [List.find?_eq_none]
      intro u hu
      have := hc u hu
      unfold Closable at this
      simp only [Bool.and_eq_true, Bool.or_eq_true, beq_iff_eq] at this
      rcases this.1.1 with (e | e) | e <;> rw [e] <;> decide
    rw [this]
    simp only
    rw [f1]
  · rfl

/-- While no driver has the interface open: if one of the users cannot be closed the call is refused and the interface stays, but the users that could be closed
are gone, and drivers are connected to the handle. -/
theorem uninstall_denied {w : World α} (n : Nat) {s : St α} (hm : Made w.hash w.lim s.db) {h g i : Nat} (hl : lookup s.db h g = some i)
    (hd : ∀ u ∈ users s.db h g, ¬ Driver u) (hc : ¬ ((∀ u ∈ users s.db h g, Closable s.db u = true) ∧ ((users s.db h g).map key).Nodup)) :
    ∃ s', uninstall w (n + 1) s h g i = some (.err .accessDenied, w.connect s' h) ∧ s'.rest = s.rest ∧
      ∀ h' g', lookup s'.db h' g' = lookup s.db h' g' ∧
        users s'.db h' g' = if h' = h ∧ g' = g then (users s.db h g).filter (fun v => !Closable s.db v) else users s.db h' g' := by
  have hvl := valid_of_lookup hl
  obtain ⟨db', _, _, hf⟩ := finish_spec (w := w) hm h g i hvl
  obtain ⟨f1, f2⟩ := hf hc
  refine ⟨{ s with db := db' }, ?_, rfl, f2⟩
  unfold uninstall
  rw [getInterface_eq, hvl, hl]
  simp only [if_true, ne_eq, not_true, if_false]
  unfold closeDrivers
  rw [usagesOf_eq, hvl]
  simp only [if_true]
  have : (users s.db h g).find? (fun u => isDriver u.attrs) = none := by
    rw [List.find?_eq_none]
    intro u hu hx
    rw [isDriver_eq (attr_cases hm.reachable hu)] at hx
    simp only [Bool.or_eq_true, beq_iff_eq] at hx
    exact hd u hu hx
  rw [this]
  simp only
  rw [f1]

/-- The driver that has the interface open. -/
theorem driver_found {db : Db} (hr : Reachable db) {h g : Nat} {u : Usage} (hu : u ∈ users db h g) (hd : Driver u) :
    (users db h g).find? (fun u => isDriver u.attrs) = some u := by
  have hex := exclusion hr h g
  have hisd : isDriver u.attrs = true := by rcases hd with e | e <;> rw [e] <;> decide
  cases hf : (users db h g).find? (fun u => isDriver u.attrs) with
  | none => exact absurd hisd (List.find?_eq_none.1 hf u hu)
  | some v =>
    have hv := List.mem_of_find?_eq_some hf
    have hvd := List.find?_some hf
    have hw : ∀ x : Usage, x ∈ users db h g → isDriver x.attrs = true → wantsExclusion x.attrs = true := fun x hx hi => by
      rw [isDriver_eq (attr_cases hr hx)] at hi
      simp only [Bool.or_eq_true, beq_iff_eq] at hi
      rcases hi with e | e <;> rw [e] <;> rfl
    have h1 : u ∈ (users db h g).filter fun u => wantsExclusion u.attrs := List.mem_filter.2 ⟨hu, hw u hu hisd⟩
    have h2 : v ∈ (users db h g).filter fun u => wantsExclusion u.attrs := List.mem_filter.2 ⟨hv, hw v hv hvd⟩
    generalize (users db h g).filter (fun u => wantsExclusion u.attrs) = l at *
    match l, hex with
    | [], _ => cases h1
    | [x], _ =>
      rw [List.mem_singleton] at h1 h2
      rw [h1, h2]
    | _ :: _ :: _, hx => simp at hx

/-- While a driver has the interface open it is asked to stop. If it does not, the call is refused, and drivers are connected again. If it does, and the
interface is still there, everything goes on as if the call had come now. -/
theorem uninstall_stops_driver {w : World α} (n : Nat) {s : St α} (hm : Made w.hash w.lim s.db) {h g i : Nat} (hl : lookup s.db h g = some i)
    {u : Usage} (hu : u ∈ users s.db h g) (hd : Driver u) :
    (∀ s', w.disconnect s h u.agent = (false, s') → uninstall w (n + 1) s h g i = some (.err .accessDenied, w.connect s' h)) ∧
    (∀ s', w.disconnect s h u.agent = (true, s') → lookup s'.db h g = some i → uninstall w (n + 1) s h g i = uninstall w n s' h g i) := by
  have hvl := valid_of_lookup hl
  have key : ∀ m, closeDrivers w h g (m + 1) s =
      match w.disconnect s h u.agent with
      | (true, s) => closeDrivers w h g m s
      | (false, s) => some (.ok false, s) := fun m => by
    conv => lhs; unfold closeDrivers
    rw [usagesOf_eq, hvl]
    simp only [if_true]
    rw [driver_found hm.reachable hu hd]
    rfl
  refine ⟨fun s' e => ?_, fun s' e hl' => ?_⟩
  · unfold uninstall
    rw [getInterface_eq, hvl, hl]
    simp only [if_true, ne_eq, not_true, if_false]
    rw [key, e]
  · unfold uninstall
    rw [getInterface_eq, hvl, hl, getInterface_eq, valid_of_lookup hl', hl']
    simp only [if_true, ne_eq, not_true, if_false]
    rw [key, e]

/-- Whatever drivers do: when the call succeeds, the interface that the caller named was installed, and is not any more, and nobody is recorded as using it. -/
theorem uninstall_gone {w : World α} (hw : Honest w) {fuel : Nat} {s s' : St α} (hm : Made w.hash w.lim s.db) {h g i : Nat}
    (he : uninstall w fuel s h g i = some (.ok (), s')) : lookup s.db h g = some i ∧ lookup s'.db h g = none ∧ users s'.db h g = [] := by
  by_cases hl : lookup s.db h g = some i
  · have hvl := valid_of_lookup hl
    unfold uninstall at he
    rw [getInterface_eq, hvl, hl] at he
    simp only [if_true, ne_eq, not_true, if_false] at he
    split at he
    · cases he
    · cases he
    · cases he
    · cases he
    · rename_i s1 hc
      have hm1 := closeDrivers_made hw h g fuel s _ s1 hm hc
      have hv1 := (closeDrivers_done hw h g fuel s true s1 hm hc rfl).1
      obtain ⟨db', _, f1, f2⟩ := finish_spec (w := w) hm1 h g i hv1
      injection he with he
      by_cases hall : (∀ u ∈ users s1.db h g, Closable s1.db u = true) ∧ ((users s1.db h g).map key).Nodup
      · by_cases hl1 : lookup s1.db h g = some i
        · obtain ⟨g1, g2⟩ := (f1 hall).1 hl1
          rw [g1] at he
          injection he with _ he
          rw [← he]
          have := g2 h g
          rw [if_pos ⟨rfl, rfl⟩, if_pos ⟨rfl, rfl⟩] at this
          exact ⟨hl, this.1, this.2⟩
        · rw [((f1 hall).2 hl1).1] at he; injection he with he; cases he
      · rw [(f2 hall).1] at he; injection he with he; cases he
  · rw [uninstall_refused w fuel s h g i hl] at he
    injection he with he; injection he with he; cases he

/-- The state after the call is still one that calls of the database lead to. -/
theorem uninstall_made {w : World α} (hw : Honest w) {fuel : Nat} {s s' : St α} (hm : Made w.hash w.lim s.db) {h g i : Nat} {r : Outcome Err Unit}
    (he : uninstall w fuel s h g i = some (r, s')) : Made w.hash w.lim s'.db := by
  by_cases hl : lookup s.db h g = some i
  · unfold uninstall at he
    rw [getInterface_eq, valid_of_lookup hl, hl] at he
    simp only [if_true, ne_eq, not_true, if_false] at he
    split at he
    · cases he
    · rename_i s1 hc
      injection he with he; injection he with _ he; rw [← he]
      exact closeDrivers_made hw h g fuel s _ s1 hm hc
    · rename_i s1 hc
      injection he with he; injection he with _ he; rw [← he]
      exact closeDrivers_made hw h g fuel s _ s1 hm hc
    · rename_i s1 hc
      injection he with he; injection he with _ he; rw [← he]
      exact hw.connect _ _ (closeDrivers_made hw h g fuel s _ s1 hm hc)
    · rename_i s1 hc
      have hm1 := closeDrivers_made hw h g fuel s _ s1 hm hc
      have hv1 := (closeDrivers_done hw h g fuel s true s1 hm hc rfl).1
      obtain ⟨db', hmd, f1, f2⟩ := finish_spec (w := w) hm1 h g i hv1
      injection he with he
      by_cases hall : (∀ u ∈ users s1.db h g, Closable s1.db u = true) ∧ ((users s1.db h g).map key).Nodup
      · by_cases hl1 : lookup s1.db h g = some i
        · rw [((f1 hall).1 hl1).1] at he
          injection he with _ he
          rw [← he]
          exact hmd
        · rw [((f1 hall).2 hl1).1] at he
          injection he with _ he
          rw [← he]
          exact hmd
      · rw [(f2 hall).1] at he
        injection he with _ he
        rw [← he]
        exact hw.connect _ _ hmd
  · rw [uninstall_refused w fuel s h g i hl] at he
    injection he with he; injection he with _ he; rw [← he]; exact hm

/-- If drivers do not install or uninstall interfaces themselves, a call that succeeds removes exactly this interface, and one that is refused none. -/
theorem uninstall_exact {w : World α} (hw : Honest w) (hk : Keeps w) {fuel : Nat} {s s' : St α} (hm : Made w.hash w.lim s.db) {h g i : Nat}
    {r : Outcome Err Unit} (he : uninstall w fuel s h g i = some (r, s')) :
    r ≠ .panic ∧ ∀ h' g', lookup s'.db h' g' = if r = .ok () ∧ h' = h ∧ g' = g then none else lookup s.db h' g' := by
  by_cases hl : lookup s.db h g = some i
  · unfold uninstall at he
    rw [getInterface_eq, valid_of_lookup hl, hl] at he
    simp only [if_true, ne_eq, not_true, if_false] at he
    have hnp : ∀ n s s', closeDrivers w h g n s ≠ some (.panic, s') := by
      intro n
      induction n with
      | zero => intro s s' h; cases h
      | succ n ih =>
        intro s s' he
        unfold closeDrivers at he
        rw [usagesOf_eq] at he
        cases hv : s.db.valid h with
        | false => rw [hv] at he; cases he
        | true =>
          rw [hv] at he
          simp only [if_true] at he
          split at he
          · cases he
          · split at he
            · exact ih _ _ he
            · cases he
    split at he
    · cases he
    · rename_i s1 hc
      injection he with he; injection he with hr he
      subst hr
      refine ⟨by simp, fun h' g' => ?_⟩
      rw [← he, if_neg (by simp)]
      exact closeDrivers_lookup hk h g fuel s _ s1 hc h' g'
    · rename_i s1 hc
      exact absurd hc (hnp _ _ _)
    · rename_i s1 hc
      injection he with he; injection he with hr he
      subst hr
      refine ⟨by simp, fun h' g' => ?_⟩
      rw [← he, if_neg (by simp), hk.connect]
      exact closeDrivers_lookup hk h g fuel s _ s1 hc h' g'
    · rename_i s1 hc
      have hm1 := closeDrivers_made hw h g fuel s _ s1 hm hc
      have hv1 := (closeDrivers_done hw h g fuel s true s1 hm hc rfl).1
      have hlk := closeDrivers_lookup hk h g fuel s _ s1 hc
      obtain ⟨db', hmd, f1, f2⟩ := finish_spec (w := w) hm1 h g i hv1
      injection he with he
      by_cases hall : (∀ u ∈ users s1.db h g, Closable s1.db u = true) ∧ ((users s1.db h g).map key).Nodup
      · obtain ⟨g1, g2⟩ := (f1 hall).1 (by rw [hlk]; exact hl)
        rw [g1] at he
        injection he with hr he
        subst hr
        refine ⟨by simp, fun h' g' => ?_⟩
        rw [← he, (g2 h' g').1, hlk]
        simp
      · obtain ⟨g1, g2⟩ := f2 hall
        rw [g1] at he
        injection he with hr he
        subst hr
        refine ⟨by simp, fun h' g' => ?_⟩
        rw [← he, if_neg (by simp), hk.connect, (g2 h' g').1, hlk]
  · rw [uninstall_refused w fuel s h g i hl] at he
    injection he with he; injection he with hr he
    subst hr
    refine ⟨by simp, fun h' g' => ?_⟩
    rw [← he, if_neg (by simp)]

/-- The call returns if a driver that stops closes the interface. -/
theorem uninstall_returns {w : World α} (hw : Honest w) {s : St α} (hm : Made w.hash w.lim s.db) {h g : Nat} (i : Nat)
    (hd : ∀ s d s', w.disconnect s h d = (true, s') → ∀ u ∈ users s'.db h g, ¬ Driver u) (n : Nat) :
    uninstall w (n + 2) s h g i ≠ none := by
  by_cases hl : lookup s.db h g = some i
  · have key : ∀ (n : Nat) (s : St α), Made w.hash w.lim s.db → (∀ u ∈ users s.db h g, ¬ Driver u) → closeDrivers w h g (n + 1) s ≠ none := by
      intro n s hm hn he
      unfold closeDrivers at he
      rw [usagesOf_eq] at he
      cases hv : s.db.valid h with
      | false => rw [hv] at he; cases he
      | true =>
        rw [hv] at he
        simp only [if_true] at he
        split at he
        · cases he
        · rename_i u hu
          have h1 := List.mem_of_find?_eq_some hu
          have h2 := List.find?_some hu
          rw [isDriver_eq (attr_cases hm.reachable h1)] at h2
          simp only [Bool.or_eq_true, beq_iff_eq] at h2
          exact hn u h1 h2
    intro he
    unfold uninstall at he
    rw [getInterface_eq, valid_of_lookup hl, hl] at he
    simp only [if_true, ne_eq, not_true, if_false] at he
    split at he
    · rename_i hc
      unfold closeDrivers at hc
      rw [usagesOf_eq, valid_of_lookup hl] at hc
      simp only [if_true] at hc
      split at hc
      · cases hc
      · rename_i u hu
        have hmd := hw.disconnect s h u.agent hm
        split at hc
        · rename_i s1 e
          rw [e] at hmd
          exact key n s1 hmd (hd _ _ _ e) hc
        · cases hc
    all_goals cases he
  · rw [uninstall_refused w _ s h g i hl]; simp

end Verif.Services
