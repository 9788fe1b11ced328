import Verif.Services.Locate
/-!
Property C79: installing and uninstalling several interfaces at once.
-/
namespace Verif.Services
open Verif.Protocol

variable {α : Type}

/-! ### Specification vocabulary -/

/-- From `a` to `b` nothing happened but that events were queued. -/
def Queued (w : World α) (a b : α) : Prop := ∃ evs : List Nat, b = evs.foldl (fun r e => (w.queue r e).2) a

/-- `db` is `db0` with exactly the interfaces `l`, which nobody uses, added to the handle `h`. -/
structure Added (db0 db : Db) (h : Nat) (l : List (Nat × Nat)) : Prop where
  nodup : (l.map Prod.fst).Nodup
  new : ∀ x ∈ l, lookup db0 h x.1 = none ∧ lookup db h x.1 = some x.2 ∧ users db h x.1 = []
  others : ∀ h' g', ¬ (h' = h ∧ g' ∈ l.map Prod.fst) → lookup db h' g' = lookup db0 h' g' ∧ users db h' g' = users db0 h' g'

/-- The interfaces and users are those of `db0`. -/
def Same (db0 db : Db) : Prop := ∀ h g, lookup db h g = lookup db0 h g ∧ users db h g = users db0 h g

/-- The interfaces `l` can be added to the handle. -/
def CanAdd (db : Db) (h : Nat) (l : List (Nat × Nat)) : Prop := (l.map Prod.fst).Nodup ∧ ∀ x ∈ l, db.valid h = true ∧ lookup db h x.1 = none

/-! ### Lemmas -/

theorem Queued.refl (w : World α) (a : α) : Queued w a a := ⟨[], rfl⟩

theorem Queued.trans {w : World α} {a b c : α} (h : Queued w a b) (k : Queued w b c) : Queued w a c := by
  obtain ⟨l, rfl⟩ := h
  obtain ⟨m, rfl⟩ := k
  exact ⟨l ++ m, by rw [List.foldl_append]⟩

theorem signalAll_queued (w : World α) : ∀ (l : List Nat) (s : St α), Queued w s.rest (signalAll w true s l).2.rest := by
  intro l
  induction l with
  | nil => intro s; exact .refl w _
  | cons e l ih =>
    intro s
    unfold signalAll
    exact Queued.trans ⟨[e], rfl⟩ (ih _)

theorem coreInstall_queued {w : World α} {s : St α} (hm : Made w.hash w.lim s.db) (handle : Option Nat) (g i : Nat) :
    Queued w s.rest (coreInstall w true s handle g i).2.rest := by
  unfold coreInstall
  split
  · exact signalAll_queued w _ _
  · exact .refl w _
  · exact .refl w _

theorem added_nil (db : Db) (h : Nat) : Added db db h [] := ⟨List.nodup_nil, (fun x hx => by cases hx), fun _ _ _ => ⟨rfl, rfl⟩⟩

theorem Added.snoc {db0 db db' : Db} {h : Nat} {l : List (Nat × Nat)} (ha : Added db0 db h l) {g i : Nat} (hn : lookup db h g = none)
    (he : ∀ h' g', lookup db' h' g' = (if h' = h ∧ g' = g then some i else lookup db h' g') ∧ users db' h' g' = if h' = h ∧ g' = g then [] else users db h' g') :
    Added db0 db' h (l ++ [(g, i)]) := by
  have hg : g ∉ l.map Prod.fst := fun hx => by
    obtain ⟨x, hxl, e⟩ := List.mem_map.1 hx
    rw [← e, (ha.new x hxl).2.1] at hn; cases hn
  refine ⟨?_, fun x hx => ?_, fun h' g' hne => ?_⟩
  · rw [List.map_append, List.nodup_append]
    refine ⟨ha.nodup, by simp, ?_⟩
    intro a ha' b hb
    simp only [List.map_cons, List.map_nil, List.mem_singleton] at hb
    subst hb
    intro e
    subst e
    exact hg ha'
  · rcases List.mem_append.1 hx with hx | hx
    · have hne : x.1 ≠ g := fun e => hg (e ▸ List.mem_map.2 ⟨x, hx, rfl⟩)
      have := ha.new x hx
      rw [(he h x.1).1, (he h x.1).2, if_neg (fun y => hne y.2), if_neg (fun y => hne y.2)]
      exact this
    · rw [List.mem_singleton] at hx
      subst hx
      simp only
      rw [(he h g).1, (he h g).2, if_pos ⟨rfl, rfl⟩, if_pos ⟨rfl, rfl⟩]
      exact ⟨by rw [← (ha.others h g (fun y => hg y.2)).1]; exact hn, rfl, rfl⟩
  · have h1 : ¬ (h' = h ∧ g' = g) := fun y => hne ⟨y.1, by rw [y.2]; simp⟩
    have h2 : ¬ (h' = h ∧ g' ∈ l.map Prod.fst) := fun y => hne ⟨y.1, by rw [List.map_append]; exact List.mem_append_left _ y.2⟩
    rw [(he h' g').1, (he h' g').2, if_neg h1, if_neg h1]
    exact ha.others h' g' h2

theorem uninstall_unused_made {w : World α} (fuel : Nat) {s s1 : St α} {r : Outcome Err Unit} (hm : Made w.hash w.lim s.db) {h g i : Nat} (n2 : lookup s.db h g = some i)
    (n3 : users s.db h g = []) (e1 : uninstall w (fuel + 1) s h g i = some (r, s1)) : Made w.hash w.lim s1.db := by
  have hc : ∀ u ∈ users s.db h g, Closable s.db u = true := by rw [n3]; simp
  have hnd : ((users s.db h g).map key).Nodup := by rw [n3]; exact List.nodup_nil
  obtain ⟨db', hmd, hf, _⟩ := finish_spec (w := w) hm h g i (valid_of_lookup n2)
  obtain ⟨f1, _⟩ := (hf ⟨hc, hnd⟩).1 n2
  have : uninstall w (fuel + 1) s h g i = some (.ok (), { s with db := db' }) := by
    unfold uninstall
    rw [getInterface_eq, valid_of_lookup n2, n2]
    simp only [if_true, ne_eq, not_true, if_false]
    unfold closeDrivers
    rw [usagesOf_eq, valid_of_lookup n2, n3]
    simp only [if_true, List.find?_nil]
    rw [f1]
  rw [this] at e1
  injection e1 with e1
  injection e1 with _ e1
  rw [← e1]
  exact hmd

/-- Rolling back leads to where it began. -/
theorem rollback_spec {w : World α} (fuel h : Nat) : ∀ (l : List (Nat × Nat)) (db0 : Db) (s : St α), Made w.hash w.lim s.db → Added db0 s.db h l →
    ∃ s', rollback w (fuel + 1) h l s = some s' ∧ Made w.hash w.lim s'.db ∧ s'.rest = s.rest ∧ Same db0 s'.db := by
  intro l
  induction l with
  | nil => intro db0 s hm ha; exact ⟨s, rfl, hm, rfl, fun h' g' => ha.others h' g' (fun x => by cases x.2)⟩
  | cons x l ih =>
    obtain ⟨g, i⟩ := x
    intro db0 s hm ha
    obtain ⟨n1, n2, n3⟩ := ha.new (g, i) (List.mem_cons_self ..)
    simp only at n1 n2 n3
    have hc : ∀ u ∈ users s.db h g, Closable s.db u = true := by rw [n3]; simp
    have hnd : ((users s.db h g).map key).Nodup := by rw [n3]; exact List.nodup_nil
    obtain ⟨s1, e1, e2, e3⟩ := uninstall_closes (w := w) fuel hm n2 hc hnd
    have hm1 : Made w.hash w.lim s1.db := uninstall_unused_made (w := w) fuel hm n2 n3 e1
    have hnod := ha.nodup
    rw [List.map_cons, List.nodup_cons] at hnod
    have ha1 : Added db0 s1.db h l := by
      refine ⟨hnod.2, fun x hx => ?_, fun h' g' hne => ?_⟩
      · have hne : x.1 ≠ g := fun e => hnod.1 (e ▸ List.mem_map.2 ⟨x, hx, rfl⟩)
        rw [(e3 h x.1).1, (e3 h x.1).2, if_neg (fun y => hne y.2), if_neg (fun y => hne y.2)]
        exact ha.new x (List.mem_cons_of_mem _ hx)
      · rw [(e3 h' g').1, (e3 h' g').2]
        by_cases e : h' = h ∧ g' = g
        · rw [if_pos e, if_pos e, e.1, e.2, n1, users_of_no_lookup n1]; exact ⟨rfl, rfl⟩
        · rw [if_neg e, if_neg e]
          refine ha.others h' g' (fun y => ?_)
          rcases List.mem_cons.1 y.2 with z | z
          · exact e ⟨y.1, z⟩
          · exact hne ⟨y.1, z⟩
    obtain ⟨s2, k1, k2, k3, k4⟩ := ih db0 s1 hm1 ha1
    refine ⟨s2, ?_, k2, k3.trans e2, k4⟩
    unfold rollback
    rw [e1]
    exact k1

theorem each_spec {w : World α} (fuel h : Nat) (h0 : h ≠ 0) : ∀ (l done : List (Nat × Nat)) (db0 : Db) (s : St α), Made w.hash w.lim s.db → Added db0 s.db h done →
    ∃ st s', installEach w (fuel + 1) l done h s = some (st, h, s') ∧ Made w.hash w.lim s'.db ∧ Queued w s.rest s'.rest ∧
      ((st = .success ∧ CanAdd s.db h l ∧ Added db0 s'.db h (done ++ l)) ∨ (st = .invalidParameter ∧ ¬ CanAdd s.db h l ∧ Same db0 s'.db)) := by
  intro l
  induction l with
  | nil => intro done db0 s hm ha; exact ⟨.success, s, rfl, hm, .refl w _, Or.inl ⟨rfl, ⟨List.nodup_nil, fun x hx => by cases hx⟩, by rw [List.append_nil]; exact ha⟩⟩
  | cons x l ih =>
    obtain ⟨g, i⟩ := x
    intro done db0 s hm ha
    have hnn : nonNull h = some h := by unfold nonNull; rw [if_neg h0]
    unfold installEach install
    simp only [Bool.not_true, Bool.false_eq_true, if_false]
    rw [hnn]
    have hq := coreInstall_queued (w := w) hm (some h) g i
    cases hc : coreInstall w true s (some h) g i with
    | mk r s1 =>
      rw [hc] at hq
      simp only at hq
      by_cases hcan : s.db.valid h = true ∧ lookup s.db h g = none
      · obtain ⟨s1', e⟩ := coreInstall_succeeds (w := w) true hm i hcan.1 hcan.2
        rw [hc] at e
        simp only [Prod.mk.injEq] at e
        obtain ⟨rfl, rfl⟩ := e
        simp only
        obtain ⟨_, _, _, _, hqq⟩ := coreInstall_ok hm hc
        obtain ⟨hm1, heff⟩ := hqq rfl
        have ha1 := ha.snoc hcan.2 heff
        obtain ⟨st, s2, k1, k2, k3, k4⟩ := ih (done ++ [(g, i)]) db0 s1 hm1 ha1
        refine ⟨st, s2, k1, k2, hq.trans k3, ?_⟩
        have hval : s1.db.valid h = true := valid_of_lookup (i := i) (g := g) (by rw [(heff h g).1, if_pos ⟨rfl, rfl⟩])
        have hiff : CanAdd s1.db h l ↔ CanAdd s.db h ((g, i) :: l) := by
          unfold CanAdd
          rw [List.map_cons, List.nodup_cons]
          constructor
          · rintro ⟨a, b⟩
            have hgl : g ∉ l.map Prod.fst := fun hx => by
              obtain ⟨x, hx, e⟩ := List.mem_map.1 hx
              have := (b x hx).2
              rw [e, (heff h g).1, if_pos ⟨rfl, rfl⟩] at this
              cases this
            refine ⟨⟨hgl, a⟩, fun x hx => ⟨hcan.1, ?_⟩⟩
            rcases List.mem_cons.1 hx with rfl | hx
            · exact hcan.2
            · have := (b x hx).2
              rw [(heff h x.1).1, if_neg (fun y : h = h ∧ x.1 = g => hgl (List.mem_map.2 ⟨x, hx, y.2⟩))] at this
              exact this
          · rintro ⟨⟨a, b⟩, c⟩
            refine ⟨b, fun x hx => ⟨hval, ?_⟩⟩
            rw [(heff h x.1).1, if_neg (fun y : h = h ∧ x.1 = g => a (List.mem_map.2 ⟨x, hx, y.2⟩))]
            exact (c x (List.mem_cons_of_mem _ hx)).2
        rcases k4 with ⟨a, b, c⟩ | ⟨a, b, c⟩
        · exact Or.inl ⟨a, hiff.1 b, by rw [List.append_assoc] at c; exact c⟩
        · exact Or.inr ⟨a, fun y => b (hiff.2 y), c⟩
      · have hno : ¬ CanAdd s.db h ((g, i) :: l) := fun y => hcan (y.2 (g, i) (List.mem_cons_self ..))
        have hr : ∀ x, r ≠ .ok x := by
          intro x hx
          subst hx
          rcases (coreInstall_ok hm hc).1 with ⟨e, a, b⟩ | ⟨e, _⟩
          · injection e with e; subst e; exact hcan ⟨a, b⟩
          · cases e
        obtain ⟨f1, f2, _⟩ := coreInstall_fail hm hc hr
        subst f1
        rw [(f2 h rfl).1]
        simp only [Status.of]
        obtain ⟨s2, k1, k2, k3, k4⟩ := rollback_spec (w := w) fuel h done db0 s1 hm ha
        rw [k1]
        exact ⟨.invalidParameter, s2, rfl, k2, by rw [k3]; exact .refl w _, Or.inr ⟨rfl, hno, k4⟩⟩

/-! ### C79 -/

/-- Installing several interfaces: all or nothing. The call always returns. Whatever event functions and drivers would do, none of them runs before the call
is over: only events are queued. On success exactly these interfaces are added, to the handle given or to a new one; otherwise no interface and no user of one
changes (but that the core may have opened device paths). It is refused exactly if a device path is taken already, if two interfaces have the same GUID, if the
handle is not valid, or if it has one of the GUIDs already. -/
theorem install_multiple_all_or_nothing {w : World α} (fuel : Nat) {s : St α} (hm : Made w.hash w.lim s.db) (handle : Nat) (l : List (Nat × Nat)) :
    ∃ st h s', installMultiple w (fuel + 1) s handle l = some (st, h, s') ∧ Made w.hash w.lim s'.db ∧ Queued w s.rest s'.rest ∧
      (st = .success → (handle ≠ 0 → h = handle) ∧ (handle = 0 → l ≠ [] → h ≠ 0 ∧ s.db.valid h = false) ∧
        ∃ db0, (∀ h' g', lookup db0 h' g' = lookup s.db h' g') ∧ (∀ h' g', g' ≠ PATH → users db0 h' g' = users s.db h' g') ∧ Added db0 s'.db h l) ∧
      (st ≠ .success → (∀ h' g', lookup s'.db h' g' = lookup s.db h' g') ∧ ∀ h' g', g' ≠ PATH → users s'.db h' g' = users s.db h' g') ∧
      ((pathTaken w l s).1 = true → st = .alreadyStarted) ∧
      ((pathTaken w l s).1 = false → handle ≠ 0 → (st = .success ↔ CanAdd s.db handle l) ∧ (st ≠ .success → st = .invalidParameter)) ∧
      ((pathTaken w l s).1 = false → handle = 0 → s.db.hashing = false → (st = .success ↔ (l.map Prod.fst).Nodup) ∧ (st ≠ .success → st = .invalidParameter)) := by
  obtain ⟨b, s0, hl, hb⟩ := path_taken_looks (w := w) l hm
  have hq0 : Queued w s.rest s0.rest := by rw [hl.rest]; exact .refl w _
  unfold installMultiple
  rw [hb]
  cases b with
  | true => exact ⟨.alreadyStarted, handle, s0, rfl, hl.made, hq0, by simp, fun _ => ⟨hl.lookup, hl.users⟩, fun _ => rfl, by simp, by simp⟩
  | false =>
    simp only [Bool.false_eq_true, false_implies, true_implies, true_and]
    have fromSame : ∀ {s' : St α}, Same s0.db s'.db → (∀ h' g', lookup s'.db h' g' = lookup s.db h' g') ∧ ∀ h' g', g' ≠ PATH → users s'.db h' g' = users s.db h' g' :=
      fun hs => ⟨fun h' g' => ((hs h' g').1).trans (hl.lookup h' g'), fun h' g' hg => ((hs h' g').2).trans (hl.users h' g' hg)⟩
    have hcan : ∀ h, CanAdd s0.db h l ↔ CanAdd s.db h l := fun h => by
      unfold CanAdd
      simp only [hl.lookup, valid_same hm.reachable hl.made.reachable hl.lookup]
    by_cases h0 : handle = 0
    · subst h0
      cases l with
      | nil =>
        exact ⟨.success, 0, s0, rfl, hl.made, hq0, fun _ => ⟨fun h => absurd rfl h, fun _ h => absurd rfl h, s0.db, hl.lookup, hl.users, added_nil _ _⟩,
          fun h => absurd rfl h, fun h => absurd rfl h, fun _ _ => ⟨by simp, fun h => absurd rfl h⟩⟩
      | cons x l =>
        obtain ⟨g, i⟩ := x
        unfold installEach install
        simp only [Bool.not_true, Bool.false_eq_true, if_false]
        have hnn : nonNull 0 = none := rfl
        rw [hnn]
        have hq := coreInstall_queued (w := w) hl.made none g i
        cases hc : coreInstall w true s0 none g i with
        | mk r s1 =>
          rw [hc] at hq
          simp only at hq
          cases r with
          | ok h =>
            simp only
            obtain ⟨c1, _, _, _, hqq⟩ := coreInstall_ok hl.made hc
            obtain ⟨hm1, heff⟩ := hqq rfl
            rcases c1 with ⟨e, _⟩ | ⟨_, hne, hval⟩
            · cases e
            have hno : ∀ g, lookup s0.db h g = none := fun g => by
              cases hx : lookup s0.db h g with
              | none => rfl
              | some j => rw [valid_of_lookup hx] at hval; cases hval
            have ha1 : Added s0.db s1.db h ([] ++ [(g, i)]) := (added_nil s0.db h).snoc (hno g) heff
            obtain ⟨st, s2, k1, k2, k3, k4⟩ := each_spec (w := w) fuel h hne l [(g, i)] s0.db s1 hm1 ha1
            have hval1 : s1.db.valid h = true := valid_of_lookup (i := i) (g := g) (by rw [(heff h g).1, if_pos ⟨rfl, rfl⟩])
            have hiff : CanAdd s1.db h l ↔ (((g, i) :: l).map Prod.fst).Nodup := by
              unfold CanAdd
              rw [List.map_cons, List.nodup_cons]
              constructor
              · rintro ⟨a, b⟩
                refine ⟨fun hx => ?_, a⟩
                obtain ⟨x, hx, e⟩ := List.mem_map.1 hx
                have := (b x hx).2
                rw [e, (heff h g).1, if_pos ⟨rfl, rfl⟩] at this
                cases this
              · rintro ⟨a, b⟩
                refine ⟨b, fun x hx => ⟨hval1, ?_⟩⟩
                rw [(heff h x.1).1, if_neg (fun y : h = h ∧ x.1 = g => a (List.mem_map.2 ⟨x, hx, y.2⟩))]
                exact hno x.1
            refine ⟨st, h, s2, k1, k2, hq0.trans (hq.trans k3), fun hst => ?_, fun hst => ?_, fun h => absurd rfl h, fun _ _ => ?_⟩
            · refine ⟨fun h => absurd rfl h, fun _ _ => ⟨hne, ?_⟩, ?_⟩
              · rw [← valid_same hm.reachable hl.made.reachable hl.lookup]; exact hval
              · rcases k4 with ⟨_, _, c⟩ | ⟨a, _, _⟩
                · exact ⟨s0.db, hl.lookup, hl.users, c⟩
                · rw [hst] at a; cases a
            · rcases k4 with ⟨a, _, _⟩ | ⟨_, _, c⟩
              · exact absurd a hst
              · exact fromSame c
            · rw [← hiff]
              rcases k4 with ⟨a, b, _⟩ | ⟨a, b, _⟩
              · exact ⟨⟨fun _ => b, fun _ => a⟩, fun x => absurd a x⟩
              · refine ⟨⟨fun x => ?_, fun x => absurd x b⟩, fun _ => a⟩
                rw [x] at a; cases a
          | err e =>
            have := (coreInstall_fail hl.made hc (fun h => by simp)).2.2 rfl
            cases this
          | panic =>
            obtain ⟨f1, _, _⟩ := coreInstall_fail hl.made hc (fun h => by simp)
            subst f1
            refine ⟨.panics, 0, s1, rfl, hl.made, hq0, by simp, fun _ => ⟨hl.lookup, hl.users⟩, fun h => absurd rfl h, fun _ hh => ?_⟩
            exfalso
            rcases install_new hl.made.reachable w.hash w.lim g i with ⟨h, ns, hx, _⟩ | ⟨_, hx, _⟩
            · unfold coreInstall at hc
              cases hz : s1.db.install w.hash w.lim none g i with
              | mk r' db' =>
                rw [hz] at hx hc
                simp only at hx
                subst hx
                simp only [Prod.mk.injEq] at hc
                exact absurd hc.1 (by simp)
            · -- looking does not turn hashing on
              rw [hl.hashing, hh] at hx; cases hx
    · obtain ⟨st, s2, k1, k2, k3, k4⟩ := each_spec (w := w) fuel handle h0 l [] s0.db s0 hl.made (added_nil _ _)
      rw [hcan] at k4
      refine ⟨st, handle, s2, k1, k2, hq0.trans k3, fun hst => ?_, fun hst => ?_, fun _ => ?_, fun h => absurd h h0⟩
      · refine ⟨fun _ => rfl, fun h => absurd h h0, ?_⟩
        rcases k4 with ⟨_, _, c⟩ | ⟨a, _, _⟩
        · exact ⟨s0.db, hl.lookup, hl.users, c⟩
        · rw [hst] at a; cases a
      · rcases k4 with ⟨a, _, _⟩ | ⟨_, _, c⟩
        · exact absurd a hst
        · exact fromSame c
      · rcases k4 with ⟨a, b, _⟩ | ⟨a, b, _⟩
        · exact ⟨⟨fun _ => b, fun _ => a⟩, fun x => absurd a x⟩
        · refine ⟨⟨fun x => ?_, fun x => absurd x b⟩, fun _ => a⟩
          rw [x] at a; cases a

/-- Restoring interfaces on a handle that still has another one. -/
theorem restore_spec {w : World α} (hw : Honest w) (hk : Keeps w) (h gk ik : Nat) : ∀ (l : List (Nat × Nat)) (s : St α), Made w.hash w.lim s.db →
    lookup s.db h gk = some ik → (l.map Prod.fst).Nodup → (∀ x ∈ l, lookup s.db h x.1 = none) →
    Made w.hash w.lim (restore w h l s).db ∧ (∀ x ∈ l, lookup (restore w h l s).db h x.1 = some x.2) ∧
      ∀ h' g', ¬ (h' = h ∧ g' ∈ l.map Prod.fst) → lookup (restore w h l s).db h' g' = lookup s.db h' g' := by
  intro l
  induction l with
  | nil => intro s hm _ _ _; exact ⟨hm, (fun x hx => by cases hx), fun _ _ _ => rfl⟩
  | cons x l ih =>
    obtain ⟨g, i⟩ := x
    intro s hm hkeep hnd hno
    rw [List.map_cons, List.nodup_cons] at hnd
    obtain ⟨s1, e⟩ := coreInstall_succeeds (w := w) false hm i (valid_of_lookup hkeep) (hno (g, i) (List.mem_cons_self ..))
    obtain ⟨_, hmd, heff, _, _⟩ := coreInstall_ok hm e
    have heff := heff hk
    have hgk : gk ≠ g := fun x => by
      have := hno (g, i) (List.mem_cons_self ..)
      simp only at this
      rw [← x, hkeep] at this; cases this
    unfold restore
    rw [e]
    simp only
    obtain ⟨k1, k2, k3⟩ := ih s1 (hmd hw) (by rw [heff, if_neg (fun y => hgk y.2)]; exact hkeep) hnd.2 (fun x hx => by
      rw [heff, if_neg (fun y : h = h ∧ x.1 = g => hnd.1 (List.mem_map.2 ⟨x, hx, y.2⟩))]
      exact hno x (List.mem_cons_of_mem _ hx))
    refine ⟨k1, fun x hx => ?_, fun h' g' hne => ?_⟩
    · rcases List.mem_cons.1 hx with rfl | hx
      · simp only
        rw [k3 h g (fun y => hnd.1 y.2), heff, if_pos ⟨rfl, rfl⟩]
      · exact k2 x hx
    · rw [k3 h' g' (fun y => hne ⟨y.1, List.mem_cons_of_mem _ y.2⟩), heff, if_neg (fun y => hne ⟨y.1, by rw [y.2]; exact List.mem_cons_self ..⟩)]

theorem uninstallEach_spec {w : World α} (hw : Honest w) (hk : Keeps w) (fuel h : Nat) (db0 : Db) : ∀ (l done : List (Nat × Nat)) (s : St α),
    Made w.hash w.lim s.db → (done.map Prod.fst).Nodup → (∀ x ∈ done, lookup db0 h x.1 = some x.2) →
    (∀ h' g', lookup s.db h' g' = if h' = h ∧ g' ∈ done.map Prod.fst then none else lookup db0 h' g') →
    ∀ {st s'}, uninstallEach w fuel h l done s = some (st, s') →
      (st = .success ∧ Made w.hash w.lim s'.db ∧ ((done ++ l).map Prod.fst).Nodup ∧ (∀ x ∈ done ++ l, lookup db0 h x.1 = some x.2) ∧
        ∀ h' g', lookup s'.db h' g' = if h' = h ∧ g' ∈ (done ++ l).map Prod.fst then none else lookup db0 h' g') ∨
      (st = .invalidParameter ∧ ((∃ gk ik, lookup db0 h gk = some ik ∧ gk ∉ (done ++ l).map Prod.fst) →
        Made w.hash w.lim s'.db ∧ ∀ h' g', lookup s'.db h' g' = lookup db0 h' g')) := by
  intro l
  induction l with
  | nil =>
    intro done s hm hnd hin hlk st s' he
    unfold uninstallEach at he
    injection he with he
    injection he with e1 e2
    subst e1 e2
    rw [List.append_nil]
    exact Or.inl ⟨rfl, hm, hnd, hin, hlk⟩
  | cons x l ih =>
    obtain ⟨g, i⟩ := x
    intro done s hm hnd hin hlk st s' he
    unfold uninstallEach at he
    cases hu : uninstall w fuel s h g i with
    | none => rw [hu] at he; cases he
    | some p =>
      obtain ⟨r, s1⟩ := p
      rw [hu] at he
      obtain ⟨hnp, heff⟩ := uninstall_exact hw hk hm hu
      have hm1 := uninstall_made hw hm hu
      cases r with
      | ok u =>
        cases u
        simp only at he
        have hl := (uninstall_gone hw hm hu).1
        have hgd : g ∉ done.map Prod.fst := fun hx => by rw [hlk, if_pos ⟨rfl, hx⟩] at hl; cases hl
        have hl0 : lookup db0 h g = some i := by rw [hlk, if_neg (fun y => hgd y.2)] at hl; exact hl
        have := ih (done ++ [(g, i)]) s1 hm1 (by
          rw [List.map_append, List.nodup_append]
          refine ⟨hnd, by simp, ?_⟩
          intro a ha b hb
          simp only [List.map_cons, List.map_nil, List.mem_singleton] at hb
          subst hb
          intro e
          subst e
          exact hgd ha) (fun x hx => by
            rcases List.mem_append.1 hx with hx | hx
            · exact hin x hx
            · rw [List.mem_singleton] at hx; subst hx; exact hl0) (fun h' g' => by
            rw [heff, hlk]
            simp only [true_and, List.map_append, List.map_cons, List.map_nil, List.mem_append, List.mem_singleton]
            by_cases a : h' = h
            · by_cases b : g' = g
              · rw [if_pos ⟨a, b⟩, if_pos ⟨a, Or.inr b⟩]
              · rw [if_neg (fun y => b y.2)]
                by_cases c : g' ∈ done.map Prod.fst
                · rw [if_pos ⟨a, c⟩, if_pos ⟨a, Or.inl c⟩]
                · rw [if_neg (fun y => c y.2), if_neg (fun y => y.2.elim c b)]
            · rw [if_neg (fun y => a y.1), if_neg (fun y => a y.1), if_neg (fun y => a y.1)]) he
        rw [List.append_assoc] at this
        exact this
      | err e =>
        simp only at he
        injection he with he
        injection he with e1 e2
        subst e1 e2
        refine Or.inr ⟨rfl, ?_⟩
        rintro ⟨gk, ik, hkp, hkn⟩
        have hlk1 : ∀ h' g', lookup s1.db h' g' = if h' = h ∧ g' ∈ done.map Prod.fst then none else lookup db0 h' g' := fun h' g' => by
          rw [heff, if_neg (fun y => by cases y.1), hlk]
        have hkd : gk ∉ done.map Prod.fst := fun y => hkn (by rw [List.map_append]; exact List.mem_append_left _ y)
        obtain ⟨k1, k2, k3⟩ := restore_spec hw hk h gk ik done s1 hm1 (by rw [hlk1, if_neg (fun y => hkd y.2)]; exact hkp) hnd
          (fun x hx => by rw [hlk1, if_pos ⟨rfl, List.mem_map.2 ⟨x, hx, rfl⟩⟩])
        refine ⟨k1, fun h' g' => ?_⟩
        by_cases hc : h' = h ∧ g' ∈ done.map Prod.fst
        · obtain ⟨rfl, hg⟩ := hc
          obtain ⟨x, hx, rfl⟩ := List.mem_map.1 hg
          rw [k2 x hx, hin x hx]
        · rw [k3 h' g' hc, hlk1, if_neg hc]
      | panic => exact absurd rfl hnp

/-- Uninstalling several interfaces. If the drivers and event functions that run meanwhile install and uninstall nothing themselves: on success every one of
the interfaces was there and is gone, and no other one changed. Otherwise the answer is INVALID_PARAMETER and, if the handle has an interface that is not in
the list, all interfaces are there as before. -/
theorem uninstall_multiple_all_or_nothing {w : World α} (hw : Honest w) (hk : Keeps w) {fuel : Nat} {s s' : St α} (hm : Made w.hash w.lim s.db) {h : Nat}
    {l : List (Nat × Nat)} {st : Status} (he : uninstallMultiple w fuel s h l = some (st, s')) :
    (st = .success ∧ (l.map Prod.fst).Nodup ∧ (∀ x ∈ l, lookup s.db h x.1 = some x.2) ∧
      ∀ h' g', lookup s'.db h' g' = if h' = h ∧ g' ∈ l.map Prod.fst then none else lookup s.db h' g') ∨
    (st = .invalidParameter ∧ ((∃ gk ik, lookup s.db h gk = some ik ∧ gk ∉ l.map Prod.fst) → ∀ h' g', lookup s'.db h' g' = lookup s.db h' g')) := by
  unfold uninstallMultiple at he
  split at he
  · injection he with he
    injection he with e1 e2
    subst e1 e2
    exact Or.inr ⟨rfl, fun _ _ _ => rfl⟩
  · rcases uninstallEach_spec hw hk fuel h s.db l [] s hm List.nodup_nil (fun x hx => by cases hx) (fun h' g' => by simp) he with ⟨a, _, b, c, d⟩ | ⟨a, b⟩
    · exact Or.inl ⟨a, b, c, d⟩
    · exact Or.inr ⟨a, fun x => (b x).2⟩

/-- Without users nothing has to be closed, so that the call returns and succeeds. -/
theorem uninstall_multiple_succeeds {w : World α} (fuel : Nat) {h : Nat} (h0 : h ≠ 0) : ∀ (l : List (Nat × Nat)) {s : St α}, Made w.hash w.lim s.db →
    (l.map Prod.fst).Nodup → (∀ x ∈ l, lookup s.db h x.1 = some x.2 ∧ users s.db h x.1 = []) →
    ∃ s', uninstallMultiple w (fuel + 1) s h l = some (.success, s') ∧ s'.rest = s.rest := by
  intro l s hm hnd hall
  unfold uninstallMultiple
  rw [if_neg h0]
  generalize ([] : List (Nat × Nat)) = done
  induction l generalizing s done with
  | nil => exact ⟨s, rfl, rfl⟩
  | cons x l ih =>
    obtain ⟨g, i⟩ := x
    obtain ⟨n2, n3⟩ := hall (g, i) (List.mem_cons_self ..)
    rw [List.map_cons, List.nodup_cons] at hnd
    obtain ⟨s1, e1, e2, e3⟩ := uninstall_closes (w := w) fuel hm n2 (by rw [n3]; simp) (by rw [n3]; exact List.nodup_nil)
    have hm1 : Made w.hash w.lim s1.db := uninstall_unused_made (w := w) fuel hm n2 n3 e1
    obtain ⟨s2, k1, k2⟩ := ih hm1 hnd.2 (fun x hx => by
      have hne : x.1 ≠ g := fun e => hnd.1 (List.mem_map.2 ⟨x, hx, e⟩)
      rw [(e3 h x.1).1, (e3 h x.1).2, if_neg (fun y => hne y.2), if_neg (fun y => hne y.2)]
      exact hall x (List.mem_cons_of_mem _ hx)) (done ++ [(g, i)])
    refine ⟨s2, ?_, k2.trans e2⟩
    unfold uninstallEach
    rw [e1]
    exact k1

end Verif.Services
