import Verif.Images.Interfaces
import Verif.Services.Reinstall
import Verif.Services.Witness
/-!
Property C123: what an image leaves in the protocol database.
-/
namespace Verif.Images.Interfaces
open Verif Verif.Protocol Verif.Services

variable {α : Type}

/-! ### Closing -/

/-- A usage by this image whose controller, if there is one, is still there. -/
def Ours (db : Db) (image : Nat) (u : Usage) : Bool := decide (u.agent = some image) && db.okHandle u.controller

/-- What closing does: interfaces stay, usages are filtered. -/
structure Eff (hash : Nat → Nat → Nat) (lim : Nat) (db db' : Db) (keep : Nat → Nat → Usage → Bool) : Prop where
  made : Made hash lim db'
  lookup : ∀ h g, lookup db' h g = lookup db h g
  users : ∀ h g, users db' h g = (users db h g).filter (keep h g)

variable {hash : Nat → Nat → Nat} {lim : Nat}

theorem Eff.refl {db : Db} (hm : Made hash lim db) : Eff hash lim db db fun _ _ _ => true :=
  ⟨hm, fun _ _ => rfl, fun h g => (List.filter_eq_self.2 fun _ _ => rfl).symm⟩

theorem Eff.trans {a b c : Db} {k l : Nat → Nat → Usage → Bool} (h1 : Eff hash lim a b k) (h2 : Eff hash lim b c l) : Eff hash lim a c fun h g u => k h g u && l h g u :=
  ⟨h2.made, fun h g => (h2.lookup h g).trans (h1.lookup h g), fun h g => by
    rw [h2.users, h1.users, List.filter_filter]
    exact List.filter_congr fun u _ => Bool.and_comm _ _⟩

theorem Eff.congr {a b : Db} {k l : Nat → Nat → Usage → Bool} (h : Eff hash lim a b k) (hc : ∀ h g, ∀ u ∈ Protocol.users a h g, k h g u = l h g u) : Eff hash lim a b l :=
  ⟨h.made, h.lookup, fun x y => by rw [h.users]; exact List.filter_congr (hc x y)⟩

theorem Eff.valid {a b : Db} {k : Nat → Nat → Usage → Bool} (hm : Made hash lim a) (h : Eff hash lim a b k) (x : Nat) : b.valid x = a.valid x :=
  valid_same hm.reachable h.made.reachable h.lookup x

theorem Eff.ours {a b : Db} {k : Nat → Nat → Usage → Bool} (hm : Made hash lim a) (h : Eff hash lim a b k) (image : Nat) (u : Usage) : Ours b image u = Ours a image u := by
  unfold Ours
  rw [okHandle_same (h.valid hm)]

theorem remove_eff {db : Db} (hm : Made hash lim db) {h g image : Nat} {u : Usage} (hv : db.valid h = true) (hi : db.valid image = true) (ha : some image = u.agent) :
    Eff hash lim db (db.removeUsage h g u.agent u.controller (some u.attrs)).2 fun h' g' v => !(decide (h' = h ∧ g' = g) && decide (key v = key u) && Ours db image v) := by
  obtain ⟨c1, c2⟩ := close_exact hm.reachable h g u.agent u.controller (some u.attrs)
  refine ⟨removeUsage_made hm .., removeUsage_lookup hm h g u.agent u.controller (some u.attrs), fun h' g' => ?_⟩
  rw [c2 h' g']
  have hmatch : ∀ v : Usage, Matching u.agent u.controller (some u.attrs) v ↔ key v = key u := fun v => by
    unfold Matching key
    simp only [Option.some.injEq, forall_eq', Prod.mk.injEq]
  by_cases e : h' = h ∧ g' = g
  · obtain ⟨rfl, rfl⟩ := e
    by_cases hok : db.okHandle u.controller = true
    · have hours : ∀ v, key v = key u → Ours db image v = true := by
        intro v hv
        unfold key at hv
        injection hv with h1 h2
        injection h2 with h2 h3
        unfold Ours
        rw [h1, h2, hok, ← ha]
        simp
      have hag : db.okHandle u.agent = true := by rw [← ha]; exact hi
      rw [hv, hag, hok] at c1
      simp only [Bool.not_true, Bool.or_self, Bool.false_eq_true, if_false] at c1
      by_cases hr : (db.removeUsage h' g' u.agent u.controller (some u.attrs)).1 = .ok ()
      · rw [if_pos ⟨rfl, rfl, hr⟩]
        refine List.filter_congr fun v _ => ?_
        by_cases hk : key v = key u
        · simp [hmatch, hk, hours v hk]
        · simp [hmatch, hk]
      · rw [if_neg fun x => hr x.2.2, eq_comm, List.filter_eq_self]
        intro v hv'
        by_cases hk : key v = key u
        · exfalso
          rw [if_pos ⟨v, hv', (hmatch v).2 hk⟩] at c1
          exact hr c1
        · simp [hk]
    · rw [hv] at c1
      have hr : (db.removeUsage h' g' u.agent u.controller (some u.attrs)).1 ≠ .ok () := by
        rw [c1]
        simp [hok]
      rw [if_neg fun x => hr x.2.2, eq_comm, List.filter_eq_self]
      intro v _
      by_cases hk : key v = key u
      · have : Ours db image v = false := by
          unfold key at hk
          injection hk with h1 h2
          injection h2 with h2 h3
          unfold Ours
          rw [h2]
          simp [hok]
        simp [this]
      · simp [hk]
  · rw [if_neg fun x => e ⟨x.1, x.2.1⟩, eq_comm, List.filter_eq_self]
    intro v _
    simp [e]

/-- The loop over usages. -/
theorem fold_eff {h g image : Nat} : ∀ (us : List Usage) {db : Db}, Made hash lim db → db.valid h = true → db.valid image = true →
    Eff hash lim db (us.foldl (fun db u => if some image = u.agent then (db.removeUsage h g u.agent u.controller (some u.attrs)).2 else db) db)
      fun h' g' v => !(decide (h' = h ∧ g' = g) && decide (∃ u ∈ us, key v = key u) && Ours db image v) := by
  intro us
  induction us with
  | nil => intro db hm _ _; exact (Eff.refl hm).congr fun _ _ _ _ => by simp
  | cons u us ih =>
    intro db hm hv hi
    rw [List.foldl_cons]
    by_cases ha : some image = u.agent
    · rw [if_pos ha]
      have e1 := remove_eff (g := g) hm hv hi ha
      have e2 := ih e1.made (by rw [e1.valid hm]; exact hv) (by rw [e1.valid hm]; exact hi)
      refine (e1.trans e2).congr fun h' g' v _ => ?_
      rw [e1.ours hm]
      by_cases e : h' = h ∧ g' = g
      · by_cases k1 : key v = key u
        · cases Ours db image v <;> simp [e, k1]
        · cases Ours db image v <;> simp [e, k1]
      · simp [e]
    · rw [if_neg ha]
      refine (ih hm hv hi).congr fun h' g' v _ => ?_
      by_cases k1 : key v = key u
      · have : Ours db image v = false := by
          unfold key at k1
          injection k1 with h1 h2
          unfold Ours
          rw [h1, decide_eq_false fun x => ha (Eq.symm x), Bool.false_and]
        simp [this]
      · simp [k1]

theorem closeIn_eff {h g image : Nat} {db : Db} (hm : Made hash lim db) (hv : db.valid h = true) (hi : db.valid image = true) :
    Eff hash lim db (closeIn image h db g) fun h' g' v => !(decide (h' = h ∧ g' = g) && Ours db image v) := by
  unfold closeIn
  have hu : db.usages h g = .ok (Protocol.users db h g) ∨ (∃ e, db.usages h g = .err e) := by
    unfold Protocol.users Db.usages
    rw [hv]
    simp only [Bool.not_true, Bool.false_eq_true, if_false]
    cases db.getInst h g with
    | none => exact Or.inr ⟨_, rfl⟩
    | some i => exact Or.inl rfl
  rcases hu with e | ⟨x, e⟩
  · rw [e]
    refine (fold_eff _ hm hv hi).congr fun h' g' v hv' => ?_
    by_cases c : h' = h ∧ g' = g
    · obtain ⟨rfl, rfl⟩ := c
      have : ∃ u ∈ Protocol.users db h' g', key v = key u := ⟨v, hv', rfl⟩
      simp [this]
    · simp [c]
  · rw [e]
    refine (Eff.refl hm).congr fun h' g' v hv' => ?_
    by_cases c : h' = h ∧ g' = g
    · obtain ⟨rfl, rfl⟩ := c
      unfold Protocol.users at hv'
      rw [e] at hv'
      cases hv'
    · simp [c]

theorem fold_in_eff {h image : Nat} : ∀ (gs : List Nat) {db : Db}, Made hash lim db → db.valid h = true → db.valid image = true →
    Eff hash lim db (gs.foldl (closeIn image h) db) fun h' g' v => !(decide (h' = h ∧ g' ∈ gs) && Ours db image v) := by
  intro gs
  induction gs with
  | nil => intro db hm _ _; exact (Eff.refl hm).congr fun _ _ _ _ => by simp
  | cons g gs ih =>
    intro db hm hv hi
    have e1 := closeIn_eff (g := g) hm hv hi
    have e2 := ih e1.made (by rw [e1.valid hm]; exact hv) (by rw [e1.valid hm]; exact hi)
    refine (e1.trans e2).congr fun h' g' v _ => ?_
    rw [e1.ours hm]
    by_cases c : h' = h
    · by_cases d : g' = g
      · cases Ours db image v <;> simp [c, d]
      · cases Ours db image v <;> simp [c, d]
    · simp [c]

theorem closeOn_eff {h image : Nat} {db : Db} (hm : Made hash lim db) (hi : db.valid image = true) :
    Eff hash lim db (closeOn image db h) fun h' _ v => !(decide (h' = h) && Ours db image v) := by
  have none_there : db.valid h = false → ∀ g, Protocol.users db h g = [] := fun hf g => by
    unfold Protocol.users Db.usages
    rw [hf]
    rfl
  unfold closeOn Db.protocolsOn
  cases hg : db.handles.get h with
  | none =>
    refine (Eff.refl hm).congr fun h' g' v hv' => ?_
    by_cases c : h' = h
    · subst c
      rw [none_there (valid_false.2 hg)] at hv'
      cases hv'
    · simp [c]
  | some hd =>
    refine (fold_in_eff _ hm (valid_iff.2 ⟨hd, hg⟩) hi).congr fun h' g' v hv' => ?_
    by_cases c : h' = h
    · subst c
      have : g' ∈ hd.protocols.keys := by
        rw [BMap.mem_keys]
        rw [users_eq] at hv'
        cases hx : db.getInst h' g' with
        | none => rw [hx] at hv'; cases hv'
        | some i => rw [getInst_eq hg] at hx; exact BMap.has_iff.2 ⟨i, hx⟩
      simp [this]
    · simp [c]

theorem fold_on_eff {image : Nat} : ∀ (hs : List Nat) {db : Db}, Made hash lim db → db.valid image = true →
    Eff hash lim db (hs.foldl (closeOn image) db) fun h' _ v => !(decide (h' ∈ hs) && Ours db image v) := by
  intro hs
  induction hs with
  | nil => intro db hm _; exact (Eff.refl hm).congr fun _ _ _ _ => by simp
  | cons h hs ih =>
    intro db hm hi
    have e1 := closeOn_eff (h := h) hm hi
    have e2 := ih e1.made (by rw [e1.valid hm]; exact hi)
    refine (e1.trans e2).congr fun h' g' v _ => ?_
    rw [e1.ours hm]
    by_cases c : h' = h
    · cases Ours db image v <;> simp [c]
    · simp [c]

/-- Before an image is unloaded everything it has open is closed, wherever it is, if the controller it was opened for is still there. Nothing else is closed and no interface changes. -/
theorem unload_closes_partial {db : Db} (hm : Made hash lim db) {image : Nat} (hi : db.valid image = true) :
    Made hash lim (closeAll db image) ∧ (∀ h g, lookup (closeAll db image) h g = lookup db h g) ∧
    ∀ h g, users (closeAll db image) h g = (users db h g).filter fun u => !(decide (u.agent = some image) && db.okHandle u.controller) := by
  have key : Eff hash lim db (closeAll db image) fun _ _ v => !Ours db image v := by
    unfold closeAll
    obtain ⟨-, hmem, hl⟩ := locate_all_exact hm.reachable
    rw [hl]
    split
    · next hne =>
      split at hne
      · cases hne
      · injection hne with hne
        subst hne
        refine (fold_on_eff _ hm hi).congr fun h g v hv => ?_
        have : h ∈ allHandles db := by
          rw [hmem]
          cases hh : db.valid h with
          | true => rfl
          | false =>
            unfold Protocol.users Db.usages at hv
            rw [hh] at hv
            cases hv
        simp [this]
    · next hne =>
      split at hne
      · next he =>
        have := (hmem image).2 hi
        rw [he] at this
        cases this
      · exact absurd rfl (hne _)
  exact ⟨key.made, key.lookup, key.users⟩

/-! ### Loading and unloading -/

theorem uninstall_closes_made {w : World α} (n : Nat) {s s1 : St α} {r : Outcome Err Unit} (hm : Made w.hash w.lim s.db) {h g i : Nat} (hl : lookup s.db h g = some i)
    (hc : ∀ u ∈ users s.db h g, Closable s.db u = true) (hn : ((users s.db h g).map key).Nodup) (e : Services.uninstall w (n + 1) s h g i = some (r, s1)) : Made w.hash w.lim s1.db := by
  have hvl := valid_of_lookup hl
  obtain ⟨db', hmd, hf, _⟩ := finish_spec (w := w) hm h g i hvl
  obtain ⟨f1, f2⟩ := (hf ⟨hc, hn⟩).1 hl
  have : Services.uninstall w (n + 1) s h g i = some (.ok (), { s with db := db' }) := by
    unfold Services.uninstall
    rw [getInterface_eq, hvl, hl]
    simp only [if_true, ne_eq, not_true, if_false]
    unfold closeDrivers
    rw [usagesOf_eq, hvl]
    simp only [if_true]
    have : (users s.db h g).find? (fun u => isDriver u.attrs) = none := by
      rw [List.find?_eq_none]
      intro u hu
      have := hc u hu
      unfold Closable at this
      simp only [Bool.and_eq_true, Bool.or_eq_true, beq_iff_eq] at this
      rcases this.1.1 with (e | e) | e <;> rw [e] <;> decide
    rw [this]
    simp only
    rw [f1]
  rw [this] at e
  cases e
  exact hmd

/-- A loaded image has a handle of its own with the loaded image protocol, its device path and, if it has one, its HII package list, and nothing else. No other handle changes. -/
theorem load_installs {w : World α} (hw : Honest w) (hk : Keeps w) {s s' : St α} (hm : Made w.hash w.lim s.db) {info path copy h : Nat} {package : Option Nat} {k : Kept}
    (he : load w s info path copy package = (.ok (h, k), s')) :
    h ≠ 0 ∧ s.db.valid h = false ∧ k = ⟨info, path⟩ ∧ Made w.hash w.lim s'.db ∧
    ∀ h' g, lookup s'.db h' g =
      if h' = h then
        (if g = LOADED_IMAGE then some info else if g = LOADED_IMAGE_PATH then some (if path = 0 then 0 else copy) else if g = PACKAGE_LIST then package else none)
      else lookup s.db h' g := by
  have d1 : LOADED_IMAGE ≠ LOADED_IMAGE_PATH := by decide
  have d2 : LOADED_IMAGE ≠ PACKAGE_LIST := by decide
  have d3 : LOADED_IMAGE_PATH ≠ PACKAGE_LIST := by decide
  unfold load at he
  cases e1 : coreInstall w false s none LOADED_IMAGE info with
  | mk r1 s1 =>
    rw [e1] at he
    cases r1 with
    | err e => cases he
    | panic => cases he
    | ok h1 =>
      dsimp only at he
      obtain ⟨a1, a2, a3, -, -⟩ := coreInstall_ok hm e1
      have m1 := a2 hw
      have l1 := a3 hk
      rcases a1 with ⟨x, -⟩ | ⟨-, hne, hval⟩
      · cases x
      have hno : ∀ g, lookup s.db h1 g = none := fun g => by
        cases hx : lookup s.db h1 g with
        | none => rfl
        | some j => rw [valid_of_lookup hx] at hval; cases hval
      cases e2 : coreInstall w false s1 (some h1) LOADED_IMAGE_PATH (if path = 0 then 0 else copy) with
      | mk r2 s2 =>
        rw [e2] at he
        cases r2 with
        | err e => cases he
        | panic => cases he
        | ok h2 =>
          dsimp only at he
          obtain ⟨b1, b2, b3, -, -⟩ := coreInstall_ok m1 e2
          have m2 := b2 hw
          have l2 := b3 hk
          have h21 : h1 = h2 := by
            rcases b1 with ⟨x, -⟩ | ⟨x, -⟩
            · exact Option.some.inj x
            · cases x
          subst h21
          cases package with
          | none =>
            injection he with he1 he2
            injection he1 with he1
            injection he1 with he1 he3
            subst he1; subst he2; subst he3
            refine ⟨hne, hval, rfl, m2, fun h' g => ?_⟩
            rw [l2, l1]
            by_cases c : h' = h1
            · subst c
              by_cases g1 : g = LOADED_IMAGE
              · subst g1; simp [d1]
              · by_cases g2 : g = LOADED_IMAGE_PATH
                · subst g2; simp [Ne.symm d1]
                · simp [g1, g2, hno]
            · simp [c]
          | some p =>
            dsimp only at he
            cases e3 : coreInstall w false s2 (some h1) PACKAGE_LIST p with
            | mk r3 s3 =>
              rw [e3] at he
              cases r3 with
              | err e => cases he
              | panic => cases he
              | ok h3 =>
                dsimp only at he
                obtain ⟨c1, c2, c3, -, -⟩ := coreInstall_ok m2 e3
                have m3 := c2 hw
                have l3 := c3 hk
                have h31 : h1 = h3 := by
                  rcases c1 with ⟨x, -⟩ | ⟨x, -⟩
                  · exact Option.some.inj x
                  · cases x
                subst h31
                injection he with he1 he2
                injection he1 with he1
                injection he1 with he1 he3
                subst he1; subst he2; subst he3
                refine ⟨hne, hval, rfl, m3, fun h' g => ?_⟩
                rw [l3, l2, l1]
                by_cases c : h' = h1
                · subst c
                  by_cases g1 : g = LOADED_IMAGE
                  · subst g1; simp [d1, d2]
                  · by_cases g2 : g = LOADED_IMAGE_PATH
                    · subst g2; simp [Ne.symm d1, d3]
                    · by_cases g3 : g = PACKAGE_LIST
                      · subst g3; simp [Ne.symm d2, Ne.symm d3]
                      · simp [g1, g2, g3, hno]
                · simp [c]

/-- Unloading changes no interface but the two it uninstalls. -/
theorem unload_keeps {w : World α} (hw : Honest w) (hk : Keeps w) {fuel : Nat} {s s' : St α} (hm : Made w.hash w.lim s.db) {h : Nat} {k : Kept} (hv : s.db.valid h = true)
    (he : unload w fuel s h k = some s') {h' g : Nat} (hg : ¬ (h' = h ∧ (g = LOADED_IMAGE ∨ g = LOADED_IMAGE_PATH))) : lookup s'.db h' g = lookup s.db h' g := by
  obtain ⟨m0, l0, -⟩ := unload_closes_partial hm hv
  unfold unload at he
  split at he
  · cases he
  · next r1 s1 e1 =>
    obtain ⟨-, l1⟩ := uninstall_exact (s := { s with db := closeAll s.db h }) hw hk m0 e1
    have m1 := uninstall_made (s := { s with db := closeAll s.db h }) hw m0 e1
    split at he
    · cases he
    · next r2 s2 e2 =>
      obtain ⟨-, l2⟩ := uninstall_exact hw hk m1 e2
      cases he
      rw [l2, if_neg fun x => hg ⟨x.2.1, Or.inr x.2.2⟩, l1, if_neg fun x => hg ⟨x.2.1, Or.inl x.2.2⟩]
      exact l0 h' g

/-- The device path protocol is installed with a copy and uninstalled with the caller's pointer. An image that was loaded with a device path keeps its handle and the device path on it when it is
unloaded, whatever happens between. -/
theorem path_left {w : World α} (hw : Honest w) (hk : Keeps w) {fuel : Nat} {s s' : St α} (hm : Made w.hash w.lim s.db) {h : Nat} {k : Kept} {copy : Nat} (hp : lookup s.db h LOADED_IMAGE_PATH = some copy)
    (hne : k.path ≠ copy) (he : unload w fuel s h k = some s') : lookup s'.db h LOADED_IMAGE_PATH = some copy ∧ s'.db.valid h = true := by
  obtain ⟨m0, l0, -⟩ := unload_closes_partial hm (valid_of_lookup hp)
  have d1 : LOADED_IMAGE_PATH ≠ LOADED_IMAGE := by decide
  have : lookup s'.db h LOADED_IMAGE_PATH = some copy := by
    unfold unload at he
    split at he
    · cases he
    · next r1 s1 e1 =>
      obtain ⟨-, l1⟩ := uninstall_exact (s := { s with db := closeAll s.db h }) hw hk m0 e1
      have p1 : lookup s1.db h LOADED_IMAGE_PATH = some copy := by
        rw [l1, if_neg fun x => d1 x.2.2]
        exact (l0 _ _).trans hp
      rw [uninstall_refused w fuel s1 h LOADED_IMAGE_PATH k.path (by rw [p1]; exact fun x => hne (Option.some.inj x).symm)] at he
      cases he
      exact p1
  exact ⟨this, valid_of_lookup this⟩

/-- The HII package list is not uninstalled at all. -/
theorem package_left {w : World α} (hw : Honest w) (hk : Keeps w) {fuel : Nat} {s s' : St α} (hm : Made w.hash w.lim s.db) {h : Nat} {k : Kept} {p : Nat} (hp : lookup s.db h PACKAGE_LIST = some p)
    (he : unload w fuel s h k = some s') : lookup s'.db h PACKAGE_LIST = some p ∧ s'.db.valid h = true := by
  have := (unload_keeps hw hk hm (valid_of_lookup hp) he (h' := h) (g := PACKAGE_LIST) (fun x => x.2.elim (by decide) (by decide))).trans hp
  exact ⟨this, valid_of_lookup this⟩

/-- An image that was loaded without a device path and has no package list leaves nothing when it is unloaded: its handle is gone and all others are as they were before it was loaded. Users of its
loaded image protocol may still have it open, as long as they only looked. -/
theorem unload_gone_partial {w : World α} {fuel : Nat} {s : St α} (hm : Made w.hash w.lim s.db) {h : Nat} {k : Kept} (h1 : lookup s.db h LOADED_IMAGE = some k.info)
    (h2 : lookup s.db h LOADED_IMAGE_PATH = some k.path) (h3 : ∀ g, g ≠ LOADED_IMAGE → g ≠ LOADED_IMAGE_PATH → lookup s.db h g = none)
    (hu : ∀ g, (g = LOADED_IMAGE ∨ g = LOADED_IMAGE_PATH) → (∀ u ∈ users s.db h g, u.agent = some h ∧ s.db.okHandle u.controller = true ∨ Closable s.db u = true) ∧ ((users s.db h g).map key).Nodup) :
    ∃ s', unload w (fuel + 1) s h k = some s' ∧ s'.rest = s.rest ∧ ∀ h' g, lookup s'.db h' g = if h' = h then none else lookup s.db h' g := by
  have hv := valid_of_lookup h1
  obtain ⟨m0, l0, u0⟩ := unload_closes_partial hm hv
  have d1 : LOADED_IMAGE_PATH ≠ LOADED_IMAGE := by decide
  have hval : ∀ x, (closeAll s.db h).valid x = s.db.valid x := valid_same hm.reachable m0.reachable l0
  have hcl : ∀ u, Closable (closeAll s.db h) u = Closable s.db u := fun u => by
    unfold Closable
    rw [okHandle_same hval, okHandle_same hval]
  have cond : ∀ g, (g = LOADED_IMAGE ∨ g = LOADED_IMAGE_PATH) → (∀ u ∈ users (closeAll s.db h) h g, Closable (closeAll s.db h) u = true) ∧ ((users (closeAll s.db h) h g).map key).Nodup := by
    intro g hg
    obtain ⟨c1, c2⟩ := hu g hg
    rw [u0]
    refine ⟨fun u hu' => ?_, ?_⟩
    · rw [List.mem_filter] at hu'
      rw [hcl]
      rcases c1 u hu'.1 with ⟨x, y⟩ | x
      · have := hu'.2
        rw [x, y] at this
        simp at this
      · exact x
    · exact List.Nodup.sublist (List.Sublist.map _ List.filter_sublist) c2
  obtain ⟨s1, e1, r1, f1⟩ := uninstall_closes (w := w) fuel (s := { s with db := closeAll s.db h }) m0 (h := h) (g := LOADED_IMAGE) (i := k.info) ((l0 _ _).trans h1) (cond _ (Or.inl rfl)).1 (cond _ (Or.inl rfl)).2
  have m1 : Made w.hash w.lim s1.db := uninstall_closes_made fuel (s := { s with db := closeAll s.db h }) m0 ((l0 _ _).trans h1) (cond _ (Or.inl rfl)).1 (cond _ (Or.inl rfl)).2 e1
  have p1 : lookup s1.db h LOADED_IMAGE_PATH = some k.path := by rw [(f1 _ _).1, if_neg fun x => d1 x.2]; exact (l0 _ _).trans h2
  have hval1 : ∀ x, s1.db.valid x = true ↔ (closeAll s.db h).valid x = true := by
    intro x
    rw [valid_iff_protocol m1.reachable, valid_iff_protocol m0.reachable]
    constructor
    · rintro ⟨g, i, hx⟩
      rw [(f1 _ _).1] at hx
      split at hx
      · cases hx
      · exact ⟨g, i, hx⟩
    · rintro ⟨g, i, hx⟩
      by_cases c : x = h ∧ g = LOADED_IMAGE
      · exact ⟨LOADED_IMAGE_PATH, k.path, by rw [c.1]; exact p1⟩
      · exact ⟨g, i, by rw [(f1 _ _).1, if_neg c]; exact hx⟩
  have hcl1 : ∀ u, Closable s1.db u = Closable (closeAll s.db h) u := fun u => by
    unfold Closable
    rw [okHandle_same (fun x => Bool.eq_iff_iff.2 (hval1 x)), okHandle_same (fun x => Bool.eq_iff_iff.2 (hval1 x))]
  have us1 : users s1.db h LOADED_IMAGE_PATH = users (closeAll s.db h) h LOADED_IMAGE_PATH := by rw [(f1 _ _).2, if_neg fun x => d1 x.2]
  obtain ⟨s2, e2, r2, f2⟩ := uninstall_closes (w := w) fuel m1 p1 (by rw [us1]; intro u hu; rw [hcl1]; exact (cond _ (Or.inr rfl)).1 u hu) (by rw [us1]; exact (cond _ (Or.inr rfl)).2)
  refine ⟨s2, ?_, r2.trans r1, fun h' g => ?_⟩
  · unfold unload
    rw [e1]
    dsimp only
    rw [e2]
  · rw [(f2 _ _).1, (f1 _ _).1]
    show (if _ then none else if _ then none else lookup (closeAll s.db h) h' g) = _
    rw [l0]
    by_cases c : h' = h
    · subst c
      by_cases g1 : g = LOADED_IMAGE
      · simp [g1]
      · by_cases g2 : g = LOADED_IMAGE_PATH
        · simp [g2]
        · simp [g1, g2, h3 g g1 g2]
    · simp [c]

/-! ### Cases -/

open Verif.Services.Witness in
/-- A world where nothing happens by itself, with the core's handle and a device. -/
def before : St (List Nat) := mk [.install none 5 500, .install none 7 700]

open Verif.Services.Witness in
/-- An image that is loaded without a path, looked at by the core, and that opened the device's protocol. -/
def plain : St (List Nat) := mk [.install none 5 500, .install none 7 700, .install none LOADED_IMAGE 900, .install (some 3) LOADED_IMAGE_PATH 0, .addUsage 3 LOADED_IMAGE (some 1) none 1, .addUsage 2 7 (some 3) (some 2) 0x10]

open Verif.Services.Witness in
example : ∃ s', load (still true) before 900 0 0x4000 none = (.ok (3, ⟨900, 0⟩), s') ∧ lookup s'.db 3 LOADED_IMAGE_PATH = some 0 := ⟨_, rfl, by decide +kernel⟩

open Verif.Services.Witness in
example : ∃ s', load (still true) before 900 0x3000 0x4000 (some 0x5000) = (.ok (3, ⟨900, 0x3000⟩), s') ∧ lookup s'.db 3 LOADED_IMAGE_PATH = some 0x4000 ∧ lookup s'.db 3 PACKAGE_LIST = some 0x5000 := ⟨_, rfl, by decide +kernel⟩

open Verif.Services.Witness in
/-- Both findings, on a whole history: the image is loaded with a path and a package list and unloaded at once. The handle is still there, with both. -/
theorem unloaded_still_there : ∃ s s', load (still true) before 900 0x3000 0x4000 (some 0x5000) = (.ok (3, ⟨900, 0x3000⟩), s) ∧ unload (still true) 1 s 3 ⟨900, 0x3000⟩ = some s' ∧
    s'.db.valid 3 = true ∧ lookup s'.db 3 LOADED_IMAGE = none ∧ lookup s'.db 3 LOADED_IMAGE_PATH = some 0x4000 ∧ lookup s'.db 3 PACKAGE_LIST = some 0x5000 :=
  ⟨_, _, rfl, rfl, by decide +kernel, by decide +kernel, by decide +kernel, by decide +kernel⟩

open Verif.Services.Witness in
example : lookup plain.db 3 LOADED_IMAGE = some 900 ∧ lookup plain.db 3 LOADED_IMAGE_PATH = some 0 ∧ (users plain.db 2 7).length = 1 ∧
    (∀ u ∈ users plain.db 3 LOADED_IMAGE, Closable plain.db u = true) ∧ (users plain.db 3 LOADED_IMAGE_PATH = []) ∧ users (closeAll plain.db 3) 2 7 = [] := by decide +kernel

open Verif.Services.Witness in
/-- An image opened a protocol for a child, and the child's handle is gone. The usage survives the image: closing checks the controller's handle first, and the error is ignored. -/
theorem stale_usage_left : ∃ ops, (mk ops).db.valid 3 = true ∧ users (closeAll (mk ops).db 3) 2 7 = users (mk ops).db 2 7 ∧ ∃ u ∈ users (mk ops).db 2 7, u.agent = some 3 :=
  ⟨[.install none 5 500, .install none 7 700, .install none LOADED_IMAGE 900, .install none 9 901, .addUsage 2 7 (some 3) (some 4) 8, .uninstall 4 9 901], by decide +kernel, by decide +kernel, by decide +kernel⟩

end Verif.Images.Interfaces
