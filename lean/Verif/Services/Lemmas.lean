import Verif.Services.Model
import Verif.Protocol.Props
/-!
Lemmas on the protocol services: what the database answers, and what removing usages does.
-/
namespace Verif.Services
open Verif.Protocol

/-- A database that a history of calls leads to, with this hasher. -/
def Made (hash : Nat → Nat → Nat) (lim : Nat) (db : Db) : Prop := ∃ ops, db = Db.new.run hash lim ops

theorem Made.reachable {hash : Nat → Nat → Nat} {lim : Nat} {db : Db} (h : Made hash lim db) : Reachable db := by
  obtain ⟨ops, e⟩ := h
  exact ⟨hash, lim, ops, e⟩

theorem Made.step {hash : Nat → Nat → Nat} {lim : Nat} {db : Db} (h : Made hash lim db) (op : Op) : Made hash lim (db.step hash lim op) := by
  obtain ⟨ops, e⟩ := h
  exact ⟨ops ++ [op], by rw [e, Db.run, Db.run, List.foldl_append]; rfl⟩

variable {hash : Nat → Nat → Nat} {lim : Nat} {db : Db}

theorem getInterface_eq (db : Db) (h g : Nat) :
    db.getInterface h g = if db.valid h then (match lookup db h g with | some i => .ok i | none => .err .notFound) else .err .invalidParameter := by
  unfold lookup Db.valid BMap.has
  unfold Db.getInterface
  cases db.handles.get h with
  | none => rfl
  | some hd =>
    simp only [Option.isSome_some, if_true]
    cases hd.protocols.get g <;> rfl

theorem usagesOf_eq (db : Db) (h g : Nat) : usagesOf db h g = if db.valid h then .ok (users db h g) else .err .invalidParameter := by
  unfold usagesOf users Db.usages
  cases db.valid h with
  | false => rfl
  | true =>
    simp only [Bool.not_true, Bool.false_eq_true, if_false, if_true]
    cases db.getInst h g <;> rfl

theorem users_of_no_lookup {db : Db} {h g : Nat} (hl : lookup db h g = none) : users db h g = [] := by
  rw [lookup_eq] at hl
  rw [users_eq]
  cases hi : db.getInst h g with
  | none => rfl
  | some i => rw [hi] at hl; cases hl

theorem valid_of_lookup {db : Db} {h g i : Nat} (hl : lookup db h g = some i) : db.valid h = true := by
  rw [lookup_eq] at hl
  cases hi : db.getInst h g with
  | none => rw [hi] at hl; cases hl
  | some j => obtain ⟨hd, hh, _⟩ := getInst_some hi; exact valid_iff.2 ⟨hd, hh⟩

/-- Databases with the same interfaces have the same handles. -/
theorem valid_same {db db' : Db} (hr : Reachable db) (hr' : Reachable db') (he : ∀ h g, lookup db' h g = lookup db h g) (h : Nat) :
    db'.valid h = db.valid h := by
  rw [Bool.eq_iff_iff, valid_iff_protocol hr, valid_iff_protocol hr']
  simp only [he]

theorem Made.lookup_other (hm : Made hash lim db) (op : Op) (h1 : ∀ a b c, op ≠ .install a b c) (h2 : ∀ a b c, op ≠ .uninstall a b c) (h g : Nat) :
    lookup (db.step hash lim op) h g = lookup db h g := others_keep_interfaces hm.reachable hash lim op h1 h2 h g

theorem removeUsage_made (hm : Made hash lim db) (h g : Nat) (a c at_ : Option Nat) : Made hash lim (db.removeUsage h g a c at_).2 :=
  hm.step (.removeUsage h g a c at_)

theorem removeUsage_lookup (hm : Made hash lim db) (h g : Nat) (a c at_ : Option Nat) (h' g' : Nat) :
    lookup (db.removeUsage h g a c at_).2 h' g' = lookup db h' g' :=
  hm.lookup_other (.removeUsage h g a c at_) (fun _ _ _ e => by cases e) (fun _ _ _ e => by cases e) h' g'

theorem addUsage_made (hm : Made hash lim db) (h g : Nat) (a c : Option Nat) (at_ : Nat) : Made hash lim (db.addUsage h g a c at_).2 :=
  hm.step (.addUsage h g a c at_)

theorem addUsage_lookup (hm : Made hash lim db) (h g : Nat) (a c : Option Nat) (at_ : Nat) (h' g' : Nat) :
    lookup (db.addUsage h g a c at_).2 h' g' = lookup db h' g' :=
  hm.lookup_other (.addUsage h g a c at_) (fun _ _ _ e => by cases e) (fun _ _ _ e => by cases e) h' g'

theorem addUsage_hashing (db : Db) (h g : Nat) (a c : Option Nat) (at_ : Nat) : (db.addUsage h g a c at_).2.hashing = db.hashing := by
  unfold Db.addUsage
  split
  · rfl
  · split
    · rfl
    · split <;> rfl

theorem unregister_all_made (hm : Made hash lim db) (l : List Nat) : Made hash lim (l.foldl Db.unregister db) := by
  induction l generalizing db with
  | nil => exact hm
  | cons e l ih => exact ih (hm.step (.unregister e))

theorem unregister_all_lookup (l : List Nat) (db : Db) (h g : Nat) : lookup (l.foldl Db.unregister db) h g = lookup db h g := by
  induction l generalizing db with
  | nil => rfl
  | cons e l ih => exact (ih _).trans rfl

theorem unregister_all_users (l : List Nat) (db : Db) (h g : Nat) : users (l.foldl Db.unregister db) h g = users db h g := by
  induction l generalizing db with
  | nil => rfl
  | cons e l ih => exact (ih _).trans rfl

theorem unregister_all_valid (l : List Nat) (db : Db) (h : Nat) : (l.foldl Db.unregister db).valid h = db.valid h := by
  induction l generalizing db with
  | nil => rfl
  | cons e l ih => exact (ih _).trans rfl

theorem unregister_all_order (l : List Nat) (db : Db) : allHandles (l.foldl Db.unregister db) = allHandles db := by
  induction l generalizing db with
  | nil => rfl
  | cons e l ih => exact (ih _).trans rfl

/-! ### Removing usages -/

/-- Who uses, for whom, and how. -/
def key (u : Usage) : Option Nat × Option Nat × Nat := (u.agent, u.controller, u.attrs)

/-- A usage that can be closed without asking a driver: it is a light one, and its agent and controller are still there. -/
def Closable (db : Db) (u : Usage) : Bool := (u.attrs == 1 || u.attrs == 2 || u.attrs == 4) && db.okHandle u.agent && db.okHandle u.controller

theorem attr_cases (hr : Reachable db) {h g : Nat} {u : Usage} (hu : u ∈ users db h g) : validAttr u.attrs := by
  rw [users_eq] at hu
  cases hi : db.getInst h g with
  | none => rw [hi] at hu; cases hu
  | some i => rw [hi] at hu; exact ((inv_reachable hr).inst h g i hi).attr u hu

theorem isLight_eq {a : Nat} (h : validAttr a) : isLight a = (a == 1 || a == 2 || a == 4) := by
  rcases h with e | e | e | e | e | e | e <;> subst e <;> rfl

theorem isDriver_eq {a : Nat} (h : validAttr a) : isDriver a = (a == 0x10 || a == 0x30) := by
  rcases h with e | e | e | e | e | e | e <;> subst e <;> rfl

theorem okHandle_same {db db' : Db} (he : ∀ h, db'.valid h = db.valid h) (h : Option Nat) : db'.okHandle h = db.okHandle h := by
  cases h with
  | none => rfl
  | some h => exact he h

/-- What is left when usages are removed. -/
theorem dropLight_spec (h g : Nat) : ∀ (l : List Usage) {db : Db}, Made hash lim db → db.valid h = true → (∀ u ∈ l, validAttr u.attrs) →
    Made hash lim (dropLight h g l db).2 ∧
    (∀ h' g', lookup (dropLight h g l db).2 h' g' = lookup db h' g') ∧
    (∀ h' g', users (dropLight h g l db).2 h' g' =
      if h' = h ∧ g' = g then (users db h g).filter (fun v => ¬ ∃ u ∈ l, Closable db u = true ∧ key u = key v) else users db h' g') ∧
    ((dropLight h g l db).1 = false ↔ (∀ u ∈ l, Closable db u = true) ∧ (l.map key).Nodup ∧ ∀ u ∈ l, ∃ v ∈ users db h g, key v = key u) := by
  intro l
  induction l with
  | nil =>
    intro db hm _ _
    refine ⟨hm, fun _ _ => rfl, fun h' g' => ?_, by simp [dropLight]⟩
    show users db h' g' = _
    split
    · rename_i e
      rw [e.1, e.2, eq_comm, List.filter_eq_self]
      simp
    · rfl
  | cons u l ih =>
    intro db hm hvl ha
    have hau := ha u (List.mem_cons_self ..)
    have hal : ∀ v ∈ l, validAttr v.attrs := fun v hv => ha v (List.mem_cons_of_mem _ hv)
    unfold dropLight
    by_cases hlt : isLight u.attrs = true
    · rw [if_pos hlt]
      simp only
      have hm1 := removeUsage_made hm h g u.agent u.controller (some u.attrs)
      have hlk := removeUsage_lookup hm h g u.agent u.controller (some u.attrs)
      obtain ⟨c1, c2⟩ := close_exact hm.reachable h g u.agent u.controller (some u.attrs)
      have hval : ∀ x, (db.removeUsage h g u.agent u.controller (some u.attrs)).2.valid x = db.valid x := valid_same hm.reachable hm1.reachable hlk
      have hcl : ∀ v, Closable (db.removeUsage h g u.agent u.controller (some u.attrs)).2 v = Closable db v := fun v => by
        unfold Closable
        rw [okHandle_same hval, okHandle_same hval]
      obtain ⟨i1, i2, i3, i4⟩ := ih hm1 (by rw [hval]; exact hvl) hal
      have hcu : Closable db u = (db.okHandle u.agent && db.okHandle u.controller) := by
        unfold Closable
        rw [← isLight_eq hau, hlt, Bool.true_and]
      have hmatch : ∀ v : Usage, Matching u.agent u.controller (some u.attrs) v ↔ key u = key v := fun v => by
        unfold Matching key
        simp only [Option.some.injEq, forall_eq', Prod.mk.injEq]
        constructor
        · rintro ⟨a, b, c⟩; exact ⟨a.symm, b.symm, c.symm⟩
        · rintro ⟨a, b, c⟩; exact ⟨a.symm, b.symm, c.symm⟩
      have hres : (db.removeUsage h g u.agent u.controller (some u.attrs)).1 = .ok () ↔ Closable db u = true ∧ ∃ v ∈ users db h g, key v = key u := by
        rw [c1, hvl, hcu]
        simp only [hmatch]
        cases db.okHandle u.agent <;> cases db.okHandle u.controller <;> simp
        constructor
        · rintro ⟨v, hv, e⟩; exact ⟨v, hv, e.symm⟩
        · rintro ⟨v, hv, e⟩; exact ⟨v, hv, e.symm⟩
      have hus : ∀ h' g', users (db.removeUsage h g u.agent u.controller (some u.attrs)).2 h' g' =
          if h' = h ∧ g' = g then (users db h g).filter (fun v => ¬ (Closable db u = true ∧ key u = key v)) else users db h' g' := by
        intro h' g'
        rw [c2 h' g']
        by_cases e : h' = h ∧ g' = g
        · rw [if_pos e, e.1, e.2]
          by_cases hr : (db.removeUsage h g u.agent u.controller (some u.attrs)).1 = .ok ()
          · rw [if_pos ⟨rfl, rfl, hr⟩]
            have hcu' := (hres.1 hr).1
            refine List.filter_congr fun v _ => ?_
            simp only [hmatch, hcu', true_and]
          · rw [if_neg (fun x => hr x.2.2), eq_comm, List.filter_eq_self]
            intro v hv
            refine decide_eq_true fun x => hr (hres.2 ⟨x.1, v, hv, x.2.symm⟩)
        · rw [if_neg e, if_neg (fun x => e ⟨x.1, x.2.1⟩)]
      refine ⟨i1, fun h' g' => (i2 h' g').trans (hlk h' g'), fun h' g' => ?_, ?_⟩
      · rw [i3 h' g']
        by_cases e : h' = h ∧ g' = g
        · rw [if_pos e, if_pos e, hus h g, if_pos ⟨rfl, rfl⟩, List.filter_filter]
          refine List.filter_congr fun v _ => ?_
          simp only [hcl]
          rw [Bool.eq_iff_iff]
          simp
          constructor
          · rintro ⟨a, b⟩
            exact ⟨b, a⟩
          · rintro ⟨a, b⟩
            exact ⟨b, a⟩
        · rw [if_neg e, if_neg e, hus h' g', if_neg e]
      · rw [Bool.or_eq_false_iff, i4]
        simp only [hcl, decide_eq_false_iff_not, Decidable.not_not, hres, List.map_cons, List.nodup_cons, List.mem_cons, forall_eq_or_imp]
        rw [hus h g, if_pos ⟨rfl, rfl⟩]
        constructor
        · rintro ⟨⟨a, b, c⟩, d, e⟩
          refine ⟨⟨d, a⟩, ⟨?_, b⟩, e, fun v hv => ?_⟩
          · intro hx
            obtain ⟨v, hv, ev⟩ := List.mem_map.1 hx
            obtain ⟨x, hx, ex⟩ := c v hv
            rw [List.mem_filter, decide_eq_true_iff] at hx
            exact hx.2 ⟨d, by rw [ex, ev]⟩
          · obtain ⟨x, hx, ex⟩ := c v hv
            exact ⟨x, (List.mem_filter.1 hx).1, ex⟩
        · rintro ⟨⟨d, a⟩, ⟨n, b⟩, e, f⟩
          refine ⟨⟨a, b, fun v hv => ?_⟩, d, e⟩
          obtain ⟨x, hx, ex⟩ := f v hv
          refine ⟨x, List.mem_filter.2 ⟨hx, decide_eq_true fun y => n (List.mem_map.2 ⟨v, hv, ?_⟩)⟩, ex⟩
          rw [← ex, ← y.2]
    · rw [if_neg hlt]
      simp only
      have hcu : Closable db u = false := by
        unfold Closable
        rw [← isLight_eq hau, Bool.eq_false_iff.2 hlt, Bool.false_and, Bool.false_and]
      obtain ⟨i1, i2, i3, _⟩ := ih hm hvl hal
      refine ⟨i1, i2, fun h' g' => ?_, ?_⟩
      · rw [i3 h' g']
        split
        · refine List.filter_congr fun v _ => ?_
          simp [hcu]
        · rfl
      · simp [hcu]

/-- Removing all of them. -/
theorem dropLight_users (hm : Made hash lim db) {h g : Nat} (hvl : db.valid h = true) :
    Made hash lim (dropLight h g (users db h g) db).2 ∧
    (∀ h' g', lookup (dropLight h g (users db h g) db).2 h' g' = lookup db h' g') ∧
    (∀ h' g', users (dropLight h g (users db h g) db).2 h' g' =
      if h' = h ∧ g' = g then (users db h g).filter (fun v => !Closable db v) else users db h' g') ∧
    ((dropLight h g (users db h g) db).1 = false ↔ (∀ u ∈ users db h g, Closable db u = true) ∧ ((users db h g).map key).Nodup) := by
  obtain ⟨h1, h2, h3, h4⟩ := dropLight_spec (hash := hash) (lim := lim) h g (users db h g) hm hvl (fun u hu => attr_cases hm.reachable hu)
  refine ⟨h1, h2, fun h' g' => ?_, ?_⟩
  · rw [h3 h' g']
    split
    · refine List.filter_congr fun v hv => ?_
      rw [Bool.eq_iff_iff, decide_eq_true_iff]
      constructor
      · intro hx
        cases hc : Closable db v with
        | false => rfl
        | true => exact absurd ⟨v, hv, hc, rfl⟩ hx
      · rintro hx ⟨u, _, hu, e⟩
        have : Closable db v = Closable db u := by
          unfold key at e
          simp only [Prod.mk.injEq] at e
          unfold Closable
          rw [e.1, e.2.1, e.2.2]
        rw [this, hu] at hx
        cases hx
    · rfl
  · rw [h4]
    constructor
    · rintro ⟨a, b, _⟩; exact ⟨a, b⟩
    · rintro ⟨a, b⟩; exact ⟨a, b, fun u hu => ⟨u, hu, rfl⟩⟩

end Verif.Services
