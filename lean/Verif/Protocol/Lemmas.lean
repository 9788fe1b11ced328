import Verif.Protocol.Model
/-! Invariants of the protocol database. -/
namespace Verif.Protocol
open Verif

/-- A usage that keeps others out. -/
def hard (u : Usage) : Bool := isDriver u.attrs || isExclusive u.attrs

def validAttr (a : Nat) : Prop := a = 1 ∨ a = 2 ∨ a = 4 ∨ a = 8 ∨ a = 16 ∨ a = 32 ∨ a = 48

structure InstOk (i : Inst) : Prop where
  drv : i.byDriver = i.usage.any (fun u => isDriver u.attrs)
  exc : i.byExclusive = i.usage.any (fun u => isExclusive u.attrs)
  one : (i.usage.filter hard).length ≤ 1
  agent : ∀ u ∈ i.usage, u.agent.isSome = true
  attr : ∀ u ∈ i.usage, validAttr u.attrs
  ctrl : ∀ u ∈ i.usage, isChild u.attrs = true ∨ isDriver u.attrs = true → u.controller.isSome = true

structure Inv (db : Db) : Prop where
  sorted : BMap.Sorted db.handles
  psorted : ∀ h hd, db.handles.get h = some hd → BMap.Sorted hd.protocols
  nonempty : ∀ h hd, db.handles.get h = some hd → hd.protocols ≠ []
  inst : ∀ h g i, db.getInst h g = some i → InstOk i
  nonzero : db.handles.has 0 = false
  order : ∀ h hd, db.handles.get h = some hd → hd.order ≤ db.nextHandle
  orders : ∀ h h' hd hd', db.handles.get h = some hd → db.handles.get h' = some hd' → hd.order = hd'.order → h = h'
  low : db.hashing = false → ∀ h, db.handles.has h = true → h < db.nextHandle
  pos : 1 ≤ db.nextHandle
  nsorted : BMap.Sorted db.notifications
  regs : ∀ g l, db.notifications.get g = some l → l.Pairwise (fun a b => a.registration < b.registration)
  regBound : ∀ g l n, db.notifications.get g = some l → n ∈ l → n.registration < db.nextRegistration
  regOne : ∀ g g' l l' n n', db.notifications.get g = some l → db.notifications.get g' = some l' → n ∈ l → n' ∈ l' →
    n.registration = n'.registration → g = g'
  fresh : ∀ g l n, db.notifications.get g = some l → n ∈ l → BMap.Sorted n.fresh

theorem inv_new : Inv Db.new where
  sorted := BMap.Sorted.nil
  psorted := fun h hd hh => by simp [Db.new] at hh
  nonempty := fun h hd hh => by simp [Db.new] at hh
  inst := fun h g i hh => by simp [Db.new, Db.getInst] at hh
  nonzero := rfl
  order := fun h hd hh => by simp [Db.new] at hh
  orders := fun h h' hd hd' hh => by simp [Db.new] at hh
  low := fun _ h hh => by simp [Db.new, BMap.has] at hh
  pos := Nat.le_refl 1
  nsorted := BMap.Sorted.nil
  regs := fun g l hh => by simp [Db.new] at hh
  regBound := fun g l n hh => by simp [Db.new] at hh
  regOne := fun g g' l l' n n' hh => by simp [Db.new] at hh
  fresh := fun g l n hh => by simp [Db.new] at hh

/-! ### Reading instances -/

theorem getInst_eq {db : Db} {h g : Nat} {hd : Handle} (hh : db.handles.get h = some hd) :
    db.getInst h g = hd.protocols.get g := by unfold Db.getInst; rw [hh]

theorem getInst_none {db : Db} {h g : Nat} (hh : db.handles.get h = none) : db.getInst h g = none := by
  unfold Db.getInst; rw [hh]

theorem getInst_some {db : Db} {h g : Nat} {i : Inst} (hi : db.getInst h g = some i) :
    ∃ hd, db.handles.get h = some hd ∧ hd.protocols.get g = some i := by
  unfold Db.getInst at hi
  cases hh : db.handles.get h with
  | none => rw [hh] at hi; cases hi
  | some hd => rw [hh] at hi; exact ⟨hd, rfl, hi⟩

theorem valid_iff {db : Db} {h : Nat} : db.valid h = true ↔ ∃ hd, db.handles.get h = some hd := BMap.has_iff

theorem valid_false {db : Db} {h : Nat} : db.valid h = false ↔ db.handles.get h = none := BMap.has_false

theorem getInst_insert (db : Db) (h g : Nat) (hd : Handle) (n : BMap (List Notify)) (x y : Nat) (b : Bool) (h' g' : Nat) :
    Db.getInst ⟨db.handles.insert h hd, n, b, x, y⟩ h' g' =
      if h' = h then hd.protocols.get g' else db.getInst h' g' := by
  unfold Db.getInst
  simp only [BMap.get_insert]
  by_cases e : h' = h
  · simp [e]
  · simp [e]

theorem getInst_setInst (db : Db) (h g : Nat) (i : Inst) (h' g' : Nat) :
    (db.setInst h g i).getInst h' g' =
      if h' = h ∧ g' = g then (db.getInst h' g').map (fun _ => i) else db.getInst h' g' := by
  unfold Db.getInst Db.setInst
  simp only [BMap.get_modify]
  by_cases e : h' = h
  · subst e
    rw [if_pos rfl]
    cases hh : db.handles.get h' with
    | none => simp
    | some hd =>
      simp only [Option.map_some, BMap.get_modify]
      by_cases e : g' = g
      · simp [e]
      · simp [e]
  · simp [e]

theorem setInst_get (db : Db) (h g : Nat) (i : Inst) (h' : Nat) (hd' : Handle)
    (hh : (db.setInst h g i).handles.get h' = some hd') :
    ∃ hd, db.handles.get h' = some hd ∧ hd'.order = hd.order ∧ hd'.protocols.keys = hd.protocols.keys ∧
      (BMap.Sorted hd.protocols → BMap.Sorted hd'.protocols) := by
  unfold Db.setInst at hh
  simp only [BMap.get_modify] at hh
  split at hh
  · cases hg : db.handles.get h' with
    | none => rw [hg] at hh; cases hh
    | some hd =>
      rw [hg] at hh
      cases hh
      exact ⟨hd, rfl, rfl, BMap.modify_keys hd.protocols g (fun _ => i), fun hs => BMap.sorted_modify hs g (fun _ => i)⟩
  · exact ⟨hd', hh, rfl, rfl, id⟩

theorem setInst_has (db : Db) (h g : Nat) (i : Inst) (h' : Nat) : (db.setInst h g i).handles.has h' = db.handles.has h' := by
  unfold Db.setInst BMap.has
  simp only [BMap.get_modify]
  split
  · cases db.handles.get h' <;> rfl
  · rfl

theorem keys_nil {V : Type} {m : BMap V} : m.keys = [] ↔ m = [] := by
  unfold BMap.keys; exact List.map_eq_nil_iff

theorem inv_setInst {db : Db} (hv : Inv db) (h g : Nat) {i : Inst} (hi : InstOk i) : Inv (db.setInst h g i) where
  sorted := BMap.sorted_modify hv.sorted h (fun hd => { hd with protocols := hd.protocols.modify g fun _ => i })
  psorted := fun h' hd' hh => by
    obtain ⟨hd, h1, _, _, h4⟩ := setInst_get db h g i h' hd' hh
    exact h4 (hv.psorted h' hd h1)
  nonempty := fun h' hd' hh => by
    obtain ⟨hd, h1, _, h3, _⟩ := setInst_get db h g i h' hd' hh
    intro hn
    apply hv.nonempty h' hd h1
    rw [← keys_nil, ← h3, hn]; rfl
  inst := fun h' g' i' hh => by
    rw [getInst_setInst] at hh
    split at hh
    · cases hj : db.getInst h' g' with
      | none => rw [hj] at hh; cases hh
      | some j => rw [hj] at hh; cases hh; exact hi
    · exact hv.inst h' g' i' hh
  nonzero := by rw [setInst_has]; exact hv.nonzero
  order := fun h' hd' hh => by
    obtain ⟨hd, h1, h2, _, _⟩ := setInst_get db h g i h' hd' hh
    rw [h2]; exact hv.order h' hd h1
  orders := fun h1 h2 hd1 hd2 e1 e2 he => by
    obtain ⟨a, a1, a2, _, _⟩ := setInst_get db h g i h1 hd1 e1
    obtain ⟨b, b1, b2, _, _⟩ := setInst_get db h g i h2 hd2 e2
    exact hv.orders h1 h2 a b a1 b1 (by omega)
  low := fun hf h' hh => by rw [setInst_has] at hh; exact hv.low hf h' hh
  pos := hv.pos
  nsorted := hv.nsorted
  regs := hv.regs
  regBound := hv.regBound
  regOne := hv.regOne
  fresh := hv.fresh

/-! ### Opening -/

theorem new_ok {h : Nat} {a c : Option Nat} {at_ : Nat} {u : Usage} (hu : Usage.new h a c at_ = .ok u) :
    u = ⟨a, c, at_, 1⟩ ∧ validAttr at_ ∧ (isChild at_ = true ∨ isDriver at_ = true → c.isSome = true) ∧
    (isChild at_ = true ∨ isDriver at_ = true ∨ isExclusive at_ = true → a.isSome = true) := by
  unfold Usage.new at hu
  unfold validAttr
  by_cases h8 : at_ = BY_CHILD_CONTROLLER
  · rw [if_pos h8] at hu; subst h8
    cases a with
    | none => cases hu
    | some a =>
      cases c with
      | none => cases hu
      | some c =>
        simp only at hu
        split at hu
        · cases hu
        · cases hu; exact ⟨rfl, by decide, by simp, by simp⟩
  · rw [if_neg h8] at hu
    split at hu
    · rename_i h16
      simp only [BY_DRIVER, BY_DRIVER_EXCLUSIVE] at h16
      split at hu
      · cases hu
      · rename_i hn
        cases hu
        simp only [Bool.or_eq_true, not_or, Bool.not_eq_true, Option.isNone_eq_false_iff] at hn
        refine ⟨rfl, by omega, fun _ => hn.2, fun _ => hn.1⟩
    · split at hu
      · rename_i h32; subst h32
        split at hu
        · cases hu
        · rename_i hn
          cases hu
          simp only [Bool.not_eq_true, Option.isNone_eq_false_iff] at hn
          refine ⟨rfl, by decide, ?_, fun _ => hn⟩
          intro hx; exact absurd hx (by decide)
      · split at hu
        · rename_i h124
          simp only [BY_HANDLE_PROTOCOL, GET_PROTOCOL, TEST_PROTOCOL] at h124
          cases hu
          refine ⟨rfl, by omega, ?_, ?_⟩
          · rcases h124 with e | e | e <;> subst e <;> exact fun hx => absurd hx (by decide)
          · rcases h124 with e | e | e <;> subst e <;> exact fun hx => absurd hx (by decide)
        · cases hu

theorem hard_iff {at_ : Nat} (hv : validAttr at_) :
    (at_ = BY_DRIVER ∨ at_ = EXCLUSIVE ∨ at_ = BY_DRIVER_EXCLUSIVE) ↔ (isDriver at_ || isExclusive at_) = true := by
  rcases hv with e | e | e | e | e | e | e <;> subst e <;> decide

theorem same_iff {a b : Usage} : a.same b = true ↔ a.agent = b.agent ∧ a.controller = b.controller ∧ a.attrs = b.attrs := by
  unfold Usage.same; simp [and_assoc]

/-- Counting up the first match. -/
def bump (u : Usage) (l : List Usage) : List Usage :=
  (l.takeWhile (fun x => !x.same u)) ++
    (match l.dropWhile (fun x => !x.same u) with
     | [] => []
     | x :: l => { x with count := x.count + 1 } :: l)

theorem bump_cons (u x : Usage) (l : List Usage) :
    bump u (x :: l) = if x.same u then { x with count := x.count + 1 } :: l else x :: bump u l := by
  unfold bump
  cases hx : x.same u with
  | true => simp [hx]
  | false => simp [hx]

theorem bump_attrs (u : Usage) (l : List Usage) :
    (bump u l).map (fun x => (x.agent, x.controller, x.attrs)) = l.map (fun x => (x.agent, x.controller, x.attrs)) := by
  induction l with
  | nil => rfl
  | cons x l ih =>
    rw [bump_cons]
    split
    · rfl
    · simp only [List.map_cons, ih]

/-- `InstOk` looks only at who opened how. -/
theorem InstOk.transfer {i j : Inst} (hi : InstOk i) (h1 : j.byDriver = i.byDriver) (h2 : j.byExclusive = i.byExclusive)
    (h3 : j.usage.map (fun x => (x.agent, x.controller, x.attrs)) = i.usage.map (fun x => (x.agent, x.controller, x.attrs))) :
    InstOk j := by
  have all : ∀ p : Option Nat × Option Nat × Nat → Prop,
      (∀ u ∈ i.usage, p (u.agent, u.controller, u.attrs)) → ∀ u ∈ j.usage, p (u.agent, u.controller, u.attrs) := by
    intro p hp u hu
    have : (u.agent, u.controller, u.attrs) ∈ j.usage.map (fun x => (x.agent, x.controller, x.attrs)) :=
      List.mem_map_of_mem (f := fun x => (x.agent, x.controller, x.attrs)) hu
    rw [h3] at this
    obtain ⟨v, hv, he⟩ := List.mem_map.1 this
    rw [← he]; exact hp v hv
  have any : ∀ f : Nat → Bool, j.usage.any (fun u => f u.attrs) = i.usage.any (fun u => f u.attrs) := by
    intro f
    have := congrArg (fun l => l.any (fun x : Option Nat × Option Nat × Nat => f x.2.2)) h3
    simp only [List.any_map] at this
    exact this
  refine ⟨?_, ?_, ?_, ?_, ?_, ?_⟩
  · rw [h1, hi.drv, any]
  · rw [h2, hi.exc, any]
  · have := congrArg (fun l => (l.filter (fun x : Option Nat × Option Nat × Nat => isDriver x.2.2 || isExclusive x.2.2)).length) h3
    simp only [List.filter_map, List.length_map] at this
    have e : (j.usage.filter hard).length = (i.usage.filter hard).length := this
    rw [e]; exact hi.one
  · exact all (fun x => x.1.isSome = true) hi.agent
  · exact all (fun x => validAttr x.2.2) hi.attr
  · exact all (fun x => isChild x.2.2 = true ∨ isDriver x.2.2 = true → x.2.1.isSome = true) hi.ctrl

theorem hard_free {i : Inst} (hi : InstOk i) (h : ¬ (i.byExclusive = true ∨ i.byDriver = true)) : i.usage.filter hard = [] := by
  rw [List.filter_eq_nil_iff]
  intro u hu hh
  apply h
  rw [hi.drv, hi.exc]
  unfold hard at hh
  rcases Bool.or_eq_true_iff.1 hh with hh | hh
  · exact Or.inr (List.any_eq_true.2 ⟨u, hu, hh⟩)
  · exact Or.inl (List.any_eq_true.2 ⟨u, hu, hh⟩)

theorem open_ok {i j : Inst} (hi : InstOk i) {h : Nat} {a c : Option Nat} {at_ : Nat} (ho : i.open h a c at_ = .ok j) :
    InstOk j ∧ j.interface = i.interface := by
  unfold Inst.open at ho
  cases hu : Usage.new h a c at_ with
  | err e => rw [hu] at ho; cases ho
  | panic => rw [hu] at ho; cases ho
  | ok u =>
    rw [hu] at ho
    obtain ⟨rfl, n2, n3, n4⟩ := new_ok hu
    simp only at ho
    split at ho
    · cases ho
    · split at ho
      · cases ho
        exact ⟨hi.transfer rfl rfl (bump_attrs ⟨a, c, at_, 1⟩ i.usage), rfl⟩
      · split at ho
        · cases ho
        · rename_i hna
          split at ho
          · cases ho; exact ⟨hi, rfl⟩
          · rename_i hag
            cases ho
            refine ⟨⟨?_, ?_, ?_, ?_, ?_, ?_⟩, rfl⟩
            · simp only [List.any_append, List.any_cons, List.any_nil, Bool.or_false]; rw [hi.drv]
            · simp only [List.any_append, List.any_cons, List.any_nil, Bool.or_false]; rw [hi.exc]
            · show ((i.usage ++ [_]).filter hard).length ≤ 1
              rw [List.filter_append, List.length_append]
              by_cases hh : hard ⟨a, c, at_, 1⟩ = true
              · have := (hard_iff n2).2 hh
                have hf := hard_free hi (fun x => hna ⟨this, x⟩)
                rw [hf]; simp [hh]
              · have : List.filter hard [(⟨a, c, at_, 1⟩ : Usage)] = [] := by simp [hh]
                rw [this]; exact hi.one
            all_goals
              intro u hu
              simp only [List.mem_append, List.mem_singleton] at hu
              rcases hu with hu | hu
            · exact hi.agent u hu
            · subst hu
              simp only [Bool.not_eq_true, Option.isNone_eq_false_iff] at hag
              exact hag
            · exact hi.attr u hu
            · subst hu; exact n2
            · exact hi.ctrl u hu
            · subst hu; exact n3

theorem open_no_panic (h : Nat) (a c : Option Nat) (at_ : Nat) (i : Inst) : i.open h a c at_ ≠ .panic := by
  have hn : Usage.new h a c at_ ≠ .panic := by
    unfold Usage.new
    intro hc
    repeat' split at hc
    all_goals cases hc
  unfold Inst.open
  intro hc
  split at hc
  · cases hc
  · rename_i e; exact hn e
  · dsimp only at hc
    repeat' split at hc
    all_goals cases hc

/-! ### Closing -/

/-- `closeAll` with enough fuel removes exactly the matching usages. -/
theorem closeAll_spec (a c at_ : Option Nat) : ∀ (n : Nat) (st : Bool) (i : Inst), i.usage.length < n → InstOk i →
    ∃ j, Inst.closeAll a c at_ n st i = (st || i.usage.any (Usage.closes a c at_), j) ∧
      j.usage = i.usage.filter (fun u => !u.closes a c at_) ∧ j.interface = i.interface ∧ InstOk j := by
  intro n
  induction n with
  | zero => intro st i hn; omega
  | succ n ih =>
    intro st i hn hi
    unfold Inst.closeAll
    simp only
    cases hd : i.usage.reverse.dropWhile (fun u => !u.closes a c at_) with
    | nil =>
      have hno : ∀ u ∈ i.usage, u.closes a c at_ = false := by
        intro u hu
        have : ∀ u ∈ i.usage.reverse, (!u.closes a c at_) = true := by
          have gen : ∀ (p : Usage → Bool) (l : List Usage), l.dropWhile p = [] → ∀ u ∈ l, p u = true := by
            intro p l
            induction l with
            | nil => intro _ u hu; cases hu
            | cons x l ih =>
              intro h u hu
              rw [List.dropWhile_cons] at h
              split at h
              · rename_i hx
                rcases List.mem_cons.1 hu with e | e
                · rw [e]; exact hx
                · exact ih h u e
              · cases h
          exact gen _ _ hd
        simpa using this u (List.mem_reverse.2 hu)
      have hany : i.usage.any (Usage.closes a c at_) = false := by
        rw [List.any_eq_false]; intro u hu; simp [hno u hu]
      refine ⟨i, by simp [hany], ?_, rfl, hi⟩
      symm
      rw [List.filter_eq_self]
      intro u hu; simp [hno u hu]
    | cons u before =>
      have hsplit := List.takeWhile_append_dropWhile (p := fun u => !u.closes a c at_) (l := i.usage.reverse)
      rw [hd] at hsplit
      generalize hafter : i.usage.reverse.takeWhile (fun u => !u.closes a c at_) = after at hsplit ⊢
      have hu : u.closes a c at_ = true := by
        have := List.head_dropWhile_not (p := fun u => !u.closes a c at_) (l := i.usage.reverse) (by rw [hd]; simp)
        simp only [hd, List.head_cons] at this
        simpa using this
      have hus : i.usage = before.reverse ++ u :: after.reverse := by
        have := congrArg List.reverse hsplit
        rw [List.reverse_reverse] at this
        rw [← this]; simp
      have huse : (after ++ before).reverse = before.reverse ++ after.reverse := by simp
      simp only [huse]
      generalize before.reverse = B at *
      generalize after.reverse = A at *
      have hsub : ∀ x, x ∈ B ++ A → x ∈ i.usage := by
        intro x hx; rw [hus]; simp only [List.mem_append, List.mem_cons] at hx ⊢; exact hx.elim Or.inl (fun h => Or.inr (Or.inr h))
      have one := hi.one
      rw [hus] at one
      have flag : ∀ (f : Nat → Bool), (∀ x, f x = true → (isDriver x || isExclusive x) = true) →
          (if f u.attrs = true then false else i.usage.any (fun x => f x.attrs)) = (B ++ A).any (fun x => f x.attrs) := by
        intro f hf
        split
        · rename_i hfu
          have hhu : hard u = true := hf _ hfu
          simp only [List.filter_append, List.filter_cons, hhu, if_true, List.length_append, List.length_cons] at one
          symm
          rw [List.any_eq_false]
          intro x hx hfx
          have hhx : hard x = true := hf _ hfx
          have : x ∈ (B ++ A).filter hard := List.mem_filter.2 ⟨hx, hhx⟩
          have := List.length_pos_of_mem this
          rw [List.filter_append, List.length_append] at this
          omega
        · rename_i hfu
          rw [hus]
          simp only [Bool.not_eq_true] at hfu
          simp only [List.any_append, List.any_cons, hfu, Bool.false_or]
      have hj : InstOk { i with usage := B ++ A, byDriver := if isDriver u.attrs then false else i.byDriver,
                                byExclusive := if isExclusive u.attrs then false else i.byExclusive } := by
        refine ⟨?_, ?_, ?_, fun x hx => hi.agent x (hsub x hx), fun x hx => hi.attr x (hsub x hx), fun x hx => hi.ctrl x (hsub x hx)⟩
        · show (if isDriver u.attrs = true then false else i.byDriver) = _
          rw [hi.drv]; exact flag isDriver (fun x hx => by simp [hx])
        · show (if isExclusive u.attrs = true then false else i.byExclusive) = _
          rw [hi.exc]; exact flag isExclusive (fun x hx => by simp [hx])
        · show ((B ++ A).filter hard).length ≤ 1
          have : ((B ++ A).filter hard).Sublist ((B ++ u :: A).filter hard) :=
            List.Sublist.filter _ (List.Sublist.append_left (List.sublist_cons_self u A) B)
          exact Nat.le_trans this.length_le one
      have hlen : (B ++ A).length < n := by
        have := hn
        rw [hus] at this
        simp only [List.length_append, List.length_cons] at this ⊢
        omega
      obtain ⟨j, j1, j2, j3, j4⟩ := ih true _ hlen hj
      refine ⟨j, ?_, ?_, j3, j4⟩
      · rw [j1]
        have : i.usage.any (Usage.closes a c at_) = true := List.any_eq_true.2 ⟨u, by rw [hus]; simp, hu⟩
        rw [this]; simp
      · rw [j2, hus]
        simp [List.filter_append, List.filter_cons, hu]

/-! ### Installing -/

theorem findKey_spec (hash : Nat → Nat → Nat) (db : Db) : ∀ (lim i k n : Nat), findKey hash db lim i = some (k, n) →
    k ≠ 0 ∧ db.handles.has k = false ∧ i < n := by
  intro lim
  induction lim with
  | zero => intro i k n h; cases h
  | succ lim ih =>
    intro i k n h
    unfold findKey at h
    simp only at h
    split at h
    · obtain ⟨a, b, c⟩ := ih _ _ _ h; exact ⟨a, b, by omega⟩
    · rename_i hk
      cases h
      simp only [not_or, Bool.not_eq_true] at hk
      exact ⟨hk.1, hk.2, by omega⟩

/-- What `newHandle` does: a fresh nonzero key, empty, youngest. -/
theorem newHandle_spec {hash : Nat → Nat → Nat} {lim : Nat} {db db' : Db} {h : Nat} (hv : Inv db)
    (hn : db.newHandle hash lim = .ok (h, db')) :
    ∃ o, db.nextHandle < o ∧ h ≠ 0 ∧ db.handles.has h = false ∧ (db.hashing = false → h < o) ∧
      db' = ⟨db.handles.insert h ⟨o, []⟩, db.notifications, db.hashing, o, db.nextRegistration⟩ := by
  unfold Db.newHandle at hn
  split at hn
  · rename_i hh
    cases hf : findKey hash db lim 0 with
    | none => rw [hf] at hn; cases hn
    | some p =>
      obtain ⟨k, n⟩ := p
      rw [hf] at hn
      cases hn
      obtain ⟨a, b, c⟩ := findKey_spec hash db _ _ _ _ hf
      exact ⟨db.nextHandle + n, by omega, a, b, (by rw [hh]; intro hx; cases hx), rfl⟩
  · rename_i hh
    cases hn
    refine ⟨db.nextHandle + 1, by omega, ?_, ?_, fun _ => by omega, rfl⟩
    · have := hv.pos; omega
    · cases hx : db.handles.has db.nextHandle with
      | false => rfl
      | true => have := hv.low (by simpa using hh) _ hx; omega

theorem newHandle_no_err {hash : Nat → Nat → Nat} {lim : Nat} {db : Db} {e : Err} : db.newHandle hash lim ≠ .err e := by
  unfold Db.newHandle
  intro h
  repeat' split at h
  all_goals cases h

theorem newHandle_unhashed {hash : Nat → Nat → Nat} {lim : Nat} {db : Db} (hh : db.hashing = false) :
    db.newHandle hash lim ≠ .panic := by
  unfold Db.newHandle
  rw [hh]; intro h; cases h

/-- The state after putting `g` on `h`. -/
def putInst (db : Db) (h o g iface : Nat) (ps : BMap Inst) (nh : Nat) : Db :=
  { db with handles := db.handles.insert h ⟨o, ps.insert g ⟨iface, false, false, []⟩⟩,
            notifications := db.notifications.modify g (·.map fun n => { n with fresh := n.fresh.insert h () }),
            nextHandle := nh }

theorem insert_insert {V : Type} (m : BMap V) (k : Nat) (v w : V) : (m.insert k v).insert k w = m.insert k w := by
  induction m with
  | nil => simp [BMap.insert]
  | cons x m ih =>
    by_cases h1 : k < x.1
    · simp [BMap.insert, h1]
    · by_cases h2 : k = x.1
      · simp [BMap.insert, h2]
      · simp [BMap.insert, h1, h2, ih]

/-- Every successful install is a `putInst`. -/
theorem install_ok {hash : Nat → Nat → Nat} {lim : Nat} {db : Db} (hv : Inv db) {handle : Option Nat} {g iface h : Nat}
    {ns : List Notify} (hi : (db.install hash lim handle g iface).1 = .ok (h, ns)) :
    ∃ o ps nh, (db.install hash lim handle g iface).2 = putInst db h o g iface ps nh ∧
      ns = ((putInst db h o g iface ps nh).notifications.get g).getD [] ∧
      BMap.has ps g = false ∧
      ((handle = some h ∧ db.handles.get h = some ⟨o, ps⟩ ∧ nh = db.nextHandle) ∨
       (handle = none ∧ db.handles.get h = none ∧ h ≠ 0 ∧ ps = [] ∧ nh = o ∧ db.nextHandle < o ∧
         (db.hashing = false → h < o))) := by
  unfold Db.install at *
  cases handle with
  | some h0 =>
    simp only at *
    split at hi
    · rename_i hval
      rw [if_pos hval]
      unfold Db.installOn at *
      obtain ⟨hd, hh⟩ := valid_iff.1 hval
      rw [hh] at hi ⊢
      simp only at *
      split at hi
      · cases hi
      · rename_i hg
        rw [if_neg hg]
        cases hi
        exact ⟨hd.order, hd.protocols, db.nextHandle, rfl, rfl, by simpa using hg, Or.inl ⟨rfl, hh, rfl⟩⟩
    · cases hi
  | none =>
    simp only at *
    cases hn : db.newHandle hash lim with
    | err e => exact absurd hn newHandle_no_err
    | panic => rw [hn] at hi; cases hi
    | ok p =>
      obtain ⟨k, db'⟩ := p
      simp only [hn] at hi ⊢
      obtain ⟨o, h1, h2, h3, h4, rfl⟩ := newHandle_spec hv hn
      unfold Db.installOn at *
      have hget : (db.handles.insert k ⟨o, []⟩).get k = some ⟨o, []⟩ := by rw [BMap.get_insert, if_pos rfl]
      rw [hget] at hi ⊢
      have hhas : BMap.has ([] : BMap Inst) g = false := rfl
      simp only [hhas, Bool.false_eq_true, if_false, insert_insert] at hi ⊢
      cases hi
      exact ⟨o, [], o, rfl, rfl, rfl, Or.inr ⟨trivial, BMap.has_false.1 h3, h2, rfl, rfl, h1, h4⟩⟩

/-- A failing install changes nothing. -/
theorem install_fail {hash : Nat → Nat → Nat} {lim : Nat} {db : Db} (hv : Inv db) {handle : Option Nat} {g iface : Nat}
    (hi : ∀ r, (db.install hash lim handle g iface).1 ≠ .ok r) : (db.install hash lim handle g iface).2 = db := by
  unfold Db.install at *
  cases handle with
  | some h0 =>
    simp only at *
    split
    · rename_i hval
      rw [if_pos hval] at hi
      unfold Db.installOn at *
      obtain ⟨hd, hh⟩ := valid_iff.1 hval
      rw [hh] at hi ⊢
      simp only at *
      split
      · rfl
      · rename_i hg
        rw [if_neg hg] at hi
        exact absurd rfl (hi _)
    · rfl
  | none =>
    simp only at *
    cases hn : db.newHandle hash lim with
    | err e => rfl
    | panic => rfl
    | ok p =>
      obtain ⟨k, db'⟩ := p
      rw [hn] at hi
      simp only at *
      obtain ⟨o, h1, h2, h3, h4, rfl⟩ := newHandle_spec hv hn
      unfold Db.installOn at *
      have hget : (db.handles.insert k ⟨o, []⟩).get k = some ⟨o, []⟩ := by rw [BMap.get_insert, if_pos rfl]
      rw [hget] at hi
      have hhas : BMap.has ([] : BMap Inst) g = false := rfl
      simp only [hhas, Bool.false_eq_true, if_false] at hi
      exact absurd rfl (hi _)

theorem putInst_get (db : Db) (h o g iface : Nat) (ps : BMap Inst) (nh h' : Nat) :
    (putInst db h o g iface ps nh).handles.get h' =
      if h' = h then some ⟨o, ps.insert g ⟨iface, false, false, []⟩⟩ else db.handles.get h' := by
  unfold putInst; simp only [BMap.get_insert]

theorem putInst_getInst (db : Db) (h o g iface : Nat) (ps : BMap Inst) (nh : Nat)
    (hps : ∀ g', db.getInst h g' = ps.get g') (h' g' : Nat) :
    (putInst db h o g iface ps nh).getInst h' g' =
      if h' = h ∧ g' = g then some ⟨iface, false, false, []⟩ else db.getInst h' g' := by
  unfold Db.getInst
  rw [putInst_get]
  by_cases e : h' = h
  · subst e
    rw [if_pos rfl]
    simp only [BMap.get_insert]
    by_cases e : g' = g
    · simp [e]
    · rw [if_neg e, if_neg (fun x => e x.2), ← hps]; rfl
  · rw [if_neg e, if_neg (fun x => e x.1)]

theorem instOk_nil (iface : Nat) : InstOk ⟨iface, false, false, []⟩ :=
  ⟨rfl, rfl, Nat.zero_le _, (fun _ h => by cases h), (fun _ h => by cases h), (fun _ h => by cases h)⟩

theorem notif_modify {m : BMap (List Notify)} {g h g' : Nat} {l : List Notify}
    (hl : (m.modify g (·.map fun n => { n with fresh := n.fresh.insert h () })).get g' = some l) :
    ∃ l0, m.get g' = some l0 ∧ l.map (·.registration) = l0.map (·.registration) ∧
      ∀ n ∈ l, ∃ n0 ∈ l0, n.registration = n0.registration ∧ (BMap.Sorted n0.fresh → BMap.Sorted n.fresh) := by
  rw [BMap.get_modify] at hl
  split at hl
  · cases hm : m.get g' with
    | none => rw [hm] at hl; cases hl
    | some l0 =>
      rw [hm] at hl
      simp only [Option.map_some, Option.some.injEq] at hl
      subst hl
      refine ⟨l0, rfl, by simp [Function.comp_def], ?_⟩
      intro n hn
      obtain ⟨n0, h0, rfl⟩ := List.mem_map.1 hn
      exact ⟨n0, h0, rfl, fun hs => BMap.sorted_insert hs _ _⟩
  · exact ⟨l, hl, rfl, fun n hn => ⟨n, hn, rfl, id⟩⟩

theorem pairwise_regs {l l0 : List Notify} (h : l.map (·.registration) = l0.map (·.registration))
    (h0 : l0.Pairwise (fun a b => a.registration < b.registration)) : l.Pairwise (fun a b => a.registration < b.registration) := by
  have : (l0.map (·.registration)).Pairwise (· < ·) := List.pairwise_map.2 h0
  rw [← h] at this
  exact List.pairwise_map.1 this

theorem inv_putInst {db : Db} (hv : Inv db) {handle : Option Nat} {h o g iface nh : Nat} {ps : BMap Inst}
    (hc : (handle = some h ∧ db.handles.get h = some ⟨o, ps⟩ ∧ nh = db.nextHandle) ∨
       (handle = none ∧ db.handles.get h = none ∧ h ≠ 0 ∧ ps = [] ∧ nh = o ∧ db.nextHandle < o ∧
         (db.hashing = false → h < o))) : Inv (putInst db h o g iface ps nh) := by
  have hps : ∀ g', db.getInst h g' = ps.get g' := by
    intro g'
    rcases hc with ⟨_, h1, _⟩ | ⟨_, h1, _, h2, _⟩
    · exact getInst_eq h1
    · rw [getInst_none h1, h2]; rfl
  have hsorted : BMap.Sorted ps := by
    rcases hc with ⟨_, h1, _⟩ | ⟨_, h1, _, h2, _⟩
    · exact hv.psorted h _ h1
    · rw [h2]; exact BMap.Sorted.nil
  have hnh : db.nextHandle ≤ nh := by rcases hc with ⟨_, _, h3⟩ | ⟨_, _, _, _, h3, h4, _⟩ <;> omega
  have ho : o ≤ nh := by
    rcases hc with ⟨_, h1, h3⟩ | ⟨_, _, _, _, h3, h4, _⟩
    · have := hv.order h _ h1; rw [h3]; exact this
    · omega
  have hord : ∀ h' hd', h' ≠ h → db.handles.get h' = some hd' → hd'.order ≠ o := by
    intro h' hd' hne hh' he
    rcases hc with ⟨_, h1, h3⟩ | ⟨_, _, _, _, h3, h4, _⟩
    · exact hne (hv.orders h' h hd' _ hh' h1 he)
    · have := hv.order h' hd' hh'; omega
  refine ⟨BMap.sorted_insert hv.sorted _ _, ?_, ?_, ?_, ?_, ?_, ?_, ?_, Nat.le_trans hv.pos hnh, BMap.sorted_modify hv.nsorted _ _,
    ?_, ?_, ?_, ?_⟩
  · intro h' hd' hh
    rw [putInst_get] at hh
    split at hh
    · cases hh; exact BMap.sorted_insert hsorted _ _
    · exact hv.psorted h' hd' hh
  · intro h' hd' hh
    rw [putInst_get] at hh
    split at hh
    · cases hh
      intro hn
      have : BMap.get (ps.insert g ⟨iface, false, false, []⟩) g = none := by
        show BMap.get (BMap.insert ps g ⟨iface, false, false, []⟩) g = none
        have hn' : BMap.insert ps g ⟨iface, false, false, []⟩ = [] := hn
        rw [hn']; rfl
      rw [BMap.get_insert, if_pos rfl] at this
      cases this
    · exact hv.nonempty h' hd' hh
  · intro h' g' i hi
    rw [putInst_getInst db h o g iface ps nh hps] at hi
    split at hi
    · cases hi; exact instOk_nil iface
    · exact hv.inst h' g' i hi
  · show (db.handles.insert h _).has 0 = false
    rw [BMap.has_insert, hv.nonzero]
    have : h ≠ 0 := by
      rcases hc with ⟨_, h1, h3⟩ | ⟨_, _, h2, _⟩
      · intro h0
        subst h0
        have := BMap.has_false.1 hv.nonzero
        rw [h1] at this; cases this
      · exact h2
    simp [Ne.symm this]
  · intro h' hd' hh
    rw [putInst_get] at hh
    split at hh
    · cases hh; exact ho
    · exact Nat.le_trans (hv.order h' hd' hh) hnh
  · intro h1 h2 hd1 hd2 e1 e2 he
    rw [putInst_get] at e1 e2
    split at e1
    · rename_i x
      split at e2
      · rename_i y; rw [x, y]
      · rename_i y; cases e1; exact absurd he.symm (hord h2 hd2 y e2)
    · rename_i x
      split at e2
      · cases e2; exact absurd he (hord h1 hd1 x e1)
      · exact hv.orders h1 h2 hd1 hd2 e1 e2 he
  · intro hf h' hh
    have hh' : (db.handles.insert h _).has h' = true := hh
    rw [BMap.has_insert] at hh'
    show h' < nh
    by_cases e : h' = h
    · subst e
      rcases hc with ⟨_, h1, h3⟩ | ⟨_, _, _, _, h3, h4, h5⟩
      · rw [h3]; exact hv.low hf h' (BMap.has_iff.2 ⟨_, h1⟩)
      · rw [h3]; exact h5 hf
    · simp only [beq_iff_eq, e, Bool.or_eq_true, false_or] at hh'
      exact Nat.lt_of_lt_of_le (hv.low hf h' hh') hnh
  · intro g' l hl
    obtain ⟨l0, a, b, _⟩ := notif_modify hl
    exact pairwise_regs b (hv.regs g' l0 a)
  · intro g' l n hl hn
    obtain ⟨l0, a, _, b⟩ := notif_modify hl
    obtain ⟨n0, c, d, _⟩ := b n hn
    rw [d]; exact hv.regBound g' l0 n0 a c
  · intro g1 g2 l1 l2 n1 n2 e1 e2 m1 m2 he
    obtain ⟨l0, a, _, b⟩ := notif_modify e1
    obtain ⟨n0, c, d, _⟩ := b n1 m1
    obtain ⟨l0', a', _, b'⟩ := notif_modify e2
    obtain ⟨n0', c', d', _⟩ := b' n2 m2
    exact hv.regOne g1 g2 l0 l0' n0 n0' a a' c c' (by omega)
  · intro g' l n hl hn
    obtain ⟨l0, a, _, b⟩ := notif_modify hl
    obtain ⟨n0, c, _, d⟩ := b n hn
    exact d (hv.fresh g' l0 n0 a c)

theorem inv_install {hash : Nat → Nat → Nat} {lim : Nat} {db : Db} (hv : Inv db) (handle : Option Nat) (g iface : Nat) :
    Inv (db.install hash lim handle g iface).2 := by
  by_cases h : ∃ r, (db.install hash lim handle g iface).1 = .ok r
  · obtain ⟨⟨h, ns⟩, hr⟩ := h
    obtain ⟨o, ps, nh, h1, _, _, h4⟩ := install_ok hv hr
    rw [h1]; exact inv_putInst hv h4
  · rw [install_fail hv (fun r hr => h ⟨r, hr⟩)]; exact hv

/-! ### Uninstalling -/

/-- The state after taking `g` off `h`. -/
def removed (db : Db) (hd : Handle) (h g : Nat) : Db :=
  { db with handles := if hd.protocols.erase g = [] then db.handles.erase h
                       else db.handles.insert h { hd with protocols := hd.protocols.erase g } }

/-- Every uninstall: nothing, or exactly one unused instance goes. -/
theorem uninstall_cases (db : Db) (h g iface : Nat) :
    ((db.uninstall h g iface).2 = db ∧ (db.uninstall h g iface).1 ≠ .ok ()) ∨
    ∃ hd i, db.handles.get h = some hd ∧ hd.protocols.get g = some i ∧ i.interface = iface ∧ i.usage = [] ∧
      db.uninstall h g iface = (.ok (), removed db hd h g) := by
  unfold Db.uninstall
  cases hh : db.handles.get h with
  | none => left; exact ⟨rfl, fun h => by cases h⟩
  | some hd =>
    simp only
    cases hi : hd.protocols.get g with
    | none => left; exact ⟨rfl, fun h => by cases h⟩
    | some i =>
      simp only
      split
      · left; exact ⟨rfl, fun h => by cases h⟩
      · split
        · left; exact ⟨rfl, fun h => by cases h⟩
        · rename_i h1 h2
          right
          exact ⟨hd, i, rfl, hi, Classical.not_not.1 h1, Classical.not_not.1 h2, rfl⟩

theorem removed_get (db : Db) (h g : Nat) (hd : Handle) (h' : Nat) :
    (removed db hd h g).handles.get h' =
    if h' = h then (if hd.protocols.erase g = [] then none else some { hd with protocols := hd.protocols.erase g })
    else db.handles.get h' := by
  unfold removed
  dsimp only
  split
  · exact BMap.get_erase _ _ _
  · rw [BMap.get_insert]

theorem uninstall_getInst {db : Db} {h g : Nat} {hd : Handle} (hh : db.handles.get h = some hd) (h' g' : Nat) :
    (removed db hd h g).getInst h' g' = if h' = h ∧ g' = g then none else db.getInst h' g' := by
  have hr := removed_get db h g hd h'
  have hg := BMap.get_erase hd.protocols g g'
  by_cases e : h' = h
  · subst e
    rw [if_pos rfl] at hr
    have h2 : (removed db hd h' g).getInst h' g' = (hd.protocols.erase g).get g' := by
      by_cases hnil : hd.protocols.erase g = []
      · rw [if_pos hnil] at hr
        rw [getInst_none hr, hnil]; rfl
      · rw [if_neg hnil] at hr
        rw [getInst_eq hr]
    rw [h2, hg, getInst_eq hh]
    by_cases e : g' = g
    · simp [e]
    · simp [e]
  · rw [if_neg e] at hr
    rw [if_neg (fun x => e x.1)]
    unfold Db.getInst
    rw [hr]

theorem inv_uninstall {db : Db} (hv : Inv db) (h g iface : Nat) : Inv (db.uninstall h g iface).2 := by
  rcases uninstall_cases db h g iface with ⟨h1, _⟩ | ⟨hd, i, hh, hi, _, _, he⟩
  · rw [h1]; exact hv
  · rw [he]
    have back : ∀ h' hd', (removed db hd h g).handles.get h' = some hd' →
        ∃ hd0, db.handles.get h' = some hd0 ∧ hd'.order = hd0.order ∧ (BMap.Sorted hd0.protocols → BMap.Sorted hd'.protocols) ∧
          (hd0.protocols ≠ [] → hd'.protocols ≠ []) := by
      intro h' hd' hx
      rw [removed_get] at hx
      split at hx
      · rename_i e
        split at hx
        · cases hx
        · rename_i hne
          cases hx
          exact ⟨hd, by rw [e]; exact hh, rfl, fun hs => BMap.sorted_erase hs _, fun _ => hne⟩
      · exact ⟨hd', hx, rfl, id, id⟩
    have hhas : ∀ h', (removed db hd h g).valid h' = true → db.handles.has h' = true := by
      intro h' hx
      obtain ⟨hd', hx⟩ := valid_iff.1 hx
      obtain ⟨hd0, b, _⟩ := back h' hd' hx
      exact BMap.has_iff.2 ⟨hd0, b⟩
    refine ⟨?_, ?_, ?_, ?_, ?_, ?_, ?_, ?_, hv.pos, hv.nsorted, hv.regs, hv.regBound, hv.regOne, hv.fresh⟩
    · unfold removed
      dsimp only
      split
      · exact BMap.sorted_erase hv.sorted _
      · exact BMap.sorted_insert hv.sorted _ _
    · intro h' hd' hx
      obtain ⟨hd0, b, _, c, _⟩ := back h' hd' hx
      exact c (hv.psorted h' hd0 b)
    · intro h' hd' hx
      obtain ⟨hd0, b, _, _, c⟩ := back h' hd' hx
      exact c (hv.nonempty h' hd0 b)
    · intro h' g' i' hx
      rw [uninstall_getInst hh] at hx
      split at hx
      · cases hx
      · exact hv.inst h' g' i' hx
    · cases hx : (removed db hd h g).valid 0 with
      | false => exact hx
      | true => have := hhas 0 hx; rw [hv.nonzero] at this; cases this
    · intro h' hd' hx
      obtain ⟨hd0, b, c, _⟩ := back h' hd' hx
      rw [c]; exact hv.order h' hd0 b
    · intro h1 h2 hd1 hd2 e1 e2 e
      obtain ⟨a, b, c, _⟩ := back h1 hd1 e1
      obtain ⟨a', b', c', _⟩ := back h2 hd2 e2
      exact hv.orders h1 h2 a a' b b' (by omega)
    · intro hf h' hx
      exact hv.low hf h' (hhas h' hx)

/-! ### Opening and closing -/

theorem inv_addUsage {db : Db} (hv : Inv db) (h g : Nat) (a c : Option Nat) (at_ : Nat) : Inv (db.addUsage h g a c at_).2 := by
  unfold Db.addUsage
  split
  · exact hv
  · split
    · exact hv
    · rename_i i hi
      split
      · rename_i j hj
        exact inv_setInst hv h g (open_ok (hv.inst h g i hi) hj).1
      · exact hv
      · exact hv

theorem inv_removeUsage {db : Db} (hv : Inv db) (h g : Nat) (a c at_ : Option Nat) : Inv (db.removeUsage h g a c at_).2 := by
  unfold Db.removeUsage
  split
  · exact hv
  · split
    · exact hv
    · rename_i i hi
      obtain ⟨j, h1, _, _, h4⟩ := closeAll_spec a c at_ (i.usage.length + 1) false i (by omega) (hv.inst h g i hi)
      simp only [h1]
      exact inv_setInst hv h g h4

/-! ### Registrations -/

theorem inv_register {db : Db} (hv : Inv db) (g e : Nat) : Inv (db.register g e).2 := by
  have key : ∀ g' l, (db.register g e).2.notifications.get g' = some l →
      (g' = g ∧ l = (db.notifications.get g).getD [] ++ [⟨e, db.nextRegistration, []⟩]) ∨ (g' ≠ g ∧ db.notifications.get g' = some l) := by
    intro g' l hl
    unfold Db.register at hl
    simp only [BMap.get_insert] at hl
    split at hl
    · rename_i x; cases hl; exact Or.inl ⟨x, rfl⟩
    · rename_i x; exact Or.inr ⟨x, hl⟩
  have old : ∀ n ∈ (db.notifications.get g).getD [], ∃ l, db.notifications.get g = some l ∧ n ∈ l := by
    intro n hn
    cases hl : db.notifications.get g with
    | none => rw [hl] at hn; cases hn
    | some l => rw [hl] at hn; exact ⟨l, rfl, hn⟩
  refine ⟨hv.sorted, hv.psorted, hv.nonempty, hv.inst, hv.nonzero, hv.order, hv.orders, hv.low, hv.pos,
    BMap.sorted_insert hv.nsorted _ _, ?_, ?_, ?_, ?_⟩
  · intro g' l hl
    rcases key g' l hl with ⟨rfl, rfl⟩ | ⟨_, hl⟩
    · refine List.pairwise_append.2 ⟨?_, List.pairwise_singleton _ _, ?_⟩
      · cases hl : db.notifications.get g' with
        | none => exact List.Pairwise.nil
        | some l => exact hv.regs g' l hl
      · intro a ha b hb
        obtain ⟨l, x, y⟩ := old a ha
        simp only [List.mem_singleton] at hb
        subst hb
        exact hv.regBound g' l a x y
    · exact hv.regs g' l hl
  · intro g' l n hl hn
    show n.registration < db.nextRegistration + 1
    rcases key g' l hl with ⟨rfl, rfl⟩ | ⟨_, hl⟩
    · simp only [List.mem_append, List.mem_singleton] at hn
      rcases hn with hn | hn
      · obtain ⟨l, x, y⟩ := old n hn
        have := hv.regBound g' l n x y; omega
      · subst hn; exact Nat.lt_succ_self _
    · have := hv.regBound g' l n hl hn; omega
  · intro g1 g2 l1 l2 n1 n2 e1 e2 m1 m2 he
    have at_ : ∀ g' l n, (db.register g e).2.notifications.get g' = some l → n ∈ l →
        (g' = g ∧ n.registration = db.nextRegistration) ∨ ∃ l0, db.notifications.get g' = some l0 ∧ n ∈ l0 := by
      intro g' l n hl hn
      rcases key g' l hl with ⟨rfl, rfl⟩ | ⟨_, hl⟩
      · simp only [List.mem_append, List.mem_singleton] at hn
        rcases hn with hn | hn
        · exact Or.inr (old n hn)
        · subst hn; exact Or.inl ⟨rfl, rfl⟩
      · exact Or.inr ⟨l, hl, hn⟩
    rcases at_ g1 l1 n1 e1 m1 with ⟨a, b⟩ | ⟨l, a, b⟩ <;> rcases at_ g2 l2 n2 e2 m2 with ⟨a', b'⟩ | ⟨l', a', b'⟩
    · rw [a, a']
    · have := hv.regBound g2 l' n2 a' b'; omega
    · have := hv.regBound g1 l n1 a b; omega
    · exact hv.regOne g1 g2 l l' n1 n2 a a' b b' he
  · intro g' l n hl hn
    rcases key g' l hl with ⟨rfl, rfl⟩ | ⟨_, hl⟩
    · simp only [List.mem_append, List.mem_singleton] at hn
      rcases hn with hn | hn
      · obtain ⟨l, x, y⟩ := old n hn
        exact hv.fresh g' l n x y
      · subst hn; exact BMap.Sorted.nil
    · exact hv.fresh g' l n hl hn

theorem get_mapVal {V : Type} (m : BMap V) (f : V → V) (k : Nat) : BMap.get (m.map fun (g, l) => (g, f l)) k = (m.get k).map f := by
  induction m with
  | nil => rfl
  | cons x m ih =>
    rw [List.map_cons, BMap.get_cons, BMap.get_cons, ih]
    by_cases h : x.1 = k
    · simp [h]
    · simp [h]

theorem sorted_mapVal {V : Type} {m : BMap V} (f : V → V) (hs : BMap.Sorted m) : BMap.Sorted (m.map fun (g, l) => (g, f l)) :=
  List.pairwise_map.2 hs

theorem inv_unregister {db : Db} (hv : Inv db) (e : Nat) : Inv (db.unregister e) := by
  have key : ∀ g l, (db.unregister e).notifications.get g = some l →
      ∃ l0, db.notifications.get g = some l0 ∧ l = l0.filter fun n => !(n.event == e) := by
    intro g l hl
    have hl' : BMap.get (db.notifications.map fun (g, l) => (g, l.filter fun n => !(n.event == e))) g = some l := hl
    rw [get_mapVal db.notifications (fun l => l.filter fun n => !(n.event == e))] at hl'
    cases hg : db.notifications.get g with
    | none => rw [hg] at hl'; cases hl'
    | some l0 => rw [hg] at hl'; cases hl'; exact ⟨l0, rfl, rfl⟩
  refine ⟨hv.sorted, hv.psorted, hv.nonempty, hv.inst, hv.nonzero, hv.order, hv.orders, hv.low, hv.pos,
    sorted_mapVal (fun l : List Notify => l.filter fun n => !(n.event == e)) hv.nsorted, ?_, ?_, ?_, ?_⟩
  · intro g l hl
    obtain ⟨l0, a, rfl⟩ := key g l hl
    exact (hv.regs g l0 a).filter _
  · intro g l n hl hn
    obtain ⟨l0, a, rfl⟩ := key g l hl
    exact hv.regBound g l0 n a ((List.mem_filter.1 hn).1)
  · intro g1 g2 l1 l2 n1 n2 e1 e2 m1 m2 he
    obtain ⟨l0, a, rfl⟩ := key g1 l1 e1
    obtain ⟨l0', a', rfl⟩ := key g2 l2 e2
    exact hv.regOne g1 g2 l0 l0' n1 n2 a a' ((List.mem_filter.1 m1).1) ((List.mem_filter.1 m2).1) he
  · intro g l n hl hn
    obtain ⟨l0, a, rfl⟩ := key g l hl
    exact hv.fresh g l0 n a ((List.mem_filter.1 hn).1)

/-! ### Taking a fresh handle -/

/-- `popIn` splits the list at the registration. -/
theorem popIn_some {reg : Nat} {l l' : List Notify} {h : Nat} (hp : popIn reg l = some (h, l')) :
    ∃ pre n u rest post, l = pre ++ n :: post ∧ n.registration = reg ∧ n.fresh = (h, u) :: rest ∧
      l' = pre ++ { n with fresh := rest } :: post ∧ ∀ x ∈ pre, x.registration ≠ reg := by
  induction l generalizing l' with
  | nil => cases hp
  | cons n l ih =>
    unfold popIn at hp
    split at hp
    · rename_i hr
      split at hp
      · cases hp
      · rename_i h0 u rest hf
        cases hp
        exact ⟨[], n, u, rest, l, rfl, hr, hf, rfl, fun _ h => by cases h⟩
    · rename_i hr
      cases hq : popIn reg l with
      | none => rw [hq] at hp; cases hp
      | some p =>
        obtain ⟨h1, l1⟩ := p
        rw [hq] at hp
        cases hp
        obtain ⟨pre, n', u, rest, post, a, b, c, d, e⟩ := ih hq
        refine ⟨n :: pre, n', u, rest, post, by rw [a]; rfl, b, c, by rw [d]; rfl, ?_⟩
        intro x hx
        rcases List.mem_cons.1 hx with hx | hx
        · rw [hx]; exact hr
        · exact e x hx

theorem popIn_none {reg : Nat} {l : List Notify} (hp : popIn reg l = none) (hs : l.Pairwise (fun a b => a.registration < b.registration)) :
    ∀ n ∈ l, n.registration = reg → n.fresh = [] := by
  induction l with
  | nil => intro n hn; cases hn
  | cons x l ih =>
    obtain ⟨h1, h2⟩ := List.pairwise_cons.1 hs
    unfold popIn at hp
    intro n hn hr
    split at hp
    · rename_i hx
      have : n = x := by
        rcases List.mem_cons.1 hn with h | h
        · exact h
        · have := h1 n h; omega
      subst this
      split at hp
      · rename_i hf; exact hf
      · cases hp
    · rename_i hx
      have : n ∈ l := by
        rcases List.mem_cons.1 hn with h | h
        · subst h; exact absurd hr hx
        · exact h
      refine ih ?_ h2 n this hr
      cases hq : popIn reg l with
      | none => rfl
      | some p => rw [hq] at hp; cases hp

theorem popAll_some {reg : Nat} {m m' : BMap (List Notify)} {h : Nat} (hp : popAll reg m = some (h, m')) :
    ∃ pre g l l' post, m = pre ++ (g, l) :: post ∧ popIn reg l = some (h, l') ∧ m' = pre ++ (g, l') :: post := by
  induction m generalizing m' with
  | nil => cases hp
  | cons x m ih =>
    obtain ⟨g, l⟩ := x
    unfold popAll at hp
    split at hp
    · rename_i h0 l' hl
      cases hp
      exact ⟨[], g, l, l', m, rfl, hl, rfl⟩
    · cases hq : popAll reg m with
      | none => rw [hq] at hp; cases hp
      | some p =>
        obtain ⟨h1, m1⟩ := p
        rw [hq] at hp
        cases hp
        obtain ⟨pre, g', l1, l2, post, a, b, c⟩ := ih hq
        exact ⟨(g, l) :: pre, g', l1, l2, post, by rw [a]; rfl, b, by rw [c]; rfl⟩

theorem popAll_none {reg : Nat} {m : BMap (List Notify)} (hp : popAll reg m = none) : ∀ e ∈ m, popIn reg e.2 = none := by
  induction m with
  | nil => intro e he; cases he
  | cons x m ih =>
    obtain ⟨g, l⟩ := x
    unfold popAll at hp
    split at hp
    · cases hp
    · rename_i hl
      intro e he
      rcases List.mem_cons.1 he with h | h
      · subst h; exact hl
      · refine ih ?_ e h
        cases hq : popAll reg m with
        | none => rfl
        | some p => rw [hq] at hp; cases hp

theorem get_append_mid {V : Type} {pre post : BMap V} {g : Nat} {l l' : V} (hs : BMap.Sorted (pre ++ (g, l) :: post)) (k : Nat) :
    BMap.get (pre ++ (g, l') :: post) k = if k = g then some l' else BMap.get (pre ++ (g, l) :: post) k := by
  have hs' : BMap.Sorted (pre ++ (g, l') :: post) := by
    unfold BMap.Sorted at *
    rw [List.pairwise_append, List.pairwise_cons] at *
    refine ⟨hs.1, ⟨hs.2.1.1, hs.2.1.2⟩, ?_⟩
    intro a ha b hb
    rcases List.mem_cons.1 hb with h | h
    · subst h; exact hs.2.2 a ha (g, l) (by simp)
    · exact hs.2.2 a ha b (by simp [h])
  by_cases e : k = g
  · subst e
    rw [if_pos rfl]
    exact BMap.get_of_mem hs' (by simp)
  · rw [if_neg e]
    cases hg : BMap.get (pre ++ (g, l) :: post) k with
    | none =>
      refine BMap.get_none_of ?_
      intro x hx
      simp only [List.mem_append, List.mem_cons] at hx
      intro hk
      have hmem : ∃ v, (k, v) ∈ pre ++ (g, l) :: post := by
        rcases hx with h | h | h
        · exact ⟨x.2, by rw [← hk]; simp [h]⟩
        · subst h; exact absurd hk (Ne.symm e)
        · exact ⟨x.2, by rw [← hk]; simp [h]⟩
      obtain ⟨v, hv⟩ := hmem
      rw [BMap.get_of_mem hs hv] at hg
      cases hg
    | some v =>
      have := BMap.get_some_mem hg
      refine BMap.get_of_mem hs' ?_
      simp only [List.mem_append, List.mem_cons] at this ⊢
      rcases this with h | h | h
      · exact Or.inl h
      · cases h; exact absurd rfl e
      · exact Or.inr (Or.inr h)

theorem sorted_mid {V : Type} {pre post : BMap V} {g : Nat} {l l' : V} (hs : BMap.Sorted (pre ++ (g, l) :: post)) :
    BMap.Sorted (pre ++ (g, l') :: post) := by
  unfold BMap.Sorted at *
  rw [List.pairwise_append, List.pairwise_cons] at *
  refine ⟨hs.1, ⟨hs.2.1.1, hs.2.1.2⟩, ?_⟩
  intro a ha b hb
  rcases List.mem_cons.1 hb with h | h
  · subst h; exact hs.2.2 a ha (g, l) (by simp)
  · exact hs.2.2 a ha b (by simp [h])

/-- What taking a fresh handle does to the registrations. -/
theorem nextFresh_cases {db : Db} (hv : Inv db) (reg : Nat) :
    (db.nextFresh reg = (none, db) ∧ ∀ g l n, db.notifications.get g = some l → n ∈ l → n.registration = reg → n.fresh = []) ∨
    ∃ g l pre n post h u rest m, db.nextFresh reg = (some h, { db with notifications := m }) ∧
      db.notifications.get g = some l ∧ l = pre ++ n :: post ∧ n.registration = reg ∧ n.fresh = (h, u) :: rest ∧
      BMap.Sorted m ∧ (∀ k, BMap.get m k = if k = g then some (pre ++ { n with fresh := rest } :: post) else db.notifications.get k) := by
  unfold Db.nextFresh
  cases hp : popAll reg db.notifications with
  | none =>
    left
    refine ⟨rfl, ?_⟩
    intro g l n hg hn hr
    exact popIn_none (popAll_none hp (g, l) (BMap.get_some_mem hg)) (hv.regs g l hg) n hn hr
  | some p =>
    obtain ⟨h, m⟩ := p
    right
    obtain ⟨pre, g, l, l', post, a, b, c⟩ := popAll_some hp
    obtain ⟨lp, n, u, rest, lpost, d1, d2, d3, d4, _⟩ := popIn_some b
    have hs := hv.nsorted
    rw [a] at hs
    refine ⟨g, l, lp, n, lpost, h, u, rest, m, rfl, ?_, d1, d2, d3, ?_, ?_⟩
    · rw [a]; exact BMap.get_of_mem hs (by simp)
    · rw [c]; exact sorted_mid hs
    · intro k
      rw [c, get_append_mid hs k, d4]
      split
      · rfl
      · rw [a]

theorem inv_nextFresh {db : Db} (hv : Inv db) (reg : Nat) : Inv (db.nextFresh reg).2 := by
  rcases nextFresh_cases hv reg with ⟨h, _⟩ | ⟨g, l, pre, n, post, h, u, rest, m, h1, h2, h3, h4, h5, h6, h7⟩
  · rw [h]; exact hv
  · rw [h1]
    have key : ∀ k l1, BMap.get m k = some l1 → ∃ l0, db.notifications.get k = some l0 ∧
        l1.map (·.registration) = l0.map (·.registration) ∧
        ∀ x ∈ l1, ∃ x0 ∈ l0, x.registration = x0.registration ∧ (BMap.Sorted x0.fresh → BMap.Sorted x.fresh) := by
      intro k l1 hk
      rw [h7] at hk
      split at hk
      · rename_i e
        cases hk
        refine ⟨l, by rw [e]; exact h2, by rw [h3]; simp, ?_⟩
        intro x hx
        simp only [List.mem_append, List.mem_cons] at hx
        rcases hx with hx | hx | hx
        · exact ⟨x, by rw [h3]; simp [hx], rfl, id⟩
        · subst hx
          refine ⟨n, by rw [h3]; simp, rfl, ?_⟩
          intro hs
          rw [h5] at hs
          exact (List.pairwise_cons.1 hs).2
        · exact ⟨x, by rw [h3]; simp [hx], rfl, id⟩
      · exact ⟨l1, hk, rfl, fun x hx => ⟨x, hx, rfl, id⟩⟩
    refine ⟨hv.sorted, hv.psorted, hv.nonempty, hv.inst, hv.nonzero, hv.order, hv.orders, hv.low, hv.pos, h6, ?_, ?_, ?_, ?_⟩
    · intro k l1 hk
      obtain ⟨l0, a, b, _⟩ := key k l1 hk
      exact pairwise_regs b (hv.regs k l0 a)
    · intro k l1 x hk hx
      obtain ⟨l0, a, _, b⟩ := key k l1 hk
      obtain ⟨x0, c, d, _⟩ := b x hx
      rw [d]; exact hv.regBound k l0 x0 a c
    · intro g1 g2 l1 l2 n1 n2 e1 e2 m1 m2 he
      obtain ⟨l0, a, _, b⟩ := key g1 l1 e1
      obtain ⟨n0, c, d, _⟩ := b n1 m1
      obtain ⟨l0', a', _, b'⟩ := key g2 l2 e2
      obtain ⟨n0', c', d', _⟩ := b' n2 m2
      exact hv.regOne g1 g2 l0 l0' n0 n0' a a' c c' (by omega)
    · intro k l1 x hk hx
      obtain ⟨l0, a, _, b⟩ := key k l1 hk
      obtain ⟨x0, c, _, d⟩ := b x hx
      exact d (hv.fresh k l0 x0 a c)

theorem inv_enableHashing {db : Db} (hv : Inv db) : Inv db.enableHashing :=
  ⟨hv.sorted, hv.psorted, hv.nonempty, hv.inst, hv.nonzero, hv.order, hv.orders, (fun h => by cases h), hv.pos, hv.nsorted,
    hv.regs, hv.regBound, hv.regOne, hv.fresh⟩

theorem inv_step {hash : Nat → Nat → Nat} {lim : Nat} {db : Db} (hv : Inv db) (op : Op) : Inv (db.step hash lim op) := by
  cases op with
  | install handle g iface => exact inv_install hv _ _ _
  | uninstall h g iface => exact inv_uninstall hv _ _ _
  | addUsage h g a c at_ => exact inv_addUsage hv _ _ _ _ _
  | removeUsage h g a c at_ => exact inv_removeUsage hv _ _ _ _ _
  | register g e => exact inv_register hv _ _
  | unregister e => exact inv_unregister hv _
  | nextFresh r => exact inv_nextFresh hv _
  | enableHashing => exact inv_enableHashing hv

theorem inv_run {hash : Nat → Nat → Nat} {lim : Nat} (ops : List Op) : ∀ {db : Db}, Inv db → Inv (db.run hash lim ops) := by
  induction ops with
  | nil => exact fun hv => hv
  | cons op ops ih => exact fun hv => ih (inv_step hv op)

theorem inv_reachable {db : Db} (hr : Reachable db) : Inv db := by
  obtain ⟨hash, lim, ops, rfl⟩ := hr
  exact inv_run ops inv_new

end Verif.Protocol
