import Verif.Services.Reinstall
/-!
Property C77: opening and closing protocols.
-/
namespace Verif.Services
open Verif.Protocol

variable {α : Type}

/-- What `OpenProtocol` should answer when nothing needs to be disconnected: the status, and what is written to `*interface`. -/
def openSays (db : Db) (h g : Nat) (null : Bool) (agent controller : Option Nat) (attrs : Nat) : Status × Option Nat :=
  match openAnswer db h g agent controller attrs with
  | .ok () => (.success, if attrs = 4 then none else lookup db h g)
  | .err .alreadyStarted =>
    if attrs = 0x10 ∨ attrs = 0x30 then (.alreadyStarted, if null then none else lookup db h g)
    else (.success, if attrs = 4 then none else lookup db h g)
  | .err .unsupported => (.unsupported, if null then none else some 0)
  | .err e => (.of e, none)
  | .panic => (.panics, none)

/-- An agent or controller that is not a valid handle counts as absent. -/
def there (db : Db) (h : Nat) : Option Nat := if db.valid h then some h else none

theorem opened_spec {hash : Nat → Nat → Nat} {lim : Nat} {db : Db} (hm : Made hash lim db) (h g : Nat) (null : Bool) (a c : Option Nat) (attrs : Nat) :
    ((opened db h g null a c attrs).1, (opened db h g null a c attrs).2.1) = openSays db h g null a c attrs ∧
    (opened db h g null a c attrs).2.2 = (db.addUsage h g a c attrs).2 := by
  have hr := open_result hm.reachable h g a c attrs
  have hlk := addUsage_lookup hm h g a c attrs
  have hval : (db.addUsage h g a c attrs).2.valid h = db.valid h := valid_same hm.reachable (addUsage_made hm h g a c attrs).reachable hlk h
  unfold opened openSays
  simp only
  rw [hr, getInterface_eq, hlk, hval]
  generalize hoa : openAnswer db h g a c attrs = o
  -- what the answer says about the handle and the interface
  have hthere : o = .ok () ∨ o = .err .alreadyStarted → db.valid h = true ∧ ∃ i, lookup db h g = some i := by
    unfold openAnswer at hoa
    intro ho
    split at hoa
    · subst hoa; rcases ho with ho | ho <;> cases ho
    · rename_i h1
      have hv : db.valid h = true := by
        cases hx : db.valid h with
        | true => rfl
        | false => rw [hx] at h1; exact absurd rfl h1
      split at hoa
      · subst hoa; rcases ho with ho | ho <;> cases ho
      · rename_i h2
        cases hx : lookup db h g with
        | none => exact absurd hx h2
        | some i => exact ⟨hv, i, rfl⟩
  have hattr : o = .err .alreadyStarted → isDriver attrs = decide (attrs = 0x10 ∨ attrs = 0x30) := by
    intro ho
    rw [ho] at hoa
    unfold openAnswer at hoa
    split at hoa
    · cases hoa
    · split at hoa
      · cases hoa
      · split at hoa
        · cases hoa
        · rename_i hga
          have hga : goodArgs h a c attrs = true := by simpa using hga
          have : validAttr attrs := by
            unfold goodArgs at hga
            unfold validAttr
            split at hga <;> first | omega | cases hga
          rw [isDriver_eq this]
          by_cases e1 : attrs = 0x10 <;> by_cases e2 : attrs = 0x30 <;> simp [e1, e2]
  cases o with
  | panic => exact ⟨rfl, rfl⟩
  | ok u =>
    obtain ⟨hv, i, hi⟩ := hthere (Or.inl rfl)
    rw [hv, hi]
    exact ⟨rfl, rfl⟩
  | err e =>
    cases e with
    | alreadyStarted =>
      obtain ⟨hv, i, hi⟩ := hthere (Or.inr rfl)
      rw [hv, hi]
      simp only [if_true]
      rw [hattr rfl]
      by_cases hd : attrs = 0x10 ∨ attrs = 0x30
      · rw [if_pos (decide_eq_true hd), if_pos hd]; exact ⟨rfl, rfl⟩
      · rw [if_neg (by simpa using hd), if_neg hd]
        exact ⟨rfl, rfl⟩
    | invalidParameter => exact ⟨rfl, rfl⟩
    | notFound => exact ⟨rfl, rfl⟩
    | unsupported => exact ⟨rfl, rfl⟩
    | accessDenied => exact ⟨rfl, rfl⟩

/-- Does the caller have to wait for a driver: does it ask for exclusion, while another driver has the interface open without? -/
def Rival (db : Db) (h g agent attrs : Nat) (u : Usage) : Prop :=
  isExclusive attrs = true ∧ u ∈ users db h g ∧ u.attrs = 0x10 ∧ u.agent ≠ there db agent

theorem no_rival {db : Db} (hr : Reachable db) {h g agent attrs : Nat} (hx : isExclusive attrs = true) (hn : ∀ u, ¬ Rival db h g agent attrs u) :
    rival (users db h g) (known db agent) = none := by
  unfold rival
  rw [List.find?_eq_none]
  intro u hu hp
  refine hn u ⟨hx, hu, ?_, ?_⟩
  · rcases attr_cases hr hu with e | e | e | e | e | e | e <;> rw [e] at hp <;> first | exact e | (exfalso; revert hp; simp [isDriver, isExclusive, BY_DRIVER, EXCLUSIVE])
  · simp only [Bool.and_eq_true, Bool.not_eq_true', beq_eq_false_iff_ne] at hp
    exact hp.2

theorem has_rival {db : Db} (hr : Reachable db) {h g agent attrs : Nat} {u : Usage} (hn : Rival db h g agent attrs u) :
    rival (users db h g) (known db agent) = some u := by
  obtain ⟨_, hu, ha, hne⟩ := hn
  have hp : (isDriver u.attrs && !isExclusive u.attrs && !(u.agent == known db agent)) = true := by
    rw [ha]
    have : (u.agent == known db agent) = false := beq_eq_false_iff_ne.2 hne
    rw [this]; decide
  unfold rival
  cases hf : (users db h g).find? fun u => isDriver u.attrs && !isExclusive u.attrs && !(u.agent == known db agent) with
  | none => exact absurd hp (List.find?_eq_none.1 hf u hu)
  | some v =>
    have hv := List.mem_of_find?_eq_some hf
    have hvd := List.find?_some hf
    simp only [Bool.and_eq_true] at hvd
    have h1 := driver_found hr hu (Or.inl ha)
    have hvD : Driver v := by
      have := hvd.1.1
      rw [isDriver_eq (attr_cases hr hv)] at this
      simpa [Driver] using this
    have h2 := driver_found hr hv hvD
    rw [h1] at h2
    injection h2 with h2
    rw [h2]

/-- Opening while nobody has to be disconnected: the status and the interface written are those of `openSays`; an open is recorded exactly if the database
grants it and the agent is a handle; nothing else changes. -/
theorem open_plain {w : World α} {s : St α} (hm : Made w.hash w.lim s.db) (h g : Nat) (null : Bool) (agent controller attrs : Nat)
    (hn : ∀ u, ¬ Rival s.db h g agent attrs u) (hnull : null = true → attrs = 4) :
    let a := there s.db agent
    let c := there s.db controller
    ∃ s', openProtocol w s h g null agent controller attrs =
        ((openSays s.db h g null a c attrs).1, (openSays s.db h g null a c attrs).2, s') ∧ Made w.hash w.lim s'.db ∧ s'.rest = s.rest ∧
      (∀ h' g', lookup s'.db h' g' = lookup s.db h' g') ∧
      ∀ h' g' k, openCount s'.db h' g' k = openCount s.db h' g' k +
        if h' = h ∧ g' = g ∧ openAnswer s.db h g a c attrs = .ok () ∧ a.isSome = true ∧ k = (a, c, attrs) then 1 else 0 := by
  intro a c
  obtain ⟨o1, o2⟩ := opened_spec hm h g null a c attrs
  have hfin : ∃ s' : St α, (((opened s.db h g null a c attrs).1, (opened s.db h g null a c attrs).2.1, { s with db := (opened s.db h g null a c attrs).2.2 }) : Status × Option Nat × St α) =
        ((openSays s.db h g null a c attrs).1, (openSays s.db h g null a c attrs).2, s') ∧ Made w.hash w.lim s'.db ∧ s'.rest = s.rest ∧
      (∀ h' g', lookup s'.db h' g' = lookup s.db h' g') ∧
      ∀ h' g' k, openCount s'.db h' g' k = openCount s.db h' g' k +
        if h' = h ∧ g' = g ∧ openAnswer s.db h g a c attrs = .ok () ∧ a.isSome = true ∧ k = (a, c, attrs) then 1 else 0 := by
    refine ⟨{ s with db := (s.db.addUsage h g a c attrs).2 }, ?_, addUsage_made hm h g a c attrs, rfl, addUsage_lookup hm h g a c attrs, fun h' g' k => ?_⟩
    · rw [← o1, o2]
    · have hr := open_result hm.reachable h g a c attrs
      by_cases hok : (s.db.addUsage h g a c attrs).1 = .ok ()
      · simp only
        rw [open_effect hm.reachable h g a c attrs hok h' g' k]
        rw [hr] at hok
        rw [hok]
        simp
      · simp only
        rw [open_failure h g a c attrs hok, if_neg]
        · rfl
        · rintro ⟨_, _, hx, _⟩
          exact hok (hr.trans hx)
  unfold openProtocol
  rw [if_neg (by
    intro hx
    simp only [Bool.and_eq_true, bne_iff_ne] at hx
    exact hx.2 (hnull hx.1))]
  simp only
  by_cases hx : isExclusive attrs = true
  · rw [if_pos hx, usagesOf_eq]
    cases hv : s.db.valid h with
    | true =>
      simp only [if_true]
      rw [no_rival hm.reachable hx hn]
      exact hfin
    | false =>
      have hoa : openAnswer s.db h g a c attrs = .err .invalidParameter := by
        unfold openAnswer
        rw [hv]; rfl
      refine ⟨s, ?_, hm, rfl, fun _ _ => rfl, fun _ _ _ => ?_⟩
      · unfold openSays
        rw [hoa]
        rfl
      · rw [hoa, if_neg]
        · rfl
        · rintro ⟨_, _, hx, _⟩; cases hx
  · rw [if_neg hx]
    exact hfin

/-- Opening with exclusion while another driver has the interface open: that driver is disconnected first. If it does not give up, access is denied;
otherwise the answer is that of the database then. -/
theorem open_exclusive {w : World α} (hw : Honest w) {s : St α} (hm : Made w.hash w.lim s.db) (h g : Nat) (null : Bool) (agent controller attrs : Nat) {u : Usage}
    (hn : Rival s.db h g agent attrs u) (hnull : null = false) :
    (∀ s', w.disconnect s h u.agent = (false, s') → openProtocol w s h g null agent controller attrs = (.accessDenied, none, s')) ∧
    (∀ s', w.disconnect s h u.agent = (true, s') → ∃ db', Made w.hash w.lim db' ∧
      openProtocol w s h g null agent controller attrs =
        ((openSays s'.db h g null (there s.db agent) (there s.db controller) attrs).1,
          (openSays s'.db h g null (there s.db agent) (there s.db controller) attrs).2, { s' with db := db' }) ∧
      (∀ h' g', lookup db' h' g' = lookup s'.db h' g') ∧
      (openAnswer s'.db h g (there s.db agent) (there s.db controller) attrs = .ok () →
        ∀ v ∈ users s'.db h g, wantsExclusion v.attrs = false)) := by
  have hv : s.db.valid h = true := by
    cases hx : s.db.valid h with
    | true => rfl
    | false =>
      have := hn.2.1
      unfold users Db.usages at this
      rw [hx] at this
      cases this
  have hopen : openProtocol w s h g null agent controller attrs =
      match w.disconnect s h u.agent with
      | (true, s1) => ((opened s1.db h g null (known s.db agent) (known s.db controller) attrs).1,
          (opened s1.db h g null (known s.db agent) (known s.db controller) attrs).2.1,
          { s1 with db := (opened s1.db h g null (known s.db agent) (known s.db controller) attrs).2.2 })
      | (false, s1) => (.accessDenied, none, s1) := by
    unfold openProtocol
    rw [if_neg (by rw [hnull]; simp)]
    simp only
    rw [if_pos hn.1, usagesOf_eq, hv]
    simp only [if_true]
    rw [has_rival hm.reachable hn]
    rfl
  rw [hopen]
  refine ⟨fun s' e => by rw [e], fun s' e => ?_⟩
  rw [e]
  simp only
  have hm' : Made w.hash w.lim s'.db := by
    have := hw.disconnect s h u.agent hm
    rw [e] at this; exact this
  obtain ⟨o1, o2⟩ := opened_spec hm' h g null (there s.db agent) (there s.db controller) attrs
  refine ⟨_, addUsage_made hm' h g (there s.db agent) (there s.db controller) attrs, ?_, addUsage_lookup hm' h g _ _ attrs, fun hok v hv => ?_⟩
  · rw [← o1, ← o2]
    rfl
  · unfold openAnswer at hok
    split at hok
    · cases hok
    · split at hok
      · cases hok
      · split at hok
        · cases hok
        · rename_i hga
          split at hok
          · cases hok
          · split at hok
            · cases hok
            · rename_i hne
              cases hwv : wantsExclusion v.attrs with
              | false => rfl
              | true =>
                refine absurd ?_ hne
                rw [Bool.and_eq_true]
                refine ⟨?_, List.any_eq_true.2 ⟨v, hv, hwv⟩⟩
                have hga : goodArgs h (there s.db agent) (there s.db controller) attrs = true := by simpa using hga
                have hxx := hn.1
                unfold goodArgs at hga
                split at hga <;> first | rfl | (exfalso; revert hxx; decide) | cases hga

/-- `HandleProtocol`: the interface, if the handle has it; the caller is recorded as the core, which needs no closing. -/
theorem handle_protocol_exact {w : World α} {s : St α} (hm : Made w.hash w.lim s.db) (h g : Nat) :
    ∃ s', handleProtocol w s h g false =
        (if s.db.valid h = false then (.invalidParameter, none, s')
         else match lookup s.db h g with
           | none => (.unsupported, some 0, s')
           | some i => (.success, some i, s')) ∧ Made w.hash w.lim s'.db ∧ s'.rest = s.rest ∧
      (∀ h' g', lookup s'.db h' g' = lookup s.db h' g') ∧ allHandles s'.db = allHandles s.db ∧ s'.db.hashing = s.db.hashing ∧
      ∀ h' g', ¬ (h' = h ∧ g' = g) → users s'.db h' g' = users s.db h' g' := by
  have hz : there s.db 0 = none := by unfold there; rw [zero_invalid hm.reachable]; rfl
  have hop : handleProtocol w s h g false = ((openSays s.db h g false (there s.db CORE) none 1).1, (openSays s.db h g false (there s.db CORE) none 1).2,
      { s with db := (s.db.addUsage h g (there s.db CORE) none 1).2 }) := by
    obtain ⟨o1, o2⟩ := opened_spec hm h g false (there s.db CORE) none 1
    unfold handleProtocol openProtocol
    simp only [Bool.false_and, Bool.false_eq_true, if_false]
    rw [if_neg (by decide), ← o1, ← o2]
    have : known s.db 0 = none := hz
    rw [this]
    rfl
  refine ⟨{ s with db := (s.db.addUsage h g (there s.db CORE) none 1).2 }, ?_, addUsage_made hm h g _ none 1, rfl, addUsage_lookup hm h g _ none 1,
    order_others hm.reachable w.hash w.lim (.addUsage h g (there s.db CORE) none 1) (fun _ _ _ e => by cases e) (fun _ _ _ e => by cases e), addUsage_hashing s.db h g _ none 1, ?_⟩
  · rw [hop]
    have hokc : s.db.okHandle (there s.db CORE) = true := by
      unfold there
      cases hv : s.db.valid CORE with
      | true => exact hv
      | false => rfl
    unfold openSays openAnswer
    rw [hokc]
    cases hv : s.db.valid h with
    | false => rfl
    | true =>
      have : s.db.okHandle none = true := rfl
      rw [this]
      have hga : goodArgs h (there s.db CORE) none 1 = true := rfl
      have hwe : wantsExclusion 1 = false := rfl
      rw [hga, hwe]
      cases hl : lookup s.db h g with
      | none => rfl
      | some i =>
        simp only [Bool.not_true, Bool.or_self, Bool.false_eq_true, if_false, reduceCtorEq, Bool.false_and]
        cases (users s.db h g).any (fun u => u.attrs == 0x10 || u.attrs == 0x30) &&
            (users s.db h g).any (fun u => u.agent == there s.db CORE && u.controller == none && u.attrs == 1) <;> rfl
  · intro h' g' hne
    refine users_congr ?_
    simp only
    unfold Db.addUsage
    split
    · rfl
    · split
      · rfl
      · split
        · rw [getInst_setInst, if_neg]
          rintro ⟨a, b⟩
          exact hne ⟨a, b⟩
        · rfl
        · rfl

/-- `CloseProtocol`: refused if the agent, the controller, or the handle is not valid; otherwise the opens of this agent for this controller are removed, and
nothing else; if there is none that is an error. -/
theorem close_protocol_exact {hash : Nat → Nat → Nat} {lim : Nat} {db : Db} (hm : Made hash lim db) (h g agent controller : Nat) :
    let c := if controller = 0 then none else some controller
    let mine (u : Usage) : Prop := u.agent = some agent ∧ u.controller = c
    ((closeProtocol db h g agent controller).1 = .invalidParameter ↔ db.valid agent = false ∨ (controller ≠ 0 ∧ db.valid controller = false) ∨ db.valid h = false) ∧
    ((closeProtocol db h g agent controller).1 = .success ↔
      db.valid agent = true ∧ (controller ≠ 0 → db.valid controller = true) ∧ ∃ u ∈ users db h g, mine u) ∧
    ((closeProtocol db h g agent controller).1 = .invalidParameter ∨ (closeProtocol db h g agent controller).1 = .success ∨
      (closeProtocol db h g agent controller).1 = .notFound) ∧
    (∀ h' g', lookup (closeProtocol db h g agent controller).2 h' g' = lookup db h' g') ∧
    (∀ h' g', ¬ (h' = h ∧ g' = g) → users (closeProtocol db h g agent controller).2 h' g' = users db h' g') ∧
    ((closeProtocol db h g agent controller).1 = .success → ∀ u, u ∈ users (closeProtocol db h g agent controller).2 h g ↔ u ∈ users db h g ∧ ¬ mine u) ∧
    ((closeProtocol db h g agent controller).1 ≠ .success → ∀ h' g', users (closeProtocol db h g agent controller).2 h' g' = users db h' g') := by
  intro c mine
  unfold closeProtocol
  cases hva : db.valid agent with
  | false => simp
  | true =>
    simp only [Bool.not_true, Bool.false_eq_true, if_false, true_and, false_or, reduceCtorEq]
    by_cases hvc : controller ≠ 0 ∧ db.valid controller = false
    · rw [if_pos hvc]
      simp [hvc]
    · rw [if_neg hvc]
      have hok : db.okHandle (nonNull controller) = true := by
        unfold nonNull
        split
        · rfl
        · rename_i hc
          show db.valid controller = true
          cases hx : db.valid controller with
          | true => rfl
          | false => exact absurd ⟨hc, hx⟩ hvc
      have hcc : nonNull controller = c := rfl
      obtain ⟨e1, e2⟩ := close_exact hm.reachable h g (some agent) (nonNull controller) none
      have hlk := removeUsage_lookup hm h g (some agent) (nonNull controller) none
      have hmatch : ∀ u : Usage, Matching (some agent) (nonNull controller) none u ↔ mine u := fun u => by
        unfold Matching
        rw [hcc]
        show _ ↔ u.agent = some agent ∧ u.controller = c
        simp
      have hoka : db.okHandle (some agent) = true := hva
      rw [hok, hoka] at e1
      simp only [Bool.not_true, Bool.or_false] at e1
      have hval : ∀ u, u ∈ users db h g → db.valid h = true := fun u hu => by
        cases hx : db.valid h with
        | true => rfl
        | false =>
          unfold users Db.usages at hu
          rw [hx] at hu
          cases hu
      have hcv : (controller ≠ 0 → db.valid controller = true) := fun hc => by
        cases hx : db.valid controller with
        | true => rfl
        | false => exact absurd ⟨hc, hx⟩ hvc
      simp only [hvc, false_or, hcv, implies_true, true_and]
      have hres : (db.removeUsage h g (some agent) (nonNull controller) none).1 =
          if db.valid h = false then .err .invalidParameter else if ∃ u ∈ users db h g, mine u then .ok () else .err .notFound := by
        rw [e1]
        simp only [hmatch]
        cases db.valid h <;> rfl
      cases hv : db.valid h with
      | false =>
        rw [hv, if_pos rfl] at hres
        have hu0 : users db h g = [] := by
          unfold users Db.usages
          rw [hv]; rfl
        rw [hres]
        refine ⟨by simp [Status.from, Status.of], by rw [hu0]; simp [Status.from, Status.of], by simp [Status.from, Status.of], hlk, fun h' g' hne => ?_,
          by simp [Status.from, Status.of], fun _ h' g' => ?_⟩
        · rw [e2, if_neg (fun x => hne ⟨x.1, x.2.1⟩)]
        · rw [e2, hres, if_neg (by simp)]
      | true =>
        rw [hv, if_neg (by simp)] at hres
        by_cases hx : ∃ u ∈ users db h g, mine u
        · rw [if_pos hx] at hres
          rw [hres]
          refine ⟨by simp [Status.from], by simp only [Status.from, true_iff]; exact ⟨hcv, hx⟩, by simp [Status.from], hlk, fun h' g' hne => ?_, fun _ u => ?_,
            by simp [Status.from]⟩
          · rw [e2, if_neg (fun x => hne ⟨x.1, x.2.1⟩)]
          · rw [e2, hres, if_pos ⟨rfl, rfl, rfl⟩, List.mem_filter, decide_eq_true_iff, hmatch]
        · rw [if_neg hx] at hres
          rw [hres]
          refine ⟨by simp [Status.from, Status.of], ?_, by simp [Status.from, Status.of], hlk, fun h' g' hne => ?_, by simp [Status.from, Status.of], fun _ h' g' => ?_⟩
          · simp only [Status.from, Status.of, reduceCtorEq, false_iff]
            exact fun y => hx y.2
          · rw [e2, if_neg (fun x => hne ⟨x.1, x.2.1⟩)]
          · rw [e2, hres, if_neg (by simp)]

end Verif.Services
