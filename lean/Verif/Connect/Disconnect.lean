import Verif.Connect.Tree
/-!
C45: disconnecting drivers from a controller.
-/
namespace Verif.Connect
open Verif.Protocol (Db Usage users users_eq lookup Reachable isDriver isChild inv_reachable getInst_eq getInst_none)
variable {W : Type}

/-! ### Lemmas -/

theorem mem_usagesOn {db : Db} (hr : Reachable db) {h : Nat} {us : List Usage} (hu : usagesOn db h = some us) (u : Usage) :
    u ∈ us ↔ ∃ g, u ∈ users db h g := by
  have hv := inv_reachable hr
  unfold usagesOn at hu
  cases hh : db.handles.get h with
  | none => rw [hh] at hu; cases hu
  | some hd =>
    rw [hh] at hu
    injection hu with hu
    subst hu
    rw [List.mem_flatMap]
    constructor
    · rintro ⟨⟨g, i⟩, h1, h2⟩
      refine ⟨g, ?_⟩
      rw [users_eq, getInst_eq hh, BMap.get_of_mem (hv.psorted h hd hh) h1]; exact h2
    · rintro ⟨g, h1⟩
      rw [users_eq, getInst_eq hh] at h1
      cases hi : hd.protocols.get g with
      | none => rw [hi] at h1; cases h1
      | some i => rw [hi] at h1; exact ⟨(g, i), BMap.get_some_mem hi, h1⟩

theorem usagesOn_none {db : Db} {h : Nat} (hu : usagesOn db h = none) (g : Nat) : users db h g = [] := by
  unfold usagesOn at hu
  cases hh : db.handles.get h with
  | none => rw [users_eq, getInst_none hh]; rfl
  | some hd => rw [hh] at hu; cases hu

theorem user_ok {db : Db} (hr : Reachable db) {h g : Nat} {u : Usage} (hu : u ∈ users db h g) :
    Verif.Protocol.validAttr u.attrs ∧ u.agent.isSome = true := by
  rw [users_eq] at hu
  cases hi : db.getInst h g with
  | none => rw [hi] at hu; cases hu
  | some i =>
    rw [hi] at hu
    have := (inv_reachable hr).inst h g i hi
    exact ⟨this.attr u hu, this.agent u hu⟩

theorem driver_attr {a : Nat} (h : Verif.Protocol.validAttr a) : isDriver a = true ↔ a = 0x10 ∨ a = 0x30 := by
  rcases h with e | e | e | e | e | e | e <;> subst e <;> decide

theorem child_attr {a : Nat} (h : Verif.Protocol.validAttr a) : isChild a = true ↔ a = 0x08 := by
  rcases h with e | e | e | e | e | e | e <;> subst e <;> decide

theorem mem_dedup {l : List Nat} {x : Nat} : x ∈ dedup l ↔ x ∈ l := by
  induction l with
  | nil => exact Iff.rfl
  | cons y l ih =>
    unfold dedup
    rw [List.mem_cons, List.mem_cons, List.mem_filter, ih]
    by_cases e : x = y <;> simp [e]

theorem nodup_dedup : ∀ l : List Nat, (dedup l).Nodup
  | [] => .nil
  | x :: l => by
    unfold dedup
    rw [List.nodup_cons]
    refine ⟨?_, (nodup_dedup l).sublist List.filter_sublist⟩
    intro h
    have := (List.mem_filter.1 h).2
    simp at this

theorem mem_filterMap_agent {us : List Usage} {d : Nat} :
    d ∈ (us.filter (fun u => isDriver u.attrs)).filterMap (·.agent) ↔ ∃ u ∈ us, u.agent = some d ∧ isDriver u.attrs = true := by
  rw [List.mem_filterMap]
  constructor
  · rintro ⟨u, h1, h2⟩
    obtain ⟨h3, h4⟩ := List.mem_filter.1 h1
    exact ⟨u, h3, h2, h4⟩
  · rintro ⟨u, h1, h2, h3⟩
    exact ⟨u, List.mem_filter.2 ⟨h1, h3⟩, h2⟩

theorem manages_iff {db : Db} (hr : Reachable db) {c d : Nat} {us : List Usage} (hu : usagesOn db c = some us) :
    Manages db d c ↔ ∃ u ∈ us, u.agent = some d ∧ isDriver u.attrs = true := by
  constructor
  · rintro ⟨g, u, h1, h2, h3⟩
    exact ⟨u, (mem_usagesOn hr hu u).2 ⟨g, h1⟩, h2, (driver_attr (user_ok hr h1).1).2 h3⟩
  · rintro ⟨u, h1, h2, h3⟩
    obtain ⟨g, h4⟩ := (mem_usagesOn hr hu u).1 h1
    exact ⟨g, u, h4, h2, (driver_attr (user_ok hr h4).1).1 h3⟩

theorem managing_spec {db : Db} (hr : Reachable db) (c : Nat) :
    ∃ l, managing db c = .ok l ∧ ∀ d, d ∈ l ↔ Manages db d c := by
  unfold managing
  cases hu : usagesOn db c with
  | none =>
    refine ⟨[], rfl, ?_⟩
    intro d
    constructor
    · intro h; cases h
    · rintro ⟨g, u, h1, _⟩
      rw [usagesOn_none hu g] at h1; cases h1
  | some us =>
    simp only []
    rw [if_pos]
    · refine ⟨_, rfl, ?_⟩
      intro d
      rw [mem_filterMap_agent, manages_iff hr hu]
    · rw [List.all_eq_true]
      intro u h
      obtain ⟨g, h1⟩ := (mem_usagesOn hr hu u).1 (List.mem_filter.1 h).1
      exact (user_ok hr h1).2

theorem stillManages_iff {db : Db} (hr : Reachable db) {c d : Nat} {us : List Usage} (hu : usagesOn db c = some us) :
    stillManages us d = true ↔ Manages db d c := by
  rw [manages_iff hr hu]
  unfold stillManages
  rw [List.any_eq_true]
  constructor
  · rintro ⟨u, h1, h2⟩
    simp only [Bool.and_eq_true, beq_iff_eq] at h2
    exact ⟨u, h1, h2⟩
  · rintro ⟨u, h1, h2, h3⟩
    exact ⟨u, h1, by simp [h2, h3]⟩

theorem childrenOf_spec {db : Db} (hr : Reachable db) {c d : Nat} {us : List Usage} (hu : usagesOn db c = some us) (k : Nat) :
    k ∈ childrenOf us d ↔ ChildOf db d c k := by
  unfold childrenOf
  rw [mem_dedup, List.mem_filterMap]
  constructor
  · rintro ⟨u, h1, h2⟩
    obtain ⟨h3, h4⟩ := List.mem_filter.1 h1
    simp only [Bool.and_eq_true, beq_iff_eq] at h4
    obtain ⟨g, h5⟩ := (mem_usagesOn hr hu u).1 h3
    exact ⟨g, u, h5, h4.1, (child_attr (user_ok hr h5).1).1 h4.2, h2⟩
  · rintro ⟨g, u, h1, h2, h3, h4⟩
    refine ⟨u, List.mem_filter.2 ⟨(mem_usagesOn hr hu u).2 ⟨g, h1⟩, ?_⟩, h4⟩
    simp [h2, (child_attr (user_ok hr h1).1).2 h3]

theorem stopsController_iff {child : Option Nat} {l : List Nat} :
    stopsController child l = true ↔ child = none ∨ ∀ k ∈ l, child = some k := by
  unfold stopsController toStop
  cases child with
  | none => simp
  | some x =>
    simp only [beq_iff_eq, reduceCtorEq, Option.some.injEq, false_or]
    rw [eq_comm, List.length_filter_eq_length_iff]
    constructor
    · intro h k hk; exact (by simpa using h k hk : k = x).symm
    · intro h k hk; simpa using (h k hk).symm

theorem mem_toStop {child : Option Nat} {l : List Nat} {k : Nat} : k ∈ toStop child l ↔ k ∈ l ∧ (child = none ∨ child = some k) := by
  unfold toStop
  cases child with
  | none => simp
  | some x =>
    simp only [List.mem_filter, beq_iff_eq, reduceCtorEq, Option.some.injEq, false_or]
    rw [eq_comm (a := k)]

theorem nodup_toStop {child : Option Nat} {l : List Nat} (h : l.Nodup) : (toStop child l).Nodup := by
  unfold toStop
  cases child with
  | none => exact h
  | some x => exact h.sublist List.filter_sublist

theorem stopSelf_spec (env : Env W) (b c : Nat) (go : Bool) (w : W) :
    Stopped env b c w (stopSelf env b c go w).1 (stopSelf env b c go w).2 ∧
    ((go = false ∧ (stopSelf env b c go w).1 = []) ∨ (go = true ∧ ∃ ok, (stopSelf env b c go w).1 = [⟨[], ok⟩])) := by
  unfold stopSelf
  cases go with
  | false => exact ⟨.nil _, Or.inl ⟨rfl, rfl⟩⟩
  | true => exact ⟨.cons rfl (.nil _), Or.inr ⟨rfl, _, rfl⟩⟩

theorem stopBoth_spec (env : Env W) (b c : Nat) (kids : List Nat) (self : Bool) (w : W) :
    Stopped env b c w (stopBoth env b c kids self w).1 (stopBoth env b c kids self w).2 ∧
    StopCalls kids self (stopBoth env b c kids self w).1 := by
  unfold stopBoth StopCalls
  by_cases hk : kids = []
  · rw [if_pos hk]
    obtain ⟨h1, h2⟩ := stopSelf_spec env b c self w
    refine ⟨h1, ?_⟩
    rcases h2 with ⟨a, b⟩ | ⟨a, b⟩
    · exact Or.inl ⟨hk, a, b⟩
    · exact Or.inr (Or.inl ⟨hk, a, b⟩)
  · rw [if_neg hk]
    cases hs : env.stop w b c kids with
    | mk w1 ok =>
      cases ok with
      | false =>
        exact ⟨.cons hs (.nil _), Or.inr (Or.inr (Or.inl ⟨hk, rfl⟩))⟩
      | true =>
        simp only []
        obtain ⟨h1, h2⟩ := stopSelf_spec env b c self w1
        refine ⟨.cons hs h1, ?_⟩
        rcases h2 with ⟨a, b⟩ | ⟨a, ok, b⟩
        · exact Or.inr (Or.inr (Or.inr (Or.inl ⟨hk, a, by rw [b]⟩)))
        · exact Or.inr (Or.inr (Or.inr (Or.inr ⟨hk, a, ok, by rw [b]⟩)))

/-- The driver's turn ended well: it manages the controller and none of the calls failed. -/
def Succeeded (env : Env W) (c : Nat) (t : Turn W) : Prop :=
  Manages (env.db t.before) t.driver c ∧ lookup (env.db t.before) t.driver env.bindingGuid ≠ none ∧
    ∀ s ∈ t.calls, s.ok = true

theorem turn_spec {env : Env W} (hr : ∀ w, Reachable (env.db w)) (c d : Nat) (child : Option Nat) (w : W) :
    ∃ o t w', turn env c d child w = (o, t, w') ∧ t.driver = d ∧ t.before = w ∧ TurnOk env c child t w' ∧
      ((o = .err .invalidParameter ∧ Missing env c t ∧ t.calls = [] ∧ w' = w) ∨
       (∃ s, o = .ok s ∧ ¬ Missing env c t ∧ (s = some true ↔ Succeeded env c t))) := by
  unfold turn
  cases hu : usagesOn (env.db w) c with
  | none =>
    have hm : ¬ Manages (env.db w) d c := by
      rintro ⟨g, u, h1, _⟩
      rw [usagesOn_none hu g] at h1; cases h1
    refine ⟨_, _, _, rfl, rfl, rfl, Or.inl ⟨hm, rfl, rfl⟩, Or.inr ⟨none, rfl, fun h => hm h.1, ?_⟩⟩
    exact ⟨nofun, fun h => absurd h.1 hm⟩
  | some us =>
    simp only []
    by_cases hs : stillManages us d = true
    · rw [if_pos hs]
      have hm := (stillManages_iff (hr w) hu).1 hs
      cases hg : (env.db w).getInterface d env.bindingGuid with
      | ok b =>
        simp only []
        have hl : lookup (env.db w) d env.bindingGuid = some b := by unfold lookup; rw [hg]
        obtain ⟨h1, h2⟩ := stopBoth_spec env b c (toStop child (childrenOf us d)) (stopsController child (childrenOf us d)) w
        refine ⟨_, _, _, rfl, rfl, rfl, Or.inr (Or.inr ⟨hm, b, _, _, hl, h1, nodup_toStop (child := child) (l := childrenOf us d) (nodup_dedup _), ?_, ?_, h2⟩),
          Or.inr ⟨_, rfl, ?_, ?_⟩⟩
        · intro k
          rw [mem_toStop, childrenOf_spec (hr w) hu]
        · rw [stopsController_iff]
          constructor
          · rintro (h | h)
            · exact Or.inl h
            · exact Or.inr fun k hk => h k ((childrenOf_spec (hr w) hu k).2 hk)
          · rintro (h | h)
            · exact Or.inl h
            · exact Or.inr fun k hk => h k ((childrenOf_spec (hr w) hu k).1 hk)
        · intro h
          have h' : lookup (env.db w) d env.bindingGuid = none := h.2
          rw [hl] at h'; cases h'
        · rw [Option.some.injEq, List.all_eq_true]
          constructor
          · intro h; exact ⟨hm, by show lookup (env.db w) d env.bindingGuid ≠ none; rw [hl]; nofun, h⟩
          · intro h; exact h.2.2
      | err e =>
        have hl : lookup (env.db w) d env.bindingGuid = none := by unfold lookup; rw [hg]
        exact ⟨_, _, _, rfl, rfl, rfl, Or.inr (Or.inl ⟨⟨hm, hl⟩, rfl, rfl⟩), Or.inl ⟨rfl, ⟨hm, hl⟩, rfl, rfl⟩⟩
      | panic =>
        have hl : lookup (env.db w) d env.bindingGuid = none := by unfold lookup; rw [hg]
        exact ⟨_, _, _, rfl, rfl, rfl, Or.inr (Or.inl ⟨⟨hm, hl⟩, rfl, rfl⟩), Or.inl ⟨rfl, ⟨hm, hl⟩, rfl, rfl⟩⟩
    · rw [if_neg hs]
      have hm : ¬ Manages (env.db w) d c := fun h => hs ((stillManages_iff (hr w) hu).2 h)
      refine ⟨_, _, _, rfl, rfl, rfl, Or.inl ⟨hm, rfl, rfl⟩, Or.inr ⟨none, rfl, fun h => hm h.1, ?_⟩⟩
      exact ⟨nofun, fun h => absurd h.1 hm⟩

theorem turns_spec {env : Env W} (hr : ∀ w, Reachable (env.db w)) (c : Nat) (child : Option Nat) :
    ∀ ds one w, ∃ o l w', turns env c child ds one w = (o, l, w') ∧ Turns env c child ds w l w' ∧
      ((o = .err .invalidParameter ∧ ∃ t ∈ l, Missing env c t) ∨
       (∃ b, o = .ok b ∧ (∀ t ∈ l, ¬ Missing env c t) ∧ (b = true ↔ one = true ∨ ∃ t ∈ l, Succeeded env c t))) := by
  intro ds
  induction ds with
  | nil =>
    intro one w
    exact ⟨_, _, _, rfl, .nil _, Or.inr ⟨one, rfl, (by intro t h; cases h), by simp⟩⟩
  | cons d ds ih =>
    intro one w
    obtain ⟨o, t, w1, e, h1, h2, h3, h4⟩ := turn_spec hr c d child w
    unfold turns
    rw [e]
    rcases h4 with ⟨a1, a2, a3, a4⟩ | ⟨s, a1, a2, a3⟩
    · subst a1 a4
      simp only []
      refine ⟨_, _, _, rfl, ?_, Or.inl ⟨rfl, t, List.mem_cons_self, a2⟩⟩
      rw [← h2]
      exact .stuck h1 a2 a3
    · subst a1
      simp only []
      obtain ⟨o2, l, w', e2, b1, b2⟩ := ih (one || s == some true) w1
      rw [e2]
      refine ⟨_, _, _, rfl, ?_, ?_⟩
      · rw [← h2]; exact .cons h1 h3 a2 b1
      · rcases b2 with ⟨c1, t', c2, c3⟩ | ⟨b, c1, c2, c3⟩
        · exact Or.inl ⟨c1, t', List.mem_cons_of_mem _ c2, c3⟩
        · refine Or.inr ⟨b, c1, ?_, ?_⟩
          · intro t' ht
            rcases List.mem_cons.1 ht with rfl | ht
            · exact a2
            · exact c2 t' ht
          · rw [c3, Bool.or_eq_true, beq_iff_eq, a3]
            constructor
            · rintro ((h | h) | ⟨t', h, h'⟩)
              · exact Or.inl h
              · exact Or.inr ⟨t, List.mem_cons_self, h⟩
              · exact Or.inr ⟨t', List.mem_cons_of_mem _ h, h'⟩
            · rintro (h | ⟨t', h, h'⟩)
              · exact Or.inl (Or.inl h)
              · rcases List.mem_cons.1 h with rfl | h
                · exact Or.inl (Or.inr h')
                · exact Or.inr ⟨t', h, h'⟩

/-! ### C45 -/

/-- The arguments of a disconnection are handles, where given. -/
def ArgsValid (db : Db) (c : Nat) (driver child : Option Nat) : Prop :=
  db.valid c = true ∧ (∀ d, driver = some d → db.valid d = true) ∧ (∀ k, child = some k → db.valid k = true)

theorem args_iff {db : Db} {c : Nat} {driver child : Option Nat} :
    (db.valid c && validOpt db driver && validOpt db child) = true ↔ ArgsValid db c driver child := by
  unfold ArgsValid validOpt
  rw [Bool.and_eq_true, Bool.and_eq_true]
  cases driver <;> cases child <;> simp [and_assoc]

/-- Arguments that are not handles change nothing. -/
theorem disconnect_invalid {env : Env W} {c : Nat} {driver child : Option Nat} {w : W}
    (h : ¬ ArgsValid (env.db w) c driver child) : disconnect env c driver child w = (.err .invalidParameter, [], w) := by
  unfold disconnect
  rw [if_neg (fun x => h (args_iff.1 x))]

/-- What disconnecting does: each driver that manages the controller (or only the one given, if it does) gets one
turn; the call succeeds exactly when there is no such driver or the turn of one ended well, unless one cannot be
stopped. -/
theorem disconnect_spec {env : Env W} (hr : ∀ w, Reachable (env.db w)) {c : Nat} {driver child : Option Nat} {w : W}
    (h : ArgsValid (env.db w) c driver child) :
    ∃ ds r l w', disconnect env c driver child w = (r, l, w') ∧ ds.Nodup ∧
      (∀ d, d ∈ ds ↔ Manages (env.db w) d c ∧ (driver = none ∨ driver = some d)) ∧
      Turns env c child ds w l w' ∧
      ((r = .err .invalidParameter ∧ ∃ t ∈ l, Missing env c t) ∨
       (r = .ok () ∧ (∀ t ∈ l, ¬ Missing env c t) ∧ (ds = [] ∨ ∃ t ∈ l, Succeeded env c t)) ∨
       (r = .err .notFound ∧ (∀ t ∈ l, ¬ Missing env c t) ∧ ds ≠ [] ∧ ¬ ∃ t ∈ l, Succeeded env c t)) := by
  unfold disconnect
  rw [if_pos (args_iff.2 h)]
  obtain ⟨ms, e1, e2⟩ := managing_spec (hr w) c
  rw [e1]
  simp only []
  obtain ⟨o, l, w', e3, e4, e5⟩ := turns_spec hr c child (selected driver ms) false w
  rw [e3]
  have hnd : (selected driver ms).Nodup := by
    unfold selected
    cases driver with
    | none => exact nodup_dedup _
    | some d => exact (nodup_dedup _).sublist List.filter_sublist
  have hmem : ∀ d, d ∈ selected driver ms ↔ Manages (env.db w) d c ∧ (driver = none ∨ driver = some d) := by
    intro d
    unfold selected
    cases driver with
    | none => simp [mem_dedup, e2]
    | some x =>
      simp only [List.mem_filter, mem_dedup, e2, beq_iff_eq, reduceCtorEq, Option.some.injEq, false_or]
      rw [eq_comm (a := d)]
  rcases e5 with ⟨a1, a2⟩ | ⟨b, a1, a2, a3⟩
  · subst a1
    exact ⟨_, _, _, _, rfl, hnd, hmem, e4, Or.inl ⟨rfl, a2⟩⟩
  · subst a1
    refine ⟨_, _, _, _, rfl, hnd, hmem, e4, Or.inr ?_⟩
    by_cases hx : (b || (selected driver ms).isEmpty) = true
    · left
      rw [if_pos hx]
      refine ⟨rfl, a2, ?_⟩
      rcases Bool.or_eq_true _ _ ▸ hx with hx | hx
      · rcases a3.1 hx with h | h
        · cases h
        · exact Or.inr h
      · exact Or.inl (List.isEmpty_iff.1 hx)
    · right
      rw [if_neg hx]
      rw [Bool.or_eq_true] at hx
      exact ⟨rfl, a2, fun h => hx (Or.inr (List.isEmpty_iff.2 h)), fun h => hx (Or.inl (a3.2 (Or.inr h)))⟩

/-- Unless a driver cannot be stopped, every driver gets exactly one turn, in order. -/
theorem turns_drivers {env : Env W} {c : Nat} {child : Option Nat} {ds : List Nat} {w w' : W} {l : List (Turn W)}
    (h : Turns env c child ds w l w') (hm : ∀ t ∈ l, ¬ Missing env c t) : l.map (·.driver) = ds := by
  induction h with
  | nil w => rfl
  | cons h1 _ _ _ ih =>
    rw [List.map_cons, h1, ih (fun t ht => hm t (List.mem_cons_of_mem _ ht))]
  | stuck h1 h2 _ => exact absurd h2 (hm _ List.mem_cons_self)

/-- The children are stopped before the driver, and a driver whose children could not be stopped is left alone. -/
theorem children_first {kids : List Nat} {self : Bool} {calls : List Stop} (h : StopCalls kids self calls) :
    (∀ i j : Nat, ∀ a b, calls[i]? = some a → calls[j]? = some b → i < j → a.children = kids ∧ a.ok = true ∧ b.children = []) ∧
    (⟨kids, false⟩ ∈ calls → kids ≠ [] → ∀ s ∈ calls, s.children ≠ []) := by
  have two : ∀ (x y : Stop) (i j : Nat) a b, [x, y][i]? = some a → [x, y][j]? = some b → i < j → a = x ∧ b = y := by
    intro x y i j a b h1 h2 hij
    match i, j with
    | 0, 1 => simp at h1 h2; exact ⟨h1.symm, h2.symm⟩
    | 0, 0 => omega
    | 1, 0 => omega
    | 1, 1 => omega
    | i + 2, _ => simp at h1
    | _, j + 2 => simp at h2
  have one : ∀ (x : Stop) (i j : Nat) a b, [x][i]? = some a → [x][j]? = some b → i < j → False := by
    intro x i j a b h1 h2 hij
    match i, j with
    | 0, 0 => omega
    | i + 1, _ => simp at h1
    | _, j + 1 => simp at h2
  rcases h with ⟨_, _, rfl⟩ | ⟨hk, _, b, rfl⟩ | ⟨hk, rfl⟩ | ⟨hk, _, rfl⟩ | ⟨hk, _, b, rfl⟩
  · exact ⟨by intro i j a b h; simp at h, by intro h; cases h⟩
  · exact ⟨fun i j a b h1 h2 h3 => (one _ _ _ _ _ h1 h2 h3).elim, fun _ h => absurd hk h⟩
  · exact ⟨fun i j a b h1 h2 h3 => (one _ _ _ _ _ h1 h2 h3).elim, fun _ _ s hs => by simp at hs; subst hs; exact hk⟩
  · exact ⟨fun i j a b h1 h2 h3 => (one _ _ _ _ _ h1 h2 h3).elim, fun _ _ s hs => by simp at hs; subst hs; exact hk⟩
  · refine ⟨fun i j a b h1 h2 h3 => ?_, ?_⟩
    · obtain ⟨e1, e2⟩ := two _ _ _ _ _ _ h1 h2 h3
      subst e1 e2
      exact ⟨rfl, rfl, rfl⟩
    · intro h hne
      simp at h
      exact absurd h.1 hne

end Verif.Connect
