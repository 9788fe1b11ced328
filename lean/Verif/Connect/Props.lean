import Verif.Connect.Spec
/-!
C44: which drivers are tried on a controller, in which order, and with what result.
-/
namespace Verif.Connect
open Verif.Protocol (Db Usage users lookup Reachable)
variable {W : Type}

/-! ### The rounds -/

theorem tryAll_bindings (env : Env W) (c : Nat) (path : Option Nat) (cs : List Nat) :
    ∀ w, (tryAll env c path cs w).1.map (·.binding) = cs := by
  induction cs with
  | nil => intro w; rfl
  | cons b bs ih =>
    intro w
    show (tryOne env c path b w).1.binding :: _ = _
    have : (tryOne env c path b w).1.binding = b := by
      unfold tryOne
      split <;> rfl
    rw [this, ih]

theorem performed_append {env : Env W} {c : Nat} {path : Option Nat} {w w1 w2 : W} {l1 l2 : List Try}
    (h1 : Performed env c path w l1 w1) (h2 : Performed env c path w1 l2 w2) :
    Performed env c path w (l1 ++ l2) w2 := by
  induction h1 with
  | nil w => exact h2
  | declined e _ ih => exact .declined e (ih h2)
  | started e e' _ ih => exact .started e e' (ih h2)

theorem tryAll_performed (env : Env W) (c : Nat) (path : Option Nat) (cs : List Nat) :
    ∀ w, Performed env c path w (tryAll env c path cs w).1 (tryAll env c path cs w).2 := by
  induction cs with
  | nil => intro w; exact .nil w
  | cons b bs ih =>
    intro w
    show Performed env c path w ((tryOne env c path b w).1 :: _) _
    have h := ih (tryOne env c path b w).2
    revert h
    show Performed env c path (tryOne env c path b w).2 (tryAll env c path bs (tryOne env c path b w).2).1
        (tryAll env c path bs (tryOne env c path b w).2).2 → _
    show _ → Performed env c path w ((tryOne env c path b w).1 :: (tryAll env c path bs (tryOne env c path b w).2).1)
        (tryAll env c path bs (tryOne env c path b w).2).2
    generalize tryAll env c path bs (tryOne env c path b w).2 = y
    obtain ⟨ts, w'⟩ := y
    intro h
    simp only [] at h ⊢
    cases hs : env.supported w b c path with
    | mk w1 ok =>
      cases ok with
      | false =>
        have e : tryOne env c path b w = (⟨b, none⟩, w1) := by unfold tryOne; rw [hs]
        rw [e] at h ⊢
        exact .declined hs h
      | true =>
        have e : tryOne env c path b w = (⟨b, some (env.start w1 b c path).2⟩, (env.start w1 b c path).1) := by
          unfold tryOne; rw [hs]
        rw [e] at h ⊢
        exact .started hs rfl h

theorem mem_accepted {ts : List Try} {b : Nat} : b ∈ accepted ts ↔ ∃ t ∈ ts, t.binding = b ∧ t.answer ≠ none := by
  unfold accepted
  rw [List.mem_map]
  constructor
  · rintro ⟨t, h1, h2⟩
    obtain ⟨h3, h4⟩ := List.mem_filter.1 h1
    exact ⟨t, h3, h2, by intro e; rw [e] at h4; cases h4⟩
  · rintro ⟨t, h1, h2, h3⟩
    refine ⟨t, List.mem_filter.2 ⟨h1, ?_⟩, h2⟩
    cases ha : t.answer with
    | none => exact absurd ha h3
    | some x => rfl

theorem accepted_nil {ts : List Try} : accepted ts = [] ↔ ¬ ∃ t ∈ ts, t.answer ≠ none := by
  constructor
  · rintro h ⟨t, h1, h2⟩
    have := mem_accepted.2 ⟨t, h1, rfl, h2⟩
    rw [h] at this; cases this
  · intro h
    rw [List.eq_nil_iff_forall_not_mem]
    intro b hb
    obtain ⟨t, h1, _, h3⟩ := mem_accepted.1 hb
    exact h ⟨t, h1, h3⟩

theorem retained_eq (ts : List Try) (cs : List Nat) :
    cs.filter (fun x => !(accepted ts).contains x) =
      cs.filter (fun b => decide (∀ t ∈ ts, t.binding = b → t.answer = none)) := by
  refine List.filter_congr ?_
  intro b _
  by_cases h : b ∈ accepted ts
  · have : ¬ ∀ t ∈ ts, t.binding = b → t.answer = none := by
      obtain ⟨t, h1, h2, h3⟩ := mem_accepted.1 h
      exact fun hh => h3 (hh t h1 h2)
    simp [h, this]
  · have : ∀ t ∈ ts, t.binding = b → t.answer = none := by
      intro t h1 h2
      cases ha : t.answer with
      | none => rfl
      | some x => exact absurd (mem_accepted.2 ⟨t, h1, h2, by rw [ha]; nofun⟩) h
    have hc : (accepted ts).contains b = false := by simp [h]
    rw [hc, decide_eq_true this]
    rfl

theorem rounds_succ (env : Env W) (c : Nat) (path : Option Nat) (n : Nat) (cs : List Nat) (w : W) :
    rounds env c path (n + 1) cs w =
      if accepted (tryAll env c path cs w).1 = [] then some ([(tryAll env c path cs w).1], (tryAll env c path cs w).2)
      else match rounds env c path n (cs.filter (fun x => !(accepted (tryAll env c path cs w).1).contains x))
          (tryAll env c path cs w).2 with
        | none => none
        | some (l, w') => some ((tryAll env c path cs w).1 :: l, w') := rfl

/-- What the rounds did. -/
theorem rounds_spec (env : Env W) (c : Nat) (path : Option Nat) :
    ∀ n cs w l w', rounds env c path n cs w = some (l, w') → Rounds cs l ∧ Performed env c path w l.flatten w' := by
  intro n
  induction n with
  | zero => intro cs w l w' h; cases h
  | succ n ih =>
    intro cs w l w' h
    rw [rounds_succ] at h
    have hb := tryAll_bindings env c path cs w
    have hp := tryAll_performed env c path cs w
    revert h hb hp
    generalize tryAll env c path cs w = y
    obtain ⟨ts, w1⟩ := y
    simp only []
    intro h hb hp
    by_cases ha : accepted ts = []
    · rw [if_pos ha] at h
      injection h with h
      injection h with h1 h2
      subst h1 h2
      refine ⟨⟨hb, ?_⟩, by simpa using hp⟩
      rw [if_neg (accepted_nil.1 ha)]
    · rw [if_neg ha] at h
      cases hr : rounds env c path n (cs.filter (fun x => !(accepted ts).contains x)) w1 with
      | none => rw [hr] at h; cases h
      | some y =>
        obtain ⟨l2, w2⟩ := y
        rw [hr] at h
        simp only [] at h
        injection h with h
        injection h with h1 h2
        subst h1 h2
        obtain ⟨a1, a2⟩ := ih _ _ _ _ hr
        refine ⟨⟨hb, ?_⟩, by rw [List.flatten_cons]; exact performed_append hp a2⟩
        rw [if_pos (Decidable.byContradiction fun hx => ha (accepted_nil.2 hx)), ← retained_eq]
        exact a1

/-- The rounds come to an end. -/
theorem rounds_end (env : Env W) (c : Nat) (path : Option Nat) :
    ∀ n cs w, cs.length < n → ∃ l w', rounds env c path n cs w = some (l, w') := by
  intro n
  induction n with
  | zero => intro cs w h; omega
  | succ n ih =>
    intro cs w h
    rw [rounds_succ]
    by_cases ha : accepted (tryAll env c path cs w).1 = []
    · rw [if_pos ha]; exact ⟨_, _, rfl⟩
    · rw [if_neg ha]
      have hlt : (cs.filter (fun x => !(accepted (tryAll env c path cs w).1).contains x)).length < cs.length := by
        rw [accepted_nil] at ha
        obtain ⟨t, h1, h2⟩ := Decidable.byContradiction fun hx => ha hx
        have hm : t.binding ∈ cs := by
          rw [← tryAll_bindings env c path cs w]
          exact List.mem_map.2 ⟨t, h1, rfl⟩
        have hk : t.binding ∈ accepted (tryAll env c path cs w).1 := mem_accepted.2 ⟨t, h1, rfl, h2⟩
        refine Nat.lt_of_le_of_ne (List.length_filter_le _ _) ?_
        intro e
        have := List.length_filter_eq_length_iff.1 e _ hm
        simp [hk] at this
      obtain ⟨l, w', e⟩ := ih (cs.filter (fun x => !(accepted (tryAll env c path cs w).1).contains x))
        (tryAll env c path cs w).2 (by omega)
      rw [e]
      exact ⟨_, _, rfl⟩

theorem starts_cons (b : Nat) (r : List Try) (l : List (List Try)) :
    starts b (r :: l) = r.countP (fun t => t.binding == b && t.answer.isSome) + starts b l := by
  unfold starts
  rw [List.flatten_cons, List.countP_append]

/-- A driver that agreed once is not asked again: it is started at most as often as it is listed. -/
theorem rounds_starts (b : Nat) : ∀ l cs, Rounds cs l → starts b l ≤ cs.count b := by
  intro l
  induction l with
  | nil => intro cs h; exact h.elim
  | cons r l ih =>
    intro cs h
    obtain ⟨h1, h2⟩ := h
    rw [starts_cons]
    have hle : r.countP (fun t => t.binding == b && t.answer.isSome) ≤ cs.count b := by
      rw [← h1, List.count, List.countP_map]
      refine List.countP_mono_left ?_
      intro t _ ht
      simp only [Bool.and_eq_true] at ht
      exact ht.1
    by_cases hz : r.countP (fun t => t.binding == b && t.answer.isSome) = 0
    · rw [hz]
      split at h2
      · have := ih _ h2
        have h3 : (cs.filter fun b => decide (∀ t ∈ r, t.binding = b → t.answer = none)).count b ≤ cs.count b :=
          List.Sublist.count_le b List.filter_sublist
        omega
      · subst h2; simp [starts]
    · have hpos : 0 < r.countP (fun t => t.binding == b && t.answer.isSome) := by omega
      obtain ⟨t, ht, hb⟩ := List.countP_pos_iff.1 hpos
      simp only [Bool.and_eq_true, beq_iff_eq] at hb
      have hne : t.answer ≠ none := by intro e; rw [e] at hb; cases hb.2
      rw [if_pos ⟨t, ht, hne⟩] at h2
      have h3 := ih _ h2
      have : (cs.filter fun b => decide (∀ t ∈ r, t.binding = b → t.answer = none)).count b = 0 := by
        rw [List.count_eq_zero]
        intro hm
        have := (List.mem_filter.1 hm).2
        simp only [decide_eq_true_eq] at this
        exact hne (this t ht hb.1)
      omega

/-- Every candidate is asked at least once. -/
theorem rounds_all_asked {cs : List Nat} {l : List (List Try)} (h : Rounds cs l) (b : Nat) (hb : b ∈ cs) :
    ∃ t ∈ l.flatten, t.binding = b := by
  cases l with
  | nil => exact h.elim
  | cons r l =>
    rw [← h.1] at hb
    obtain ⟨t, h1, h2⟩ := List.mem_map.1 hb
    exact ⟨t, by rw [List.flatten_cons]; exact List.mem_append_left _ h1, h2⟩

/-- The last round starts nobody, and whoever declined in it had declined ever since: the connection is stable. -/
theorem rounds_last {l : List (List Try)} : ∀ {cs}, Rounds cs l → ∃ l0 r, l = l0 ++ [r] ∧ (∀ t ∈ r, t.answer = none) ∧
    ∀ b, b ∈ r.map (·.binding) ↔ b ∈ cs ∧ starts b l = 0 := by
  induction l with
  | nil => intro cs h; exact h.elim
  | cons r l ih =>
    intro cs h
    obtain ⟨h1, h2⟩ := h
    have hzero : ∀ b, r.countP (fun t => t.binding == b && t.answer.isSome) = 0 ↔
        ∀ t ∈ r, t.binding = b → t.answer = none := by
      intro b
      rw [List.countP_eq_zero]
      constructor
      · intro h t ht e
        have := h t ht
        cases ha : t.answer with
        | none => rfl
        | some x => exact absurd (by simp [e, ha]) this
      · intro h t ht hx
        simp only [Bool.and_eq_true, beq_iff_eq] at hx
        rw [h t ht hx.1] at hx
        cases hx.2
    by_cases hex : ∃ t ∈ r, t.answer ≠ none
    · rw [if_pos hex] at h2
      obtain ⟨l0, r', e1, e2, e3⟩ := ih h2
      refine ⟨r :: l0, r', by rw [e1]; rfl, e2, ?_⟩
      intro b
      rw [e3, List.mem_filter, starts_cons]
      simp only [decide_eq_true_eq]
      rw [← hzero b]
      constructor
      · rintro ⟨⟨a1, a2⟩, a3⟩; exact ⟨a1, by omega⟩
      · rintro ⟨a1, a2⟩; exact ⟨⟨a1, by omega⟩, by omega⟩
    · rw [if_neg hex] at h2
      subst h2
      have hn : ∀ t ∈ r, t.answer = none := fun t ht =>
        Decidable.byContradiction fun hx => hex ⟨t, ht, hx⟩
      refine ⟨[], r, rfl, hn, ?_⟩
      intro b
      rw [starts_cons, h1]
      have := (hzero b).2 (fun t ht _ => hn t ht)
      constructor
      · intro hb; exact ⟨hb, by rw [this]; rfl⟩
      · exact fun x => x.1

/-! ### The candidates -/

theorem bindings_eq (env : Env W) (w : W) (hs : List Nat) : bindings env w hs = installed env w hs := by
  unfold bindings installed
  congr 1

theorem drain_spec (get : W → Nat → W × Option Nat) : ∀ n w prev acc l w', drain get n w prev acc = some (l, w') →
    ∃ hs, l = acc ++ hs ∧ Asked get w prev hs w' := by
  intro n
  induction n with
  | zero => intro w prev acc l w' h; cases h
  | succ n ih =>
    intro w prev acc l w' h
    unfold drain at h
    cases hg : get w prev with
    | mk w1 o =>
      simp only [hg] at h
      cases o with
      | none =>
        simp only [] at h
        injection h with h
        injection h with h1 h2
        subst h1 h2
        exact ⟨[], by simp, .done hg⟩
      | some x =>
        simp only [] at h
        obtain ⟨hs, e1, e2⟩ := ih _ _ _ _ _ h
        exact ⟨x :: hs, by rw [e1]; simp, .more hg e2⟩

theorem drained_spec {env : Env W} {get : W → Nat → W × Option Nat} {n : Nat} {w : W} {s : List Nat} {w' : W}
    (h : drained env (drain get n w 0 []) = some (.ok s, w')) : ∃ hs, Asked get w 0 hs w' ∧ s = installed env w' hs := by
  unfold drained at h
  cases hd : drain get n w 0 [] with
  | none => rw [hd] at h; cases h
  | some y =>
    obtain ⟨hs, w1⟩ := y
    rw [hd] at h
    simp only [] at h
    injection h with h
    injection h with h1 h2
    injection h1 with h1
    subst h1 h2
    obtain ⟨hs', e1, e2⟩ := drain_spec get _ _ _ _ _ _ hd
    rw [List.nil_append] at e1
    subst e1
    exact ⟨_, e2, bindings_eq env _ _⟩

theorem platform_spec {env : Env W} {n c : Nat} {w : W} {s : List Nat} {w' : W}
    (h : platformBindings env n c w = some (.ok s, w')) : PlatformSource env c w s w' := by
  unfold platformBindings at h
  unfold PlatformSource
  cases hl : (env.db w).locateProtocol env.platformGuid with
  | ok i =>
    right
    rw [hl] at h
    simp only [] at h
    split at h
    · cases h
    · obtain ⟨hs, a, b⟩ := drained_spec h
      exact ⟨i, hs, rfl, a, b⟩
  | err e =>
    left
    rw [hl] at h
    injection h with h
    injection h with h1 h2
    injection h1 with h1
    exact ⟨(by rintro ⟨i, hi⟩; cases hi), h1.symm, h2.symm⟩
  | panic =>
    left
    rw [hl] at h
    injection h with h
    injection h with h1 h2
    injection h1 with h1
    exact ⟨(by rintro ⟨i, hi⟩; cases hi), h1.symm, h2.symm⟩

theorem bus_spec {env : Env W} {n c : Nat} {w : W} {s : List Nat} {w' : W}
    (h : busBindings env n c w = some (.ok s, w')) : BusSource env c w s w' := by
  unfold busBindings at h
  unfold BusSource lookup
  cases hl : (env.db w).getInterface c env.busGuid with
  | ok i =>
    right
    rw [hl] at h
    simp only [] at h
    split at h
    · cases h
    · obtain ⟨hs, a, b⟩ := drained_spec h
      exact ⟨i, hs, rfl, a, b⟩
  | err e =>
    left
    rw [hl] at h
    injection h with h
    injection h with h1 h2
    injection h1 with h1
    exact ⟨rfl, h1.symm, h2.symm⟩
  | panic =>
    left
    rw [hl] at h
    injection h with h
    injection h with h1 h2
    injection h1 with h1
    exact ⟨rfl, h1.symm, h2.symm⟩

theorem familyMap_spec (env : Env W) : ∀ hs (m : BMap Nat) w m' w', familyMap env hs m w = (.ok m', w') → m.Sorted →
    ∃ reports, Reported env w hs reports w' ∧ m'.Sorted ∧
      ∀ v, m'.get v = (reports.reverse.lookup v).or (m.get v) := by
  intro hs
  induction hs with
  | nil =>
    intro m w m' w' h hm
    injection h with h1 h2
    injection h1 with h1
    subst h1 h2
    exact ⟨[], .nil _, hm, fun v => rfl⟩
  | cons x hs ih =>
    intro m w m' w' h hm
    unfold familyMap at h
    have hskip : lookup (env.db w) x env.familyGuid = none → familyMap env hs m w = (.ok m', w') →
        ∃ reports, Reported env w (x :: hs) reports w' ∧ m'.Sorted ∧
          ∀ v, m'.get v = (reports.reverse.lookup v).or (m.get v) := by
      intro hl h
      obtain ⟨rs, a, b, c⟩ := ih _ _ _ _ h hm
      exact ⟨rs, .skip hl a, b, c⟩
    cases hg : (env.db w).getInterface x env.familyGuid with
    | ok i =>
      simp only [hg] at h
      split at h
      · cases h
      · obtain ⟨rs, a, b, c⟩ := ih _ _ _ _ h (BMap.sorted_insert hm _ _)
        refine ⟨((env.family w i).2, x) :: rs, .report (i := i) (by unfold lookup; rw [hg]) rfl a, b, ?_⟩
        intro v
        rw [c v, BMap.get_insert, List.reverse_cons, List.lookup_append]
        cases rs.reverse.lookup v with
        | some y => rfl
        | none =>
          simp only [Option.none_or, List.lookup_cons]
          by_cases e : v = (env.family w i).2
          · subst e; simp
          · have : (v == (env.family w i).2) = false := by simpa using e
            rw [if_neg e, this]; rfl
    | err e =>
      simp only [hg] at h
      exact hskip (by unfold lookup; rw [hg]) h
    | panic =>
      simp only [hg] at h
      exact hskip (by unfold lookup; rw [hg]) h

theorem family_spec {env : Env W} {w : W} {s : List Nat} {w' : W}
    (h : familyBindings env w = some (.ok s, w')) : FamilySource env w s w' := by
  unfold familyBindings at h
  have hnone : driverHandles env w = [] → s = [] → w' = w → FamilySource env w s w' := by
    intro h1 h2 h3
    subst h2 h3
    refine ⟨[], [], by rw [h1]; exact .nil _, rfl, .nil, ?_⟩
    intro v h
    simp
  cases hl : (env.db w).locateHandles (some env.bindingGuid) with
  | ok hs =>
    simp only [hl] at h
    have hd : driverHandles env w = hs := by unfold driverHandles; rw [hl]
    cases hf : familyMap env hs [] w with
    | mk r w1 =>
      simp only [hf, familyResult] at h
      cases r with
      | ok m =>
        simp only [] at h
        injection h with h
        injection h with h1 h2
        injection h1 with h1
        subst h1 h2
        obtain ⟨rs, a, b, c⟩ := familyMap_spec env _ _ _ _ _ hf BMap.Sorted.nil
        refine ⟨rs, m.reverse, by rw [hd]; exact a, by rw [bindings_eq, List.map_reverse], ?_, ?_⟩
        · rw [List.pairwise_reverse]; exact b
        · intro v h
          rw [List.mem_reverse, BMap.mem_iff_get b, c v]
          simp
      | err e => simp only [] at h; injection h with h; injection h with h1; cases h1
      | panic => simp only [] at h; injection h with h; injection h with h1; cases h1
  | err e =>
    simp only [hl] at h
    injection h with h
    injection h with h1 h2
    injection h1 with h1
    exact hnone (by unfold driverHandles; rw [hl]) h1.symm h2.symm
  | panic =>
    simp only [hl] at h
    injection h with h
    injection h with h1 h2
    injection h1 with h1
    exact hnone (by unfold driverHandles; rw [hl]) h1.symm h2.symm

theorem allBindings_spec {env : Env W} (hs : SortOk env) (w : W) : AllSource env w (allBindings env w) := by
  unfold allBindings AllSource driverHandles
  cases (env.db w).locateHandles (some env.bindingGuid) with
  | ok l => exact ⟨by simp only []; rw [bindings_eq]; exact hs.perm _ _, hs.sorted _ _⟩
  | err e => exact ⟨.refl _, .nil⟩
  | panic => exact ⟨.refl _, .nil⟩

theorem mem_extend {cs new : List Nat} {x : Nat} : x ∈ extend cs new ↔ x ∈ cs ∨ x ∈ new := by
  unfold extend
  rw [List.mem_append, List.mem_filter]
  by_cases h : x ∈ cs <;> simp [h]

theorem filter_extend {cs prev new : List Nat} (h : ∀ x, x ∈ cs ↔ x ∈ prev) :
    extend cs new = cs ++ new.filter (fun b => decide (b ∉ prev)) := by
  unfold extend
  congr 1
  refine List.filter_congr ?_
  intro x _
  by_cases hx : x ∈ cs
  · simp [hx, (h x).1 hx]
  · have : x ∉ prev := fun y => hx ((h x).2 y)
    simp [hx, this]

theorem then_ok {α β : Type} {r : Res W α} {f : α → W → Res W β} {b : β} {w' : W} (h : Res.then r f = some (.ok b, w')) :
    ∃ a w1, r = some (.ok a, w1) ∧ f a w1 = some (.ok b, w') := by
  unfold Res.then at h
  cases r with
  | none => cases h
  | some y =>
    obtain ⟨o, w1⟩ := y
    cases o with
    | ok a => exact ⟨a, w1, rfl, h⟩
    | err e => simp only [] at h; injection h with h; injection h with h1; cases h1
    | panic => simp only [] at h; injection h with h; injection h with h1; cases h1

/-- The candidates: the drivers given by the caller, those of the platform override, those of the family override,
those of the bus specific override and then all drivers, each source in its own order. -/
theorem candidates_order {env : Env W} (hs : SortOk env) {n c : Nat} {drivers : List Nat} {w w' : W} {cs : List Nat}
    (h : candidates env n c drivers w = some (.ok cs, w')) :
    ∃ s2 w2 s3 w3 s4 s5, PlatformSource env c w s2 w2 ∧ FamilySource env w2 s3 w3 ∧ BusSource env c w3 s4 w' ∧
      AllSource env w' s5 ∧ Precedence (installed env w drivers) s2 s3 s4 s5 cs := by
  unfold candidates at h
  obtain ⟨s2, w2, h2, h⟩ := then_ok h
  obtain ⟨s3, w3, h3, h⟩ := then_ok h
  obtain ⟨s4, w4, h4, h⟩ := then_ok h
  injection h with h
  injection h with h1 h5
  injection h1 with h1
  subst h1 h5
  refine ⟨s2, w2, s3, w3, s4, allBindings env w4, platform_spec h2, family_spec h3, bus_spec h4, allBindings_spec hs _, ?_⟩
  unfold Precedence
  rw [bindings_eq]
  generalize installed env w drivers = s1
  rw [filter_extend (prev := s1 ++ s2 ++ s3 ++ s4), filter_extend (prev := s1 ++ s2 ++ s3),
    filter_extend (prev := s1 ++ s2), filter_extend (prev := s1)]
  · intro x; exact Iff.rfl
  · intro x; simp [mem_extend]
  · intro x; simp [mem_extend, or_assoc]
  · intro x; simp [mem_extend, or_assoc]

/-- If no source lists a driver twice, no driver is a candidate twice. -/
theorem precedence_nodup {s1 s2 s3 s4 s5 cs : List Nat} (h : Precedence s1 s2 s3 s4 s5 cs) (h1 : s1.Nodup)
    (h2 : s2.Nodup) (h3 : s3.Nodup) (h4 : s4.Nodup) (h5 : s5.Nodup) : cs.Nodup := by
  unfold Precedence at h
  subst h
  have key : ∀ {a b prev : List Nat}, a.Nodup → b.Nodup → (∀ x ∈ a, x ∈ prev) →
      (a ++ b.filter (fun x => decide (x ∉ prev))).Nodup := by
    intro a b prev ha hb hp
    rw [List.nodup_append]
    refine ⟨ha, hb.sublist List.filter_sublist, ?_⟩
    intro x hx y hy e
    subst e
    have := (List.mem_filter.1 hy).2
    simp only [decide_eq_true_eq] at this
    exact this (hp x hx)
  refine key (key (key (key h1 h2 (fun x hx => hx)) h3 ?_) h4 ?_) h5 ?_
  · intro x hx
    simp only [List.mem_append, List.mem_filter] at hx ⊢
    rcases hx with hx | hx
    · exact Or.inl hx
    · exact Or.inr hx.1
  · intro x hx
    simp only [List.mem_append, List.mem_filter] at hx ⊢
    rcases hx with (hx | hx) | hx
    · exact Or.inl (Or.inl hx)
    · exact Or.inl (Or.inr hx.1)
    · exact Or.inr hx.1
  · intro x hx
    simp only [List.mem_append, List.mem_filter] at hx ⊢
    rcases hx with ((hx | hx) | hx) | hx
    · exact Or.inl (Or.inl (Or.inl hx))
    · exact Or.inl (Or.inl (Or.inr hx.1))
    · exact Or.inl (Or.inr hx.1)
    · exact Or.inr hx.1

/-- Every driver is a candidate. -/
theorem all_are_candidates {env : Env W} {w : W} (hr : Reachable (env.db w)) {s5 : List Nat} (h : AllSource env w s5)
    {s1 s2 s3 s4 cs : List Nat} (hp : Precedence s1 s2 s3 s4 s5 cs) {d b : Nat}
    (hb : lookup (env.db w) d env.bindingGuid = some b) : b ∈ cs := by
  have h5 : b ∈ s5 := by
    rw [h.1.mem_iff]
    unfold installed
    rw [List.mem_filterMap]
    refine ⟨d, ?_, hb⟩
    have hl := Verif.Protocol.locate_by_protocol hr env.bindingGuid
    have hm : d ∈ (Verif.Protocol.allHandles (env.db w)).filter
        (fun h => (lookup (env.db w) h env.bindingGuid).isSome) := by
      refine List.mem_filter.2 ⟨?_, by rw [hb]; rfl⟩
      refine ((Verif.Protocol.locate_all_exact hr).2.1 d).2 ?_
      have hb' := hb
      unfold lookup Db.getInterface at hb'
      cases hv : (env.db w).valid d with
      | true => rfl
      | false =>
        simp [Db.getInst, Verif.Protocol.valid_false.1 hv] at hb'
    rw [if_neg (List.ne_nil_of_mem hm)] at hl
    unfold driverHandles
    rw [hl]
    exact hm
  unfold Precedence at hp
  subst hp
  simp only [List.mem_append, List.mem_filter, decide_eq_true_eq]
  by_cases a1 : b ∈ s1
  · simp [a1]
  · by_cases a2 : b ∈ s2
    · simp [a1, a2]
    · by_cases a3 : b ∈ s3
      · simp [a1, a2, a3]
      · by_cases a4 : b ∈ s4
        · simp [a1, a2, a3, a4]
        · simp [a1, a2, a3, a4, h5]

/-! ### Connecting -/

/-- What connecting one controller does: nothing if the handle is not valid; otherwise it determines the candidates
and tries them in rounds, and succeeds exactly when some driver started or the remaining path is at its end. -/
theorem connectSingle_spec {env : Env W} {n c : Nat} {drivers : List Nat} {path : Option Nat} {w w' : W}
    {r : Outcome EfiError Unit} {l : List (List Try)} (h : connectSingle env n c drivers path w = some (r, l, w')) :
    ((env.db w).valid c = false ∧ r = .err .invalidParameter ∧ l = [] ∧ w' = w) ∨
    ((env.db w).valid c = true ∧ r = .panic ∧ l = []) ∨
    ((env.db w).valid c = true ∧ ∃ cs w1, candidates env n c drivers w = some (.ok cs, w1) ∧ Rounds cs l ∧
      Performed env c path w1 l.flatten w' ∧
      r = if (∃ t ∈ l.flatten, t.answer = some true) ∨ ∃ p, path = some p ∧ env.isEnd w' p = true then .ok ()
          else .err .notFound) := by
  unfold connectSingle at h
  by_cases hv : (env.db w).valid c = true
  · right
    rw [if_pos hv] at h
    cases hc : candidates env n c drivers w with
    | none => rw [hc] at h; cases h
    | some y =>
      obtain ⟨o, w1⟩ := y
      rw [hc] at h
      cases o with
      | ok cs =>
        right
        simp only [] at h
        obtain ⟨l0, w0, hr⟩ := rounds_end env c path (cs.length + 1) cs w1 (Nat.lt_succ_self _)
        rw [hr] at h
        unfold verdict at h
        injection h with h
        injection h with h1 h
        injection h with h2 h3
        subst h2 h3
        obtain ⟨a, b⟩ := rounds_spec env c path _ _ _ _ _ hr
        refine ⟨hv, cs, w1, rfl, a, b, ?_⟩
        rw [← h1]
        have e1 : oneStarted l0 = true ↔ ∃ t ∈ l0.flatten, t.answer = some true := by
          unfold oneStarted
          rw [List.any_eq_true]
          constructor
          · rintro ⟨r, hr, hx⟩
            obtain ⟨t, ht, hy⟩ := List.any_eq_true.1 hx
            exact ⟨t, List.mem_flatten.2 ⟨r, hr, ht⟩, by simpa using hy⟩
          · rintro ⟨t, ht, hy⟩
            obtain ⟨r, hr, hx⟩ := List.mem_flatten.1 ht
            exact ⟨r, hr, List.any_eq_true.2 ⟨t, hx, by simp [hy]⟩⟩
        have e2 : pathEnds env w0 path = true ↔ ∃ p, path = some p ∧ env.isEnd w0 p = true := by
          unfold pathEnds
          cases path with
          | none => constructor
                    · intro h; cases h
                    · rintro ⟨p, h, _⟩; cases h
          | some p => constructor
                      · intro h; exact ⟨p, rfl, h⟩
                      · rintro ⟨q, h, h2⟩; injection h with h; subst h; exact h2
        by_cases hx : (∃ t ∈ l0.flatten, t.answer = some true) ∨ ∃ p, path = some p ∧ env.isEnd w0 p = true
        · rw [if_pos hx, if_pos]
          rw [Bool.or_eq_true, e1, e2]; exact hx
        · rw [if_neg hx, if_neg]
          rw [Bool.or_eq_true, e1, e2]; exact hx
      | err e =>
        exfalso
        clear h
        unfold candidates at hc
        have hne : ∀ {α β : Type} {r : Res W α} {f : α → W → Res W β}, (∀ e w, r ≠ some (.err e, w)) →
            (∀ a w0 e w, f a w0 ≠ some (.err e, w)) → ∀ e w, Res.then r f ≠ some (.err e, w) := by
          intro α β r f h1 h2 e w h
          unfold Res.then at h
          cases r with
          | none => cases h
          | some y =>
            obtain ⟨o, w1⟩ := y
            cases o with
            | ok a => exact h2 _ _ _ _ h
            | err e => exact h1 _ _ rfl
            | panic => simp only [] at h; injection h with h; injection h with h1; cases h1
        have hdr : ∀ (x : Option (List Nat × W)) e w, drained env x ≠ some (.err e, w) := by
          intro x e w h
          unfold drained at h
          split at h
          · cases h
          · injection h with h; injection h with h1; cases h1
        refine hne ?_ ?_ _ _ hc
        · intro e w h
          unfold platformBindings at h
          split at h
          · split at h
            · injection h with h; injection h with h1; cases h1
            · exact hdr _ _ _ h
          · injection h with h; injection h with h1; cases h1
        · intro s2 w2
          refine hne ?_ ?_
          · intro e w h
            unfold familyBindings at h
            split at h
            · rename_i hs _
              have : ∀ hs (m : BMap Nat) w e w', familyMap env hs m w ≠ (.err e, w') := by
                intro hs
                induction hs with
                | nil => intro m w e w' h; injection h with h1; cases h1
                | cons x hs ih =>
                  intro m w e w' h
                  unfold familyMap at h
                  split at h
                  · split at h
                    · injection h with h1; cases h1
                    · exact ih _ _ _ _ h
                  · exact ih _ _ _ _ h
              unfold familyResult at h
              split at h
              · injection h with h; injection h with h1; cases h1
              · rename_i hx; exact this _ _ _ _ _ hx
              · injection h with h; injection h with h1; cases h1
            · injection h with h; injection h with h1; cases h1
          · intro s3 w3
            refine hne ?_ ?_
            · intro e w h
              unfold busBindings at h
              split at h
              · split at h
                · injection h with h; injection h with h1; cases h1
                · exact hdr _ _ _ h
              · injection h with h; injection h with h1; cases h1
            · intro s4 w4 e w h
              injection h with h; injection h with h1; cases h1
      | panic =>
        left
        simp only [] at h
        injection h with h
        injection h with h1 h
        injection h with h2 h3
        exact ⟨hv, h1.symm, h2.symm⟩
  · left
    rw [if_neg hv] at h
    injection h with h
    injection h with h1 h
    injection h with h2 h3
    exact ⟨by simpa using hv, h1.symm, h2.symm, h3.symm⟩

/-- No driver is started twice on the controller, unless a source of candidates lists it twice. -/
theorem started_at_most_once {env : Env W} {n c : Nat} {drivers : List Nat} {path : Option Nat} {w w' : W}
    {r : Outcome EfiError Unit} {l : List (List Try)} (h : connectSingle env n c drivers path w = some (r, l, w'))
    (hn : ∀ cs w1, candidates env n c drivers w = some (.ok cs, w1) → cs.Nodup) (b : Nat) : starts b l ≤ 1 := by
  rcases connectSingle_spec h with ⟨_, _, e, _⟩ | ⟨_, _, e⟩ | ⟨_, cs, w1, e, hr, _⟩
  · subst e; simp [starts]
  · subst e; simp [starts]
  · exact Nat.le_trans (rounds_starts b _ _ hr) (List.nodup_iff_count.1 (hn _ _ e) b)

/-- Whatever the drivers answer, trying them comes to an end: connecting one controller returns if the override
protocols come to an end. -/
theorem single_returns {env : Env W} {n c : Nat} {drivers : List Nat} {path : Option Nat} {w : W}
    (h : candidates env n c drivers w ≠ none) : connectSingle env n c drivers path w ≠ none := by
  unfold connectSingle
  split
  · cases hc : candidates env n c drivers w with
    | none => exact absurd hc h
    | some y =>
      obtain ⟨o, w1⟩ := y
      cases o with
      | ok cs =>
        simp only []
        obtain ⟨l0, w0, hr⟩ := rounds_end env c path (cs.length + 1) cs w1 (Nat.lt_succ_self _)
        rw [hr]
        nofun
      | err e => nofun
      | panic => nofun
  · nofun

end Verif.Connect
