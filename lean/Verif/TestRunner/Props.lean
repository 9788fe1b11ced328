import Verif.TestRunner.Spec
/-! C126: the test runner reports failure exactly if a selected test was not as expected. -/
namespace Verif.TestRunner

variable {σ : Type}

theorem contains_iff (name p : Text) : contains name p = true ↔ ∃ a b, name = a ++ p ++ b := by
  induction name with
  | nil =>
    unfold contains
    rw [List.isPrefixOf_iff_prefix]
    constructor
    · rintro ⟨b, hb⟩; exact ⟨[], b, by simpa using hb.symm⟩
    · rintro ⟨a, b, h⟩
      have := List.append_eq_nil_iff.1 h.symm
      have h2 := List.append_eq_nil_iff.1 this.1
      rw [h2.2]; exact List.nil_prefix
  | cons c cs ih =>
    unfold contains
    rw [Bool.or_eq_true, List.isPrefixOf_iff_prefix, ih]
    constructor
    · rintro (⟨b, hb⟩ | ⟨a, b, h⟩)
      · exact ⟨[], b, by simpa using hb.symm⟩
      · exact ⟨c :: a, b, by rw [h]; rfl⟩
    · rintro ⟨a, b, h⟩
      cases a with
      | nil => exact Or.inl ⟨b, by simpa using h.symm⟩
      | cons d a =>
        rw [List.cons_append, List.cons_append] at h
        exact Or.inr ⟨a, b, (List.cons.inj h).2⟩

/-- **Which tests are run**: those that are selected. -/
theorem runs_selected (t : Case σ) (filters : List Text) : shouldRun t filters = true ↔ Selected t filters := by
  unfold shouldRun Selected
  cases filters with
  | nil => simp
  | cons p ps =>
    rw [if_neg (by simp), Bool.and_eq_true, List.any_eq_true]
    constructor
    · rintro ⟨⟨q, hq, hc⟩, hs⟩
      exact ⟨by simpa using hs, Or.inr ⟨q, hq, (contains_iff _ _).1 hc⟩⟩
    · rintro ⟨hs, h | ⟨q, hq, hc⟩⟩
      · cases h
      · exact ⟨⟨q, hq, (contains_iff _ _).2 hc⟩, by simp [hs]⟩

theorem callFunc_ran (t : Case σ) (w : World σ) : (callFunc t w).2.ran = w.ran ++ [(t.id, w.level, (callFunc t w).1)] := by
  unfold callFunc
  dsimp only
  split
  · cases t.body (t.init w.storage) w.level with
    | mk r x => obtain ⟨s, l⟩ := x; cases r <;> rfl
  · rfl

/-- The level at which a test runs. -/
def during (debug : Bool) (w : World σ) : Nat := if debug then w.level else 0

theorem run_ran (t : Case σ) (debug : Bool) (w : World σ) :
    ∃ r, (run t debug w).2.ran = w.ran ++ [(t.id, during debug w, r)] ∧ ((run t debug w).1 = none ↔ Good t r) ∧
      (debug = false → (run t debug w).2.level = w.level) := by
  have key : ∀ (ret : Ret) (w' : World σ) (x : Option Text × World σ),
      x = (match t.shouldFail, ret with
        | _, .ok false => (some UNRETRIEVABLE, w')
        | true, .ok true => (some PASSED, w')
        | true, .err m =>
          match t.failMsg with
          | some f => if m ≠ f then (some m, w') else (none, w')
          | none => (none, w')
        | false, .ok true => (none, w')
        | false, .err m => (some m, w')) → x.2 = w' ∧ (x.1 = none ↔ Good t ret) := by
    rintro ret w' x rfl
    cases hs : t.shouldFail <;> cases ret with
    | ok b => cases b <;> simp [Good, hs]
    | err m =>
      first
      | (simp [Good, hs]; done)
      | (cases hf : t.failMsg with
         | none => simp [Good, hs, hf]
         | some f =>
           dsimp only
           by_cases hm : m = f
           · simp [Good, hs, hf, hm]
           · simp [Good, hs, hf, hm])
  cases debug with
  | true =>
    have h := key (callFunc t w).1 (callFunc t w).2 (run t true w) (by unfold run; rfl)
    refine ⟨(callFunc t w).1, ?_, h.2, by simp⟩
    rw [h.1, callFunc_ran]; rfl
  | false =>
    have h := key (callFunc t { w with level := 0 }).1 { (callFunc t { w with level := 0 }).2 with level := w.level } (run t false w) (by unfold run; rfl)
    refine ⟨(callFunc t { w with level := 0 }).1, ?_, h.2, ?_⟩
    · rw [h.1]
      show (callFunc t { w with level := 0 }).2.ran = _
      rw [callFunc_ran]; rfl
    · intro _; rw [h.1]

/-- **Whether a test counts as passed**: exactly if its run was good. It is run once. -/
theorem run_good (t : Case σ) (debug : Bool) (w : World σ) :
    ∃ l r, (run t debug w).2.ran = w.ran ++ [(t.id, l, r)] ∧ ((run t debug w).1 = none ↔ Good t r) := by
  obtain ⟨r, h1, h2, -⟩ := run_ran t debug w
  exact ⟨_, r, h1, h2⟩

/-- A test whose parameters are not there is not run, and fails, even if it is expected to fail. -/
theorem unretrievable_fails (t : Case σ) (debug : Bool) (w : World σ) (h : t.valid (t.init w.storage) = false) :
    (run t debug w).1 ≠ none ∧ (run t debug w).2.storage = t.init w.storage := by
  unfold run callFunc
  cases debug <;> simp only [h] <;> cases t.shouldFail <;> simp

/-- The selected tests of a list. -/
def selected (filters : List Text) (tests : List (Case σ)) : List (Case σ) := tests.filter (fun t => shouldRun t filters)

theorem loop_spec (filters : List Text) (debug failFast : Bool) (tests : List (Case σ)) : ∀ (e : Bool) (w : World σ),
    ∃ runs : List (Case σ × Nat × Ret), (loop filters debug failFast tests e w).2.ran = w.ran ++ runs.map (fun r => (r.1.id, r.2.1, r.2.2)) ∧
      (∃ rest, selected filters tests = runs.map (·.1) ++ rest ∧
        (rest ≠ [] → failFast = true ∧ ∃ l, runs.getLast? = some l ∧ ¬ Good l.1 l.2.2)) ∧
      ((loop filters debug failFast tests e w).1 = true ↔ e = true ∨ ∃ r ∈ runs, ¬ Good r.1 r.2.2) ∧
      (failFast = true → ∀ r ∈ runs.dropLast, Good r.1 r.2.2) ∧
      (debug = false → (loop filters debug failFast tests e w).2.level = w.level ∧ ∀ r ∈ runs, r.2.1 = 0) := by
  induction tests with
  | nil => intro e w; exact ⟨[], by simp [loop], ⟨[], by simp [selected], by simp⟩, by simp [loop], by simp, by simp [loop]⟩
  | cons t ts ih =>
    intro e w
    by_cases hs : shouldRun t filters = true
    · obtain ⟨r, hr, hg, hlev⟩ := run_ran t debug w
      have hsel : selected filters (t :: ts) = t :: selected filters ts := by simp [selected, hs]
      have hdur : debug = false → during debug w = 0 := by rintro rfl; rfl
      cases hx : run t debug w with
      | mk m w1 =>
        rw [hx] at hr hg hlev
        dsimp only at hr hg hlev
        cases m with
        | none =>
          have hgood : Good t r := hg.1 rfl
          have hl : loop filters debug failFast (t :: ts) e w = loop filters debug failFast ts e w1 := by
            conv => lhs; unfold loop
            rw [if_pos hs, hx]
          obtain ⟨runs, h1, ⟨rest, h2, h3⟩, h4, h5, h6⟩ := ih e w1
          refine ⟨(t, during debug w, r) :: runs, ?_, ⟨rest, ?_, ?_⟩, ?_, ?_, ?_⟩
          · rw [hl, h1, hr]; simp
          · rw [hsel, h2]; rfl
          · intro hne
            obtain ⟨hf, l, hl', hb⟩ := h3 hne
            refine ⟨hf, l, ?_, hb⟩
            cases runs with
            | nil => cases hl'
            | cons a as => rw [List.getLast?_cons_cons]; exact hl'
          · rw [hl, h4]
            constructor
            · rintro (h | ⟨x, hx, hb⟩)
              · exact Or.inl h
              · exact Or.inr ⟨x, by simp [hx], hb⟩
            · rintro (h | ⟨x, hx, hb⟩)
              · exact Or.inl h
              · rcases List.mem_cons.1 hx with rfl | hx
                · exact absurd hgood hb
                · exact Or.inr ⟨x, hx, hb⟩
          · intro hf x hx
            cases runs with
            | nil => cases hx
            | cons a as =>
              rw [List.dropLast_cons_cons] at hx
              rcases List.mem_cons.1 hx with rfl | hx
              · exact hgood
              · exact h5 hf x hx
          · intro hd
            obtain ⟨h7, h8⟩ := h6 hd
            rw [hl]
            refine ⟨by rw [h7, hlev hd], fun x hx => ?_⟩
            rcases List.mem_cons.1 hx with rfl | hx
            · exact hdur hd
            · exact h8 x hx
        | some msg =>
          have hbad : ¬ Good t r := fun h => by have := hg.2 h; cases this
          cases failFast with
          | true =>
            have hl : loop filters debug true (t :: ts) e w = (true, w1) := by
              unfold loop
              rw [if_pos hs, hx]
              rfl
            refine ⟨[(t, during debug w, r)], ?_, ⟨selected filters ts, ?_, ?_⟩, ?_, ?_, ?_⟩
            · rw [hl, hr]; rfl
            · rw [hsel]; rfl
            · intro _; exact ⟨rfl, (t, during debug w, r), rfl, hbad⟩
            · rw [hl]; exact ⟨fun _ => Or.inr ⟨_, List.mem_singleton.2 rfl, hbad⟩, fun _ => rfl⟩
            · intro _ x hx; cases hx
            · intro hd
              rw [hl]
              refine ⟨hlev hd, fun x hx => ?_⟩
              rw [List.mem_singleton.1 hx]; exact hdur hd
          | false =>
            have hl : loop filters debug false (t :: ts) e w = loop filters debug false ts true w1 := by
              conv => lhs; unfold loop
              rw [if_pos hs, hx]
              rfl
            obtain ⟨runs, h1, ⟨rest, h2, h3⟩, h4, h5, h6⟩ := ih true w1
            refine ⟨(t, during debug w, r) :: runs, ?_, ⟨rest, ?_, ?_⟩, ?_, ?_, ?_⟩
            · rw [hl, h1, hr]; simp
            · rw [hsel, h2]; rfl
            · intro hne; exact absurd (h3 hne).1 (by decide)
            · rw [hl, h4]
              exact ⟨fun _ => Or.inr ⟨_, List.mem_cons_self, hbad⟩, fun _ => Or.inl rfl⟩
            · intro hf; cases hf
            · intro hd
              obtain ⟨h7, h8⟩ := h6 hd
              rw [hl]
              refine ⟨by rw [h7, hlev hd], fun x hx => ?_⟩
              rcases List.mem_cons.1 hx with rfl | hx
              · exact hdur hd
              · exact h8 x hx
    · have hl : loop filters debug failFast (t :: ts) e w = loop filters debug failFast ts e w := by
        conv => lhs; unfold loop
        rw [if_neg hs]
      have hsel : selected filters (t :: ts) = selected filters ts := by simp [selected, hs]
      rw [hl, hsel]
      exact ih e w

/-- **The runner runs the selected tests, each once and in order, and succeeds exactly if all runs were good.** `runs` are the runs: test, level of the log, result. Without fail-fast they are of
all selected tests; with it, of those up to the first whose run was not good. Without debug mode the log is off while a test runs, and has its level again afterwards. -/
theorem entry_spec (filters : List Text) (debug failFast : Bool) (tests : List (Case σ)) (w : World σ) :
    ∃ runs : List (Case σ × Nat × Ret), (entry filters debug failFast tests w).2.ran = w.ran ++ runs.map (fun r => (r.1.id, r.2.1, r.2.2)) ∧
      ((entry filters debug failFast tests w).1 = .ok () ↔ ∀ r ∈ runs, Good r.1 r.2.2) ∧
      (∀ e, (entry filters debug failFast tests w).1 = .error e → e = .aborted) ∧
      (∃ rest, selected filters tests = runs.map (·.1) ++ rest ∧
        (rest ≠ [] → failFast = true ∧ ∃ l, runs.getLast? = some l ∧ ¬ Good l.1 l.2.2)) ∧
      (failFast = true → ∀ r ∈ runs.dropLast, Good r.1 r.2.2) ∧
      (debug = false → (entry filters debug failFast tests w).2.level = w.level ∧ ∀ r ∈ runs, r.2.1 = 0) := by
  obtain ⟨runs, h1, h2, h3, h4, h5⟩ := loop_spec filters debug failFast tests false w
  cases hx : loop filters debug failFast tests false w with
  | mk b w1 =>
    rw [hx] at h1 h3 h5
    cases b with
    | true =>
      have he : entry filters debug failFast tests w = (.error .aborted, w1) := by unfold entry; rw [hx]
      rw [he]
      refine ⟨runs, h1, ⟨fun h => (by cases h), fun h => ?_⟩, fun e h => (by cases h; rfl), h2, h4, h5⟩
      obtain h' | ⟨r, hr, hb⟩ := h3.1 rfl
      · cases h'
      · exact absurd (h r hr) hb
    | false =>
      have he : entry filters debug failFast tests w = (.ok (), w1) := by unfold entry; rw [hx]
      rw [he]
      refine ⟨runs, h1, ⟨fun _ r hr => ?_, fun _ => rfl⟩, fun e h => (by cases h), h2, h4, h5⟩
      exact Classical.byContradiction fun hb => by
        have := h3.2 (Or.inr ⟨r, hr, hb⟩)
        cases this

/-- In particular, without fail-fast every selected test is run, in the order of the list, and no other. -/
theorem all_run (filters : List Text) (debug : Bool) (tests : List (Case σ)) (w : World σ) :
    ((entry filters debug false tests w).2.ran.drop w.ran.length).map (·.1) = (tests.filter (fun t => shouldRun t filters)).map (·.id) := by
  obtain ⟨runs, h1, -, -, ⟨rest, h2, h3⟩, -⟩ := entry_spec filters debug false tests w
  have hr : rest = [] := by
    cases rest with
    | nil => rfl
    | cons a as => exact absurd (h3 (by simp)).1 (by decide)
  rw [h1, List.drop_left]
  subst hr
  unfold selected at h2
  rw [h2]
  simp

/-! ### Findings -/

/-- Finding: with no test selected, by a filter that was misspelt say, the runner succeeds. -/
theorem none_selected_succeeds (filters : List Text) (debug failFast : Bool) (tests : List (Case σ)) (w : World σ) (h : ∀ t ∈ tests, ¬ Selected t filters) :
    (entry filters debug failFast tests w).1 = .ok () := by
  obtain ⟨runs, -, h2, -, ⟨rest, h3, -⟩, -⟩ := entry_spec filters debug failFast tests w
  have : selected filters tests = [] := by
    unfold selected
    rw [List.filter_eq_nil_iff]
    intro t ht hr
    exact h t ht ((runs_selected t filters).1 hr)
  rw [this] at h3
  have hr : runs = [] := List.map_eq_nil_iff.1 (List.append_eq_nil_iff.1 h3.symm).1
  exact h2.2 (by rw [hr]; simp)

/-- Finding: in debug mode a test that changes the level of the log changes it for those after it. -/
theorem debug_level_leaks (t : Case σ) (w : World σ) (h : t.valid (t.init w.storage) = true) : (run t true w).2.level = (t.body (t.init w.storage) w.level).2.2 := by
  unfold run callFunc
  simp only [h, if_true]
  cases t.body (t.init w.storage) w.level with
  | mk r x =>
    obtain ⟨s, l⟩ := x
    cases r with
    | ok _ => cases t.shouldFail <;> rfl
    | error m =>
      cases t.shouldFail with
      | false => rfl
      | true =>
        dsimp only
        cases t.failMsg with
        | none => rfl
        | some f =>
          dsimp only
          split <;> rfl

/-! ### Non-vacuity -/

def good : Case Nat := ⟨0, "a::good".toList, false, false, none, id, fun _ => true, fun s l => (.ok (), s + 1, l)⟩
def bad : Case Nat := ⟨1, "a::bad".toList, false, false, none, id, fun _ => true, fun s _ => (.error ['x'], s + 10, 5)⟩
def expected : Case Nat := ⟨2, "b::expected".toList, false, true, some ['x'], id, fun _ => true, fun s l => (.error ['x'], s + 100, l)⟩
def absent : Case Nat := ⟨3, "b::absent".toList, false, true, none, id, fun _ => false, fun s l => (.ok (), s, l)⟩
def skipped : Case Nat := { bad with id := 4, skip := true }

example : (entry [] false false [good, bad, expected, skipped] ⟨0, 3, []⟩).2.ran = [(0, 0, .ok true), (1, 0, .err ['x']), (2, 0, .err ['x'])] := by decide +kernel
example : (entry [] false true [good, bad, expected] ⟨0, 3, []⟩).2.ran.map (·.1) = [0, 1] := by decide +kernel
example : (entry ["b::e".toList] false true [good, bad, expected] ⟨0, 3, []⟩).2.ran.map (·.1) = [2] := by decide +kernel
example : (run bad true ⟨0, 3, []⟩).2.level = 5 ∧ (run bad false ⟨0, 3, []⟩).2.level = 3 := by decide +kernel
example : absent.valid (absent.init 0) = false := rfl
example : ∀ t ∈ [good, bad], ¬ Selected t ["c".toList] := by
  intro t ht h
  rw [← runs_selected] at h
  revert h
  simp at ht
  rcases ht with rfl | rfl <;> decide +kernel

end Verif.TestRunner
