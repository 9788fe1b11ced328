import Verif.Variable.Props
/-!
A firmware that does what the specification says, and cases that meet the hypotheses of C85 and C86.
-/
namespace Verif.Variable.Witness
open Spec

/-- The firmware's memory: variables that may be. -/
abbrev Store := { vs : Vars // vs.Valid }

def getReply (s : Store) (buf : Str) (ns size : Nat) : GetReply :=
  match cstr buf with
  | none => ⟨INVALID_PARAMETER, 0, 0, []⟩
  | some name => match s.1.lookup name ns with
    | none => ⟨NOT_FOUND, 0, 0, []⟩
    | some v => if size < v.data.length then ⟨BUFFER_TOO_SMALL, v.attrs, v.data.length, []⟩
      else ⟨SUCCESS, v.attrs, v.data.length, v.data⟩

def nextReply (unit : Nat) (s : Store) (size : Nat) (buf : Str) (ns : Nat) : NextReply :=
  match cstr (buf.take (size / unit)) with
  | none => ⟨INVALID_PARAMETER, size, [], ns⟩
  | some name => match s.1.after name ns with
    | none => ⟨INVALID_PARAMETER, size, [], ns⟩
    | some [] => ⟨NOT_FOUND, size, [], ns⟩
    | some (v :: _) =>
      if size < unit * (v.name.length + 1) then ⟨BUFFER_TOO_SMALL, unit * (v.name.length + 1), [], ns⟩
      else ⟨SUCCESS, unit * (v.name.length + 1), v.name ++ [0], v.ns⟩

def without (vs : Vars) (name : Str) (ns : Nat) : Vars := vs.filter fun v => ¬ (v.name = name ∧ v.ns = ns)

theorem without_valid {vs : Vars} (h : vs.Valid) (name : Str) (ns : Nat) : (without vs name ns).Valid :=
  ⟨fun v hv => h.1 v (List.mem_filter.1 hv).1, h.2.filter _⟩

theorem without_none (vs : Vars) (name : Str) (ns : Nat) : ∀ v ∈ without vs name ns, ¬ (v.name = name ∧ v.ns = ns) := by
  intro v hv
  exact of_decide_eq_true (List.mem_filter.1 hv).2

theorem put_valid {vs : Vars} (h : vs.Valid) {v : Var} (h1 : v.name ≠ [] ∧ 0 ∉ v.name ∧ v.data ≠ []) :
    (without vs v.name v.ns ++ [v] : Vars).Valid := by
  refine ⟨?_, ?_⟩
  · intro w hw
    rcases List.mem_append.1 hw with hw | hw
    · exact (without_valid h v.name v.ns).1 w hw
    · rw [List.mem_singleton.1 hw]; exact h1
  · rw [List.pairwise_append]
    refine ⟨(without_valid h v.name v.ns).2, by simp, ?_⟩
    intro a ha b hb
    rw [List.mem_singleton.1 hb]
    exact without_none vs v.name v.ns a ha

def setReply (s : Store) (buf : Str) (ns attrs : Nat) (data : List UInt8) : Status × Store :=
  match cstr buf with
  | none => (INVALID_PARAMETER, s)
  | some name =>
    if hd : data = [] then (SUCCESS, ⟨without s.1 name ns, without_valid s.2 name ns⟩)
    else if h : name ≠ [] ∧ 0 ∉ name then
      (SUCCESS, ⟨without s.1 name ns ++ [⟨name, ns, data, attrs⟩], put_valid (v := ⟨name, ns, data, attrs⟩) s.2 ⟨h.1, h.2, hd⟩⟩)
    else (INVALID_PARAMETER, s)

/-- A firmware; `unit` is 2 for one that follows the specification. -/
def reference (unit : Nat) : Firmware Store :=
  ⟨some getReply, some (nextReply unit), some setReply, some fun _ _ => (SUCCESS, 4096, 1024, 512)⟩

theorem reference_has (unit : Nat) (s : Store) : Has unit (reference unit) s s.1 := by
  refine ⟨s.2, ⟨_, rfl, ?_⟩, ⟨_, rfl, ?_⟩⟩
  · intro buf name ns size hn
    unfold getReply GetOk
    rw [hn]
    dsimp only
    cases s.1.lookup name ns with
    | none => rfl
    | some v =>
      dsimp only
      split
      · exact ⟨rfl, rfl, rfl, rfl⟩
      · exact ⟨rfl, rfl, rfl, rfl⟩
  · intro size buf ns
    unfold nextReply NextOk
    cases cstr (buf.take (size / unit)) with
    | none => rfl
    | some name =>
      dsimp only
      cases s.1.after name ns with
      | none => rfl
      | some l =>
        cases l with
        | nil => rfl
        | cons v rest =>
          dsimp only
          split
          · exact ⟨rfl, rfl, Nat.zero_le _⟩
          · exact ⟨rfl, rfl, rfl⟩

theorem lookup_name {vs : Vars} {name : Str} {ns : Nat} {v : Var} (h : vs.lookup name ns = some v) : v.name = name ∧ v.ns = ns := by
  have := List.find?_some h
  simpa using this

/-- What a firmware says it has is what is looked up in it. -/
theorem has_lookup {unit : Nat} {s : Store} {vs : Vars} (h : Has unit (reference unit) s vs) {buf name : Str}
    (hn : cstr buf = some name) (ns : Nat) : vs.lookup name ns = s.1.lookup name ns := by
  obtain ⟨f, hf, hg⟩ := h.get
  have hf : getReply = f := by injection hf
  subst hf
  have key := fun size => hg buf name ns size hn
  unfold getReply GetOk at key
  simp only [hn] at key
  cases h1 : vs.lookup name ns with
  | none =>
    cases h2 : s.1.lookup name ns with
    | none => rfl
    | some w =>
      have := key w.data.length
      rw [h1, h2] at this
      dsimp only at this
      rw [if_neg (Nat.lt_irrefl _)] at this
      exact absurd (show SUCCESS = NOT_FOUND from this) (by decide)
  | some v =>
    cases h2 : s.1.lookup name ns with
    | none =>
      have := key v.data.length
      rw [h1, h2] at this
      dsimp only at this
      rw [if_neg (Nat.lt_irrefl _)] at this
      exact absurd (show NOT_FOUND = SUCCESS from this.2.2.1) (by decide)
    | some w =>
      have := key (v.data.length + w.data.length)
      rw [h1, h2] at this
      dsimp only at this
      rw [if_neg (by omega), if_neg (by omega)] at this
      obtain ⟨a1, _, _, a4⟩ := this
      obtain ⟨n1, n2⟩ := lookup_name h1
      obtain ⟨m1, m2⟩ := lookup_name h2
      cases v; cases w
      simp only at a1 a4 n1 n2 m1 m2
      subst n1; subst n2; subst a1; subst a4; subst m1; subst m2
      rfl

theorem lookup_without (vs : Vars) (name : Str) (ns : Nat) (name' : Str) (ns' : Nat) :
    (without vs name ns).lookup name' ns' = if name' = name ∧ ns' = ns then none else vs.lookup name' ns' := by
  unfold without Vars.lookup
  rw [List.find?_filter]
  split
  · rename_i h
    rw [List.find?_eq_none]
    intro v _
    rw [h.1, h.2]
    by_cases hv : v.name = name ∧ v.ns = ns
    · simp [hv]
    · simp [hv]
  · rename_i h
    congr 1
    funext v
    by_cases hv : v.name = name' ∧ v.ns = ns'
    · rw [hv.1, hv.2]
      simp [h]
    · simp [hv]

theorem reference_sets (unit : Nat) : Sets unit (reference unit) := by
  refine ⟨⟨_, rfl, ?_⟩⟩
  intro s vs buf name ns attrs data h hn he
  have hsame : ∀ name' ns', 0 ∉ name' → vs.lookup name' ns' = s.1.lookup name' ns' := by
    intro name' ns' h0
    exact has_lookup h (cstr_append h0 []) ns'
  have hbad : ∀ name' ns', 0 ∈ name' → ∀ ws : Vars, ws.Valid → ws.lookup name' ns' = none := by
    intro name' ns' h0 ws hw
    cases hl : ws.lookup name' ns' with
    | none => rfl
    | some v =>
      have := (hw.1 v (List.mem_of_find?_eq_some hl)).2.1
      rw [(lookup_name hl).1] at this
      exact absurd h0 this
  have hall : ∀ name' ns', vs.lookup name' ns' = s.1.lookup name' ns' := by
    intro name' ns'
    by_cases h0 : 0 ∈ name'
    · rw [hbad name' ns' h0 vs h.valid, hbad name' ns' h0 s.1 s.2]
    · exact hsame name' ns' h0
  unfold setReply at he ⊢
  rw [hn] at he ⊢
  dsimp only at he ⊢
  by_cases hd : data = []
  · rw [dif_pos hd]
    refine ⟨_, reference_has unit _, ?_, ?_⟩
    · rw [lookup_without, if_pos ⟨rfl, rfl⟩, if_pos hd]
    · intro name' ns' hdiff
      rw [lookup_without, if_neg hdiff, hall]
  · rw [dif_neg hd] at he ⊢
    by_cases h1 : name ≠ [] ∧ 0 ∉ name
    · rw [dif_pos h1]
      refine ⟨_, reference_has unit _, ?_, ?_⟩
      · unfold Vars.lookup
        rw [List.find?_append]
        have := lookup_without s.1 name ns name ns
        unfold Vars.lookup at this
        rw [this, if_pos ⟨rfl, rfl⟩, if_neg hd]
        simp
      · intro name' ns' hdiff
        unfold Vars.lookup
        rw [List.find?_append]
        have := lookup_without s.1 name ns name' ns'
        unfold Vars.lookup at this
        rw [this, if_neg hdiff]
        have hl := hall name' ns'
        unfold Vars.lookup at hl
        rw [hl]
        have : ([⟨name, ns, data, attrs⟩] : Vars).find? (fun v => decide (v.name = name' ∧ v.ns = ns')) = none := by
          rw [List.find?_eq_none]
          intro v hv
          rw [List.mem_singleton.1 hv]
          simp only [decide_eq_true_eq]
          intro e
          exact hdiff ⟨e.1.symm, e.2.symm⟩
        rw [this, Option.or_none]
    · rw [dif_neg h1] at he
      exact absurd (show isError INVALID_PARAMETER = false from he) (by decide)

/-- Two variables: `Ab` with four bytes, and `Boot` in another namespace. -/
def demo : Store := ⟨[⟨[65, 98], 7, [1, 2, 3, 4], 3⟩, ⟨[66, 111, 111, 116], 9, [5], 7⟩], by decide, by decide⟩

/-- `get_variable_exact_partial`: with a small hint, and without one. -/
example : getVariable true (reference 2) id demo [65, 98, 0] 7 (some 2) some = .ok ([1, 2, 3, 4], 3) :=
  get_variable_exact_partial true (reference_has 2 demo) (reference_has 2 demo) (name := [65, 98]) rfl (v := ⟨[65, 98], 7, [1, 2, 3, 4], 3⟩) rfl
    (by intro n hn; injection hn with hn; subst hn; decide) some

/-- `get_variable_large_hint`: with a hint of six the value has two bytes that nobody wrote. -/
example : getVariable true (reference 2) id demo [65, 98, 0] 7 (some 6) some = .ok ([1, 2, 3, 4, 0, 0], 3) := by decide
example : ∃ d, getVariable true (reference 2) id demo [65, 98, 0] 7 (some 6) some = .ok (d, 3) ∧ d.length = 6 ∧ d ≠ [1, 2, 3, 4] :=
  get_variable_large_hint true (reference_has 2 demo) (name := [65, 98]) rfl (v := ⟨[65, 98], 7, [1, 2, 3, 4], 3⟩) rfl (by decide)

/-- `get_variable_raced`: the variable becomes shorter between the calls. -/
def shrink (s : Store) : Store := (setReply s [65, 98, 0] 7 3 [9]).2
example : getVariable false (reference 2) shrink demo [65, 98, 0] 7 none some = .ok ([9, 10, 10, 10], 3) := by decide

/-- `set_then_get`: a variable is added. -/
example : ∃ s', setVariable true (reference 2) demo [67, 0] 7 1 [42] = (.ok (), s') ∧
    getVariable true (reference 2) id s' [67, 0] 7 none some = .ok ([42], 1) := by
  refine ⟨_, rfl, ?_⟩
  exact (set_then_get true (reference_sets 2) (reference_has 2 demo) (buf := [67, 0]) (name := [67]) (ns := 7) (attrs := 1) (data := [42]) rfl rfl).1

/-- `iterator_from_first_partial`: the iterator lists both variables, with firmware that counts
characters. -/
example : Iter.steps true (reference 1) demo 4 Iter.first =
    [.ok (some ([65, 98, 0], 7)), .ok (some ([66, 111, 111, 116, 0], 9)), .ok none, .ok none] := by decide

/-- `iterator_refused`: with firmware that counts bytes it lists nothing. -/
example : (Iter.first.step true (reference 2) demo).1 = .err INVALID_PARAMETER := iterator_refused true (reference_has 2 demo)

/-- `next_exact_refused`: the name of a variable there is, terminated. -/
example : getNextVariableName true (reference 2) demo [65, 98, 0] 7 = .err INVALID_PARAMETER :=
  (next_exact_refused true (reference_has 2 demo) (name := [65, 98]) (by decide) 7 [] (by decide) 0).2

/-- `next_passed_on`: padded names work, and lead from one to the next. -/
example : getNextVariableName true (reference 2) demo [0, 0] 0 = .ok ([65, 98, 0, 0, 0, 0], 7) ∧
    getNextVariableName true (reference 2) demo [65, 98, 0, 0, 0, 0] 7 = .ok ([66, 111, 111, 116, 0, 0, 0, 0, 0, 0], 9) ∧
    getNextVariableName true (reference 2) demo [66, 111, 111, 116, 0, 0, 0, 0, 0, 0] 9 = .err NOT_FOUND := by decide

end Verif.Variable.Witness
