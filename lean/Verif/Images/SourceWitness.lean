import Verif.Images.SourceProps
/-! Concrete cases for `Images/SourceProps`. -/
namespace Verif.Images.Source
open Verif.DevicePath Verif.DevicePath.Spec

/-! ### Non-vacuity: a driver with one file, `A`, in its root -/

namespace Witness

def content : List UInt8 := [0x4d, 0x5a, 7]

def fs : Fs Bool where
  root := false
  child v nm := if v = false ∧ nm = [65] then some true else none
  entry v := if v then .file content else .dir

def info (v : Bool) : List UInt8 :=
  List.replicate 8 0 ++ leBytes 8 (if v then 3 else 0) ++ List.replicate 56 0 ++ leBytes 8 (if v then 0x20 else 0x10)

/-- The open files, in the order of opening. -/
abbrev State := List (Bool × Nat)

def opened (s : State) (f : Nat) : Option (Bool × Nat) := if f = 0 then none else s[f - 1]?

def move (s : State) (f p : Nat) : State := s.modify (f - 1) (fun x => (x.1, p))

def env : Env State where
  locate _ g path := if g = .simpleFileSystem then .ok (path, 5) else .error NOT_FOUND
  iface _ _ _ := .ok 9
  devicePath _ _ := some (bytes [])
  readSection s _ _ _ _ := ((NOT_FOUND, none, 0), s)
  openVolume s _ := ((SUCCESS, s.length + 1), s ++ [(false, 0)])
  openFile s f nm _ _ := match opened s f with
    | none => ((INVALID_PARAMETER, 0), s)
    | some (v, _) => match fs.child v nm with
      | none => ((NOT_FOUND, 0), s)
      | some w => ((SUCCESS, s.length + 1), s ++ [(w, 0)])
  getInfo s f n := match opened s f with
    | none => ((INVALID_PARAMETER, 0, []), s)
    | some (v, _) => if n < 80 then ((BUFFER_TOO_SMALL, 80, []), s) else ((SUCCESS, 80, info v), s)
  setPosition s f p := match opened s f with
    | none => (INVALID_PARAMETER, s)
    | some _ => (SUCCESS, move s f p)
  readFile s f n := match opened s f with
    | none => ((INVALID_PARAMETER, 0, []), s)
    | some (v, p) => match fs.entry v with
      | .dir => ((UNSUPPORTED, 0, []), s)
      | .file c => ((SUCCESS, ((c.drop p).take n).length, (c.drop p).take n), move s f (p + ((c.drop p).take n).length))
  loadFile s _ _ _ _ _ := ((NOT_FOUND, 0, []), s)
  hasSecurity2 _ := true
  hasSecurity _ := true
  fileAuthentication s _ b _ := (if b.length = 3 then ACCESS_DENIED else SUCCESS, s)
  authenticationState s _ _ := (SUCCESS, s)
  loadPe s _ _ _ := (.ok 77, s)
  valid _ h := h = 1
  isImage _ h := h = 1
  room := 1000

theorem info_length (v : Bool) : (info v).length = 80 := by cases v <;> decide

theorem opened_lt {s : State} {f : Nat} {x : Bool × Nat} (h : opened s f = some x) : f ≠ 0 ∧ f - 1 < s.length := by
  unfold opened at h
  split at h
  · cases h
  · rename_i h0
    exact ⟨h0, (List.getElem?_eq_some_iff.1 h).1⟩

theorem opened_new (s : State) (x : Bool × Nat) : opened s (s.length + 1) = none ∧ opened (s ++ [x]) (s.length + 1) = some x ∧
    ∀ g, g ≠ s.length + 1 → opened (s ++ [x]) g = opened s g := by
  refine ⟨by simp [opened], by simp [opened], ?_⟩
  intro g hg
  unfold opened
  split
  · rfl
  · rename_i h0
    by_cases hl : g - 1 < s.length
    · rw [List.getElem?_append_left hl]
    · rw [List.getElem?_eq_none (by simp; omega), List.getElem?_eq_none (by omega)]

theorem opened_move {s : State} {f p q : Nat} {v : Bool} (h : opened s f = some (v, p)) : opened (move s f q) f = some (v, q) ∧
    ∀ g, g ≠ f → opened (move s f q) g = opened s g := by
  obtain ⟨h0, hl⟩ := opened_lt h
  unfold opened at h
  rw [if_neg h0] at h
  refine ⟨?_, ?_⟩
  · unfold opened move
    rw [if_neg h0, List.getElem?_modify_eq, h]
    rfl
  · intro g hg
    unfold opened move
    by_cases hg0 : g = 0
    · rw [if_pos hg0, if_pos hg0]
    · rw [if_neg hg0, if_neg hg0, List.getElem?_modify]; have : f - 1 ≠ g - 1 := by omega
      simp [this]

def serves : Serves env 9 fs where
  opened := opened
  info := info
  is_info v := by
    refine ⟨by rw [info_length]; decide, ?_, ?_⟩
    · intro c hc
      cases v with
      | false => cases hc
      | true => cases hc; decide
    · cases v <;> decide
  volume s := ⟨s.length + 1, s ++ [(false, 0)], rfl, by omega, (opened_new s (false, 0)).1, (opened_new s _).2.1, (opened_new s _).2.2⟩
  opens s f v p nm w ho hc := by
    refine ⟨s.length + 1, s ++ [(w, 0)], ?_, by omega, (opened_new s (w, 0)).1, (opened_new s _).2.1, (opened_new s _).2.2⟩
    simp only [env, ho, hc]
  missing s f v p nm ho hc := by simp only [env, ho, hc]
  info_size s f v p ho := ⟨[], s, by simp [env, ho, info_length], rfl⟩
  info_data s f v p ho := ⟨s, by simp [env, ho, info_length], rfl⟩
  seeks s f v p q ho := ⟨move s f q, by simp only [env, ho], (opened_move ho).1, (opened_move ho).2⟩
  reads s f v p c n ho hc := ⟨move s f (p + ((c.drop p).take n).length), by simp only [env, ho, hc], (opened_move ho).1, (opened_move ho).2⟩

/-- The file is read; the volume stays open. -/
example : ∃ s', fromSfs env (bytes [fileNode [65]] ++ []) ⟨[], []⟩ = (.ok (content, 5), s') ∧ ∃ g, opened [] g = none ∧ opened s'.ext g ≠ none := by
  obtain ⟨s', h, -, hg⟩ := file_bytes serves ⟨[], []⟩ _ 5 [[65]] [] true content rfl rfl (by decide)
    (fun nm hnm => by simp at hnm; subst hnm; exact ⟨by simp, by decide⟩) rfl rfl (by decide) (by show (info true).length ≤ 1000; rw [info_length]; decide)
  exact ⟨s', h, hg⟩

example : (fromSfs env (bytes [] ++ []) ⟨[], []⟩).1 = .err NOT_FOUND :=
  directory_refused serves ⟨[], []⟩ _ 5 [] [] false rfl rfl (by decide) (by simp) rfl rfl (by show (info false).length ≤ 1000; rw [info_length]; decide)

example : (fromSfs env (bytes [fileNode [66]] ++ []) ⟨[], []⟩).1 = .err NOT_FOUND :=
  missing_refused serves ⟨[], []⟩ _ 5 [[66]] [] rfl rfl (by decide) (fun nm hnm => by simp at hnm; subst hnm; exact ⟨by simp, by decide⟩) rfl

/-- The file is refused, and loaded. -/
example : (loadImage env false 9 false 1 (some (bytes [fileNode [65]])) none true ⟨[], []⟩).1 = .ok (ACCESS_DENIED, some 77) := by decide +kernel

example : (loadImage env false 9 false 1 none (some [1, 2, 3, 4]) true ⟨[], []⟩).1 = .ok (SUCCESS, some 77) := by decide +kernel

/-- A driver that answers the first call with a size and the second with the bytes, and a firmware volume. -/
def env2 : Env State :=
  { env with
    locate := fun _ g path => if g = .simpleFileSystem then .error NOT_FOUND else .ok (path, 5)
    loadFile := fun s _ _ _ n null => if null then ((BUFFER_TOO_SMALL, 3, []), s) else if n = 3 then ((SUCCESS, 2, [1, 2]), s) else ((INVALID_PARAMETER, 0, []), s)
    readSection := fun s _ g ty _ => if ty = 0x10 ∧ g.length = 16 then ((SUCCESS, some [8, 9], 3), s) else ((NOT_FOUND, none, 0), s) }

example : (fromLoadFile env2 .loadFile true [1, 2] ⟨[], []⟩).1 = .ok ([1, 2, 0], 5) := by decide +kernel
example : (byPath env2 false true (some ((⟨4, 6, List.replicate 16 1⟩ : Node).bytes ++ bytes [])) ⟨[], []⟩).1 = .ok ⟨[8, 9], true, some 5, 0⟩ := by decide +kernel
example : (byPath env2 false false (some (bytes [])) ⟨[], []⟩).1 = .ok ⟨[1, 2, 0], false, some 5, 0⟩ ∧
    (byPath env2 false false (some (bytes [])) ⟨[], []⟩).2.calls = [.loadFile 9 (bytes []) false 0 true, .loadFile 9 (bytes []) false 3 false] := by
  decide +kernel
example : (keptPath env 9 (some (bytes [fileNode [65]])) (some 5) ⟨[], []⟩).1 = .ok (some (bytes [fileNode [65]])) := by decide +kernel
end Witness

end Verif.Images.Source
