import Verif.Services.Open
import Verif.DevicePath.Props
/-!
Property C78: locating devices by device path.
-/
namespace Verif.Services
open Verif.Protocol

variable {α : Type}

/-! ### Specification vocabulary -/

/-- The handles that have `g` and a device path that `path` starts with, oldest first, with what remains of `path` and the number of nodes that agree. -/
def candidates (w : World α) (s : St α) (g path : Nat) : List (Nat × Nat × Nat) :=
  (allHandles s.db).filterMap fun h =>
    if (lookup s.db h g).isSome then
      match lookup s.db h PATH with
      | none => none
      | some p => (w.remaining s.rest p path).map fun x => (h, x)
    else none

/-- The first of those with the most nodes. -/
def First (l : List (Nat × Nat × Nat)) (x : Nat × Nat × Nat) : Prop :=
  ∃ pre post, l = pre ++ x :: post ∧ (∀ y ∈ pre, y.2.2 < x.2.2) ∧ ∀ y ∈ post, y.2.2 ≤ x.2.2

/-- Nothing was installed or uninstalled, and only device paths were opened. -/
structure Looked (w : World α) (s s' : St α) : Prop where
  made : Made w.hash w.lim s'.db
  rest : s'.rest = s.rest
  lookup : ∀ h g, lookup s'.db h g = lookup s.db h g
  order : allHandles s'.db = allHandles s.db
  hashing : s'.db.hashing = s.db.hashing
  users : ∀ h g, g ≠ PATH → users s'.db h g = users s.db h g

theorem Looked.refl {w : World α} {s : St α} (hm : Made w.hash w.lim s.db) : Looked w s s := ⟨hm, rfl, fun _ _ => rfl, rfl, rfl, fun _ _ _ => rfl⟩

theorem Looked.trans {w : World α} {s s1 s2 : St α} (a : Looked w s s1) (b : Looked w s1 s2) : Looked w s s2 :=
  ⟨b.made, b.rest.trans a.rest, fun h g => (b.lookup h g).trans (a.lookup h g), b.order.trans a.order, b.hashing.trans a.hashing, fun h g hg => (b.users h g hg).trans (a.users h g hg)⟩

theorem handle_looked {w : World α} {s : St α} (hm : Made w.hash w.lim s.db) (h : Nat) : ∃ s', Looked w s s' ∧
    handleProtocol w s h PATH false = (if s.db.valid h = false then (.invalidParameter, none, s')
      else match lookup s.db h PATH with
        | none => (.unsupported, some 0, s')
        | some i => (.success, some i, s')) := by
  obtain ⟨s', h1, h2, h3, h4, h5, h7, h6⟩ := handle_protocol_exact (w := w) hm h PATH
  exact ⟨s', ⟨h2, h3, h4, h5, h7, fun h' g' hg => h6 h' g' (fun x => hg x.2)⟩, h1⟩

/-- What one handle contributes. -/
def entry (w : World α) (s : St α) (path h : Nat) : Option (Nat × Nat × Nat) :=
  match lookup s.db h PATH with
  | none => none
  | some p => (w.remaining s.rest p path).map fun x => (h, x)

theorem entry_looked {w : World α} {s s' : St α} (hl : Looked w s s') (path h : Nat) : entry w s' path h = entry w s path h := by
  unfold entry
  rw [hl.lookup, hl.rest]

/-- One more entry. -/
def better (best : Option (Nat × Nat × Nat)) (x : Nat × Nat × Nat) : Option (Nat × Nat × Nat) :=
  if best.all (fun b => b.2.2 < x.2.2) then some x else best

theorem loop_spec {w : World α} (path : Nat) : ∀ (l : List Nat) (best : Option (Nat × Nat × Nat)) (s : St α), Made w.hash w.lim s.db →
    ∃ s', Looked w s s' ∧ locateLoop w path l best s = ((l.filterMap (entry w s path)).foldl better best, s') := by
  intro l
  induction l with
  | nil => intro best s hm; exact ⟨s, .refl hm, rfl⟩
  | cons h l ih =>
    intro best s hm
    obtain ⟨s1, hl, he⟩ := handle_looked (w := w) hm h
    have hent : (l.filterMap (entry w s1 path)) = l.filterMap (entry w s path) := congrArg (fun f => l.filterMap f) (funext fun x => entry_looked hl path x)
    have next : ∀ b, ∃ s', Looked w s s' ∧ locateLoop w path l b s1 = ((l.filterMap (entry w s path)).foldl better b, s') := fun b => by
      obtain ⟨s2, h2, e2⟩ := ih b s1 hl.made
      exact ⟨s2, hl.trans h2, by rw [e2, hent]⟩
    unfold locateLoop
    rw [he, List.filterMap_cons]
    cases hv : s.db.valid h with
    | false =>
      have hno : lookup s.db h PATH = none := by
        cases hx : lookup s.db h PATH with
        | none => rfl
        | some i => rw [valid_of_lookup hx] at hv; cases hv
      have : entry w s path h = none := by unfold entry; rw [hno]
      rw [this]
      exact next best
    | true =>
      simp only [Bool.true_eq_false, if_false]
      cases hx : lookup s.db h PATH with
      | none =>
        have : entry w s path h = none := by unfold entry; rw [hx]
        rw [this]
        exact next best
      | some p =>
        simp only [Option.getD_some]
        rw [hl.rest]
        cases hrem : w.remaining s.rest p path with
        | none =>
          have : entry w s path h = none := by unfold entry; rw [hx]; simp only; rw [hrem]; rfl
          rw [this]
          exact next best
        | some x =>
          have : entry w s path h = some (h, x) := by unfold entry; rw [hx]; simp only; rw [hrem]; rfl
          rw [this]
          simp only [List.foldl_cons, better]
          split
          · exact next _
          · exact next _

theorem foldl_better : ∀ (l : List (Nat × Nat × Nat)) (b : Nat × Nat × Nat), ∃ x, l.foldl better (some b) = some x ∧ First (b :: l) x := by
  intro l
  induction l with
  | nil => intro b; exact ⟨b, rfl, [], [], rfl, by simp, by simp⟩
  | cons a l ih =>
    intro b
    show ∃ x, l.foldl better (better (some b) a) = some x ∧ First (b :: a :: l) x
    by_cases hlt : b.2.2 < a.2.2
    · have : better (some b) a = some a := by unfold better; rw [if_pos (by simpa using hlt)]
      rw [this]
      obtain ⟨x, e, pre, post, h1, h2, h3⟩ := ih a
      refine ⟨x, e, b :: pre, post, by rw [h1]; rfl, ?_, h3⟩
      intro y hy
      rcases List.mem_cons.1 hy with rfl | hy
      · cases pre with
        | nil => simp only [List.nil_append, List.cons.injEq] at h1; rw [← h1.1]; exact hlt
        | cons p pre =>
          simp only [List.cons_append, List.cons.injEq] at h1
          have := h2 p (List.mem_cons_self ..)
          rw [← h1.1] at this
          omega
      · exact h2 y hy
    · have : better (some b) a = some b := by unfold better; rw [if_neg (by simpa using hlt)]
      rw [this]
      obtain ⟨x, e, pre, post, h1, h2, h3⟩ := ih b
      cases pre with
      | nil =>
        simp only [List.nil_append, List.cons.injEq] at h1
        refine ⟨x, e, [], a :: post, by rw [← h1.1, ← h1.2]; rfl, by simp, ?_⟩
        intro y hy
        rcases List.mem_cons.1 hy with rfl | hy
        · rw [← h1.1]; omega
        · exact h3 y hy
      | cons p pre =>
        simp only [List.cons_append, List.cons.injEq] at h1
        refine ⟨x, e, b :: a :: pre, post, by rw [h1.2]; rfl, ?_, h3⟩
        intro y hy
        have hb := h2 p (List.mem_cons_self ..)
        rw [← h1.1] at hb
        rcases List.mem_cons.1 hy with rfl | hy
        · exact hb
        · rcases List.mem_cons.1 hy with rfl | hy
          · omega
          · exact h2 y (List.mem_cons_of_mem _ hy)

/-- Locating: the handle whose device path agrees with the most nodes, the oldest of those; what remains of the path. If there is none, `NOT_FOUND`. No
interface changes. -/
theorem locate_exact {w : World α} {s : St α} (hm : Made w.hash w.lim s.db) (g path : Nat) (hp : path ≠ 0) :
    ∃ s', Looked w s s' ∧
      ((candidates w s g path = [] ∧ coreLocatePath w s g path = (.err .notFound, s')) ∨
       ∃ h r n, First (candidates w s g path) (h, r, n) ∧ coreLocatePath w s g path = (.ok (r, h), s')) := by
  have hc : candidates w s g path = ((allHandles s.db).filter (fun h => (lookup s.db h g).isSome)).filterMap (entry w s path) := by
    unfold candidates entry
    rw [List.filterMap_filter]
  unfold coreLocatePath
  rw [if_neg hp, locate_by_protocol hm.reachable, hc]
  generalize (allHandles s.db).filter (fun h => (lookup s.db h g).isSome) = l
  by_cases hl : l = []
  · rw [if_pos hl, hl]
    exact ⟨s, .refl hm, Or.inl ⟨rfl, rfl⟩⟩
  · rw [if_neg hl]
    simp only
    obtain ⟨s', h1, h2⟩ := loop_spec (w := w) path l none s hm
    rw [h2]
    refine ⟨s', h1, ?_⟩
    cases hf : l.filterMap (entry w s path) with
    | nil => exact Or.inl ⟨rfl, rfl⟩
    | cons b m =>
      right
      have hb : better none b = some b := rfl
      rw [List.foldl_cons, hb]
      obtain ⟨x, hx, hfirst⟩ := foldl_better m b
      rw [hx]
      exact ⟨x.1, x.2.1, x.2.2, hfirst, rfl⟩

/-! ### With device paths -/

/-- `is p a` says that the device path at `p` has the nodes `a`. What remains after a prefix is again such a path (C31). -/
structure Paths {ν : Type} (w : World α) (rest : α) (is : Nat → List ν → Prop) : Prop where
  prefix' : ∀ p q a c, is p a → is q (a ++ c) → ∃ r, w.remaining rest p q = some (r, a.length) ∧ is r c
  other : ∀ p q a b, is p a → is q b → (¬ ∃ c, b = a ++ c) → w.remaining rest p q = none
  ends : ∀ r c, is r c → (w.isEnd rest r = true ↔ c = [])

/-- A handle with `g` and a device path that is a prefix of `b`. -/
def Prefix {ν : Type} (db : Db) (is : Nat → List ν → Prop) (g : Nat) (b : List ν) (h : Nat) (a : List ν) : Prop :=
  (lookup db h g).isSome = true ∧ (∃ p, lookup db h PATH = some p ∧ is p a) ∧ ∃ c, b = a ++ c

theorem mem_candidates {ν : Type} {w : World α} {s : St α} {is : Nat → List ν → Prop} (hp : Paths w s.rest is)
    (hall : ∀ h p, lookup s.db h PATH = some p → ∃ a, is p a) {g path : Nat} {b : List ν} (hb : is path b) (h r n : Nat) :
    (h, r, n) ∈ candidates w s g path → ∃ a c, Prefix s.db is g b h a ∧ n = a.length ∧ b = a ++ c ∧ is r c := by
  intro hx
  obtain ⟨h0, _, hx⟩ := List.mem_filterMap.1 hx
  split at hx
  · rename_i hg
    split at hx
    · cases hx
    · rename_i p hlp
      cases hr : w.remaining s.rest p path with
      | none => rw [hr] at hx; cases hx
      | some x =>
        rw [hr] at hx
        simp only [Option.map_some, Option.some.injEq, Prod.mk.injEq] at hx
        obtain ⟨rfl, rfl⟩ := hx
        obtain ⟨a, ha⟩ := hall h0 p hlp
        by_cases hpre : ∃ c, b = a ++ c
        · obtain ⟨c, rfl⟩ := hpre
          obtain ⟨r', e, hr'⟩ := hp.prefix' p path a c ha hb
          rw [hr] at e
          injection e with e
          simp only [Prod.mk.injEq] at e
          exact ⟨a, c, ⟨hg, ⟨p, hlp, ha⟩, c, rfl⟩, e.2, rfl, by rw [e.1]; exact hr'⟩
        · rw [hp.other p path a b ha hb hpre] at hr; cases hr
  · cases hx

theorem candidate_of_prefix {ν : Type} {w : World α} {s : St α} (hm : Made w.hash w.lim s.db) {is : Nat → List ν → Prop} (hp : Paths w s.rest is)
    {g path : Nat} {b : List ν} (hb : is path b) {h : Nat} {a : List ν} (hpre : Prefix s.db is g b h a) :
    ∃ r, (h, r, a.length) ∈ candidates w s g path := by
  obtain ⟨hg, ⟨p, hlp, ha⟩, c, rfl⟩ := hpre
  obtain ⟨r, e, _⟩ := hp.prefix' p path a c ha hb
  refine ⟨r, List.mem_filterMap.2 ⟨h, ((locate_all_exact hm.reachable).2.1 h).2 (valid_of_lookup hlp), ?_⟩⟩
  rw [if_pos hg, hlp]
  simp only
  rw [e]
  rfl

/-- `LocateDevicePath` finds the handle whose device path is the longest prefix, and says what remains of the path; it says `NOT_FOUND` exactly if there is no
handle with the protocol whose path is a prefix. -/
theorem locate_prefix {ν : Type} {w : World α} {s : St α} (hm : Made w.hash w.lim s.db) {is : Nat → List ν → Prop} (hp : Paths w s.rest is)
    (hall : ∀ h p, lookup s.db h PATH = some p → ∃ a, is p a) (g : Nat) {path : Nat} {b : List ν} (hb : is path b) (h0 : path ≠ 0) :
    ∃ s', Looked w s s' ∧
      (((¬ ∃ h a, Prefix s.db is g b h a) ∧ coreLocatePath w s g path = (.err .notFound, s')) ∨
       ∃ h r a c, coreLocatePath w s g path = (.ok (r, h), s') ∧ Prefix s.db is g b h a ∧ b = a ++ c ∧ is r c ∧
         ∀ h' a', Prefix s.db is g b h' a' → a'.length ≤ a.length) := by
  obtain ⟨s', hl, hx⟩ := locate_exact (w := w) hm g path h0
  refine ⟨s', hl, ?_⟩
  rcases hx with ⟨hc, he⟩ | ⟨h, r, n, ⟨pre, post, hc, h1, h2⟩, he⟩
  · refine Or.inl ⟨?_, he⟩
    rintro ⟨h, a, hpre⟩
    obtain ⟨r, hr⟩ := candidate_of_prefix hm hp hb hpre
    rw [hc] at hr
    cases hr
  · right
    obtain ⟨a, c, k1, k2, k3, k4⟩ := mem_candidates hp hall hb h r n (by rw [hc]; simp)
    refine ⟨h, r, a, c, he, k1, k3, k4, fun h' a' hpre => ?_⟩
    obtain ⟨r', hr'⟩ := candidate_of_prefix hm hp hb hpre
    rw [hc] at hr'
    simp only at h1 h2
    rcases List.mem_append.1 hr' with hr' | hr'
    · have := h1 _ hr'; simp only at this; omega
    · rcases List.mem_cons.1 hr' with hr' | hr'
      · simp only [Prod.mk.injEq] at hr'
        omega
      · have := h2 _ hr'; simp only at this; omega

/-- The same with the GUID of the device path protocol, 09576E91-6D3F-11D2-8E39-00A0C969723B, written out as its bytes in memory. -/
theorem locate_prefix_by_guid {ν : Type} {w : World α} {s : St α} (hm : Made w.hash w.lim s.db) {is : Nat → List ν → Prop} (hp : Paths w s.rest is)
    (hall : ∀ h p, lookup s.db h 0x916e57093f6dd2118e3900a0c969723b = some p → ∃ a, is p a) (g : Nat) {path : Nat} {b : List ν} (hb : is path b) (h0 : path ≠ 0) :
    ∃ s', Looked w s s' ∧
      (((¬ ∃ h a p, (lookup s.db h g).isSome = true ∧ lookup s.db h 0x916e57093f6dd2118e3900a0c969723b = some p ∧ is p a ∧ a <+: b) ∧
          coreLocatePath w s g path = (.err .notFound, s')) ∨
       ∃ h r a c p, coreLocatePath w s g path = (.ok (r, h), s') ∧ (lookup s.db h g).isSome = true ∧ lookup s.db h 0x916e57093f6dd2118e3900a0c969723b = some p ∧
         is p a ∧ b = a ++ c ∧ is r c) := by
  obtain ⟨s', hl, hx⟩ := locate_prefix hm hp hall g hb h0
  refine ⟨s', hl, ?_⟩
  rcases hx with ⟨hn, e⟩ | ⟨h, r, a, c, e, ⟨p1, ⟨p, p2, p3⟩, _⟩, h1, h2, _⟩
  · refine .inl ⟨?_, e⟩
    rintro ⟨h, a, p, k1, k2, k3, c, k4⟩
    exact hn ⟨h, a, k1, ⟨p, k2, k3⟩, c, k4.symm⟩
  · exact .inr ⟨h, r, a, c, p, e, p1, p2, p3, h1, h2⟩

/-- The service: no path is an error; no place for the handle is an error, after the search; otherwise what was found is written. -/
theorem locate_device_path_answers (w : World α) (s : St α) (g path : Nat) (null : Bool) :
    locatePath w s g path null =
      if path = 0 then (.invalidParameter, none, s)
      else match coreLocatePath w s g path with
        | (.ok r, s') => if null then (.invalidParameter, none, s') else (.success, some r, s')
        | (.err e, s') => (.of e, none, s')
        | (.panic, s') => (.panics, none, s') := by
  unfold locatePath
  split
  · rfl
  · split <;> rename_i h <;> rw [h]

/-- Is one of the device paths in the list that of a handle already? -/
theorem path_taken_iff {ν : Type} {w : World α} {is : Nat → List ν → Prop} : ∀ (l : List (Nat × Nat)) {s : St α}, Made w.hash w.lim s.db → Paths w s.rest is →
    (∀ h p, lookup s.db h PATH = some p → ∃ a, is p a) → (∀ g i, (g, i) ∈ l → g = PATH → i ≠ 0 ∧ ∃ a, is i a) → (∀ p a a', is p a → is p a' → a = a') →
    ∃ s', Looked w s s' ∧ ∃ b, pathTaken w l s = (b, s') ∧ (b = true ↔ ∃ i h p a, (PATH, i) ∈ l ∧ lookup s.db h PATH = some p ∧ is p a ∧ is i a) := by
  intro l
  induction l with
  | nil => intro s hm _ _ _ _; exact ⟨s, .refl hm, false, rfl, by simp⟩
  | cons x l ih =>
    obtain ⟨g, i⟩ := x
    intro s hm hp hall hl huniq
    have hl' : ∀ g i, (g, i) ∈ l → g = PATH → i ≠ 0 ∧ ∃ a, is i a := fun g i hx => hl g i (List.mem_cons_of_mem _ hx)
    unfold pathTaken
    by_cases hg : g = PATH
    · rw [if_pos hg]
      subst hg
      obtain ⟨hi0, b, hb⟩ := hl PATH i (List.mem_cons_self ..) rfl
      obtain ⟨s1, hlk, hx⟩ := locate_prefix hm hp hall PATH hb hi0
      -- the rest of the list
      obtain ⟨s2, hlk2, bb, e2, hbb⟩ := ih hlk.made (by rw [hlk.rest]; exact hp) (fun h p => by rw [hlk.lookup]; exact hall h p) hl' huniq
      have hbb : bb = true ↔ ∃ i h p a, (PATH, i) ∈ l ∧ lookup s.db h PATH = some p ∧ is p a ∧ is i a := by
        rw [hbb]; simp only [hlk.lookup]
      have later : (¬ ∃ h p, lookup s.db h PATH = some p ∧ is p b) →
          (bb = true ↔ ∃ i' h p a, (PATH, i') ∈ (PATH, i) :: l ∧ lookup s.db h PATH = some p ∧ is p a ∧ is i' a) := fun hno => by
        rw [hbb]
        constructor
        · rintro ⟨i', h, p, a, h1, h2⟩; exact ⟨i', h, p, a, List.mem_cons_of_mem _ h1, h2⟩
        · rintro ⟨i', h, p, a, h1, h2, h3, h4⟩
          rcases List.mem_cons.1 h1 with h1 | h1
          · simp only [Prod.mk.injEq, true_and] at h1
            subst h1
            rw [huniq _ _ _ hb h4] at hno
            exact absurd ⟨h, p, h2, h3⟩ hno
          · exact ⟨i', h, p, a, h1, h2, h3, h4⟩
      rcases hx with ⟨hno, he⟩ | ⟨h, r, a, c, he, hpre, hbc, hrc, hmax⟩
      · rw [he]
        refine ⟨s2, hlk.trans hlk2, bb, e2, later ?_⟩
        rintro ⟨h, p, h1, h2⟩
        exact hno ⟨h, b, by rw [h1]; rfl, ⟨p, h1, h2⟩, [], by simp⟩
      · rw [he]
        simp only
        have hval : s1.db.valid h = true := by
          obtain ⟨_, ⟨p, hlp, _⟩, _⟩ := hpre
          exact valid_of_lookup (by rw [hlk.lookup]; exact hlp)
        rw [hval, hlk.rest]
        by_cases hc : c = []
        · have : w.isEnd s.rest r = true := (hp.ends r c hrc).2 hc
          rw [this]
          refine ⟨s1, hlk, true, rfl, ?_⟩
          obtain ⟨_, ⟨p, hlp, ha⟩, _⟩ := hpre
          rw [hc, List.append_nil] at hbc
          simp only [true_iff]
          exact ⟨i, h, p, a, List.mem_cons_self .., hlp, ha, by rw [← hbc]; exact hb⟩
        · have : w.isEnd s.rest r = false := by
            rw [Bool.eq_false_iff]; intro hx; exact hc ((hp.ends r c hrc).1 hx)
          rw [this]
          refine ⟨s2, hlk.trans hlk2, bb, e2, later ?_⟩
          rintro ⟨h', p, h1, h2⟩
          have := hmax h' b ⟨by rw [h1]; rfl, ⟨p, h1, h2⟩, [], by simp⟩
          rw [hbc, List.length_append] at this
          exact hc (List.length_eq_zero_iff.1 (by omega))
    · rw [if_neg hg]
      obtain ⟨s2, hlk2, bb, e2, hbb⟩ := ih hm hp hall hl' huniq
      refine ⟨s2, hlk2, bb, e2, ?_⟩
      rw [hbb]
      constructor
      · rintro ⟨i', h, p, a, h1, h2⟩; exact ⟨i', h, p, a, List.mem_cons_of_mem _ h1, h2⟩
      · rintro ⟨i', h, p, a, h1, h2⟩
        rcases List.mem_cons.1 h1 with h1 | h1
        · simp only [Prod.mk.injEq] at h1; exact absurd h1.1.symm hg
        · exact ⟨i', h, p, a, h1, h2⟩

/-- The search only looks, whatever the paths are. -/
theorem path_taken_looks {w : World α} : ∀ (l : List (Nat × Nat)) {s : St α}, Made w.hash w.lim s.db → ∃ b s', Looked w s s' ∧ pathTaken w l s = (b, s') := by
  intro l
  induction l with
  | nil => intro s hm; exact ⟨false, s, .refl hm, rfl⟩
  | cons x l ih =>
    obtain ⟨g, i⟩ := x
    intro s hm
    unfold pathTaken
    by_cases hg : g = PATH
    · rw [if_pos hg]
      by_cases hi : i = 0
      · have : coreLocatePath w s PATH i = (.err .invalidParameter, s) := by unfold coreLocatePath; rw [if_pos hi]
        rw [this]
        exact ih hm
      · obtain ⟨s1, hl, hx⟩ := locate_exact (w := w) hm PATH i hi
        obtain ⟨b, s2, hl2, e⟩ := ih hl.made
        rcases hx with ⟨_, he⟩ | ⟨h, r, n, _, he⟩
        · rw [he]; exact ⟨b, s2, hl.trans hl2, e⟩
        · rw [he]
          simp only
          split
          · exact ⟨true, s1, hl, rfl⟩
          · exact ⟨b, s2, hl.trans hl2, e⟩
    · rw [if_neg hg]
      exact ih hm

/-! ### With device paths in memory -/

open DevicePath DevicePath.Spec in
/-- With the functions on device paths of C31, on paths in memory (`mem p`: the bytes from `p` on), `Paths` holds. -/
theorem paths_in_memory {w : World α} {rest : α} (mem : Nat → List UInt8) (hmem : ∀ p n, mem (p + n) = (mem p).drop n) (fuel : Nat)
    (hrem : ∀ p q, w.remaining rest p q = match remaining fuel (mem p) (mem q) with | .ok (some (off, n)) => some (q + off, n) | _ => none)
    (hend : ∀ p, w.isEnd rest p = (readHeader (mem p)).any isEnd) :
    Paths w rest (fun p (ns : List Node) => (∀ n ∈ ns, n.Wf) ∧ ns.length < fuel ∧ Single ns ∧ ∃ r, mem p = bytes ns ++ r) := by
  refine ⟨?_, ?_, ?_⟩
  · rintro p q a c ⟨h1, h2, h3, ra, hra⟩ ⟨k1, k2, k3, rb, hrb⟩
    obtain ⟨off, e1, e2⟩ := (remaining_spec a (a ++ c) h1 k1 ra rb fuel h2).1 c rfl
    refine ⟨q + off, ?_, fun n hn => k1 n (List.mem_append_right _ hn), by rw [List.length_append] at k2; omega,
      fun n hn => k3 n (List.mem_append_right _ hn), rb, ?_⟩
    · rw [hrem, hra, hrb, e1]
    · rw [hmem, hrb, e2]
  · rintro p q a b ⟨h1, h2, h3, ra, hra⟩ ⟨k1, k2, k3, rb, hrb⟩ hno
    rw [hrem, hra, hrb, (remaining_spec a b h1 k1 ra rb fuel h2).2 hno]
  · rintro r c ⟨h1, h2, h3, rb, hrb⟩
    rw [hend, hrb]
    cases c with
    | nil =>
      rw [bytes_nil, readHeader_end]
      simp only [Option.any_some, iff_true]
      decide
    | cons n c =>
      rw [bytes_cons, List.append_assoc, readHeader_node (h1 n (List.mem_cons_self ..))]
      have := h3 n (List.mem_cons_self ..)
      simp only [Option.any_some, reduceCtorEq, iff_false]
      unfold isEnd
      simp only [Bool.and_eq_true, decide_eq_true_eq, not_and]
      intro hx
      exact absurd hx this

end Verif.Services
