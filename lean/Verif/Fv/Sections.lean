import Verif.Fv.Built
import Verif.Ffs.EditProps
/-!
C83: reading sections of files through the firmware volume protocol.
-/
namespace Verif.Fv
open Verif.Ffs

/-! ### Specification vocabulary -/

mutual
/-- A section and everything in it, depth first. The Platform Initialization specification counts the instances of a section type in this order. -/
def deep : Section → List Section
  | ⟨h, d, encap, ex, dirty, subs⟩ => ⟨h, d, encap, ex, dirty, subs⟩ :: deepAll subs
def deepAll : List Section → List Section
  | [] => []
  | s :: ss => deep s ++ deepAll ss
end

/-- No section in a section has sections of its own. -/
def OneLevel (ss : List Section) : Prop := ∀ s ∈ ss, ∀ t ∈ s.subs, t.subs = []

/-! ### Lemmas -/

theorem deep_eq (s : Section) : deep s = s :: deepAll s.subs := by cases s; rfl

theorem deepAll_flat {ss : List Section} (h : ∀ s ∈ ss, s.subs = []) : deepAll ss = ss := by
  induction ss with
  | nil => rfl
  | cons s ss ih =>
    rw [deepAll, deep_eq, h s (by simp), ih (fun t ht => h t (List.mem_cons_of_mem _ ht))]
    rfl

theorem flat_deep {ss : List Section} (ho : OneLevel ss) (hl : ∀ s ∈ ss, s.encap = false → s.subs = []) : ss.flatMap flat = deepAll ss := by
  induction ss with
  | nil => rfl
  | cons s ss ih =>
    rw [List.flatMap_cons, ih (fun t ht => ho t (List.mem_cons_of_mem _ ht)) (fun t ht => hl t (List.mem_cons_of_mem _ ht)), deepAll, deep_eq,
      deepAll_flat (ho s (by simp))]
    congr 1
    unfold flat
    cases he : s.encap with
    | true => rfl
    | false => rw [hl s (by simp) he]; rfl

theorem flat_sub {ss : List Section} (hl : ∀ s ∈ ss, s.encap = false → s.subs = []) : (ss.flatMap flat).Sublist (deepAll ss) := by
  have hself : ∀ l : List Section, l.Sublist (deepAll l) := by
    intro l
    induction l with
    | nil => exact .slnil
    | cons t l ih =>
      rw [deepAll, deep_eq]
      exact List.Sublist.cons_cons t (List.Sublist.trans ih (List.sublist_append_right _ _))
  induction ss with
  | nil => exact .slnil
  | cons s ss ih =>
    rw [List.flatMap_cons, deepAll, deep_eq]
    refine List.Sublist.append ?_ (ih (fun t ht => hl t (List.mem_cons_of_mem _ ht)))
    unfold flat
    cases he : s.encap with
    | true => exact List.Sublist.cons_cons s (hself _)
    | false => rw [hl s (by simp) he]; exact List.Sublist.refl _

theorem mapOut_cons {α β : Type} {f : α → Outcome FfsError β} {a : α} {as : List α} {r : List β} (h : mapOut f (a :: as) = .ok r) :
    ∃ b bs, f a = .ok b ∧ mapOut f as = .ok bs ∧ r = b :: bs := by
  unfold mapOut at h
  split at h
  · rename_i b hb
    split at h
    · rename_i bs hbs
      injection h with h
      exact ⟨b, bs, hb, hbs, h.symm⟩
    · rename_i hx
      exact absurd h (hx _)
  · cases h
  · cases h

/-- Extracting sections one by one while they are parsed comes to the same as parsing them all first. -/
theorem extractAll_eq {dbg : Bool} {x : Extractor} {depth : Nat} : ∀ (n : Nat) (it : SIter) (ps ss : List Section),
    it.drain dbg n = some (.ok (ps.map Except.ok)) → mapOut (Section.extract dbg x depth) ps = .ok ss → extractAll dbg x depth n it = .ok ss := by
  intro n
  induction n with
  | zero => intro it ps ss h; cases h
  | succ n ih =>
    intro it ps ss h hm
    unfold SIter.drain at h
    unfold extractAll
    cases hs : it.step dbg with
    | done =>
      rw [hs] at h
      simp only [Option.some.injEq, Outcome.ok.injEq] at h
      cases ps with
      | nil => simp only [mapOut, Outcome.ok.injEq] at hm; simp [← hm]
      | cons p ps => simp at h
    | panic => rw [hs] at h; cases h
    | item r it' =>
      rw [hs] at h
      simp only at h
      cases hd : it'.drain dbg n with
      | none => rw [hd] at h; simp at h
      | some o =>
        rw [hd] at h
        cases o with
        | err e => simp at h
        | panic => simp at h
        | ok rs =>
          simp only [Option.some.injEq, Outcome.ok.injEq] at h
          cases ps with
          | nil => cases h
          | cons p ps =>
            simp only [List.map_cons, List.cons.injEq] at h
            obtain ⟨rfl, rfl⟩ := h
            obtain ⟨b, bs, h1, h2, rfl⟩ := mapOut_cons hm
            simp only [h1, ih it' ps bs hd h2]

theorem tidy_good {s : Section} (h : s.Tidy) : s.Good := by
  obtain ⟨h, d, encap, ex, dirty, subs⟩ := s
  simp only [Section.Tidy] at h
  exact h.1

theorem tidy_leaf {s : Section} (h : s.Tidy) : s.encap = false → s.subs = [] := by
  obtain ⟨h, d, encap, ex, dirty, subs⟩ := s
  simp only [Section.Tidy] at h
  exact h.2.2.2.2.1

mutual
theorem deep_tidy {s : Section} (h : s.Tidy) : ∀ t ∈ deep s, t.Tidy := by
  match s with
  | ⟨hd, d, encap, ex, dirty, subs⟩ =>
    intro t ht
    rw [deep] at ht
    rcases List.mem_cons.1 ht with rfl | ht
    · exact h
    · simp only [Section.Tidy] at h
      exact deepAll_tidy h.2.2.2.2.2.2 t ht
theorem deepAll_tidy {ss : List Section} (h : AllTidy ss) : ∀ t ∈ deepAll ss, t.Tidy := by
  match ss with
  | [] => intro t ht; cases ht
  | s :: ss =>
    intro t ht
    rw [deepAll] at ht
    rcases List.mem_append.1 ht with ht | ht
    · exact deep_tidy h.1 t ht
    · exact deepAll_tidy h.2 t ht
end

/-- A file whose content was written from a tree of sections lists these sections and those directly in them. -/
theorem withExtractor_eq (dbg : Bool) {x : Extractor} {f : FileRef} {c : List UInt8} (hc : f.content = .ok c) {ss : List Section}
    (hs : contentLoop [] ss = .ok c) (hl : c.length + 8 < 2 ^ 64) (ht : AllTidy ss) (hp : AllPacked x ss) {depth : Nat} (hd : maxDepth ss ≤ depth) :
    withExtractor dbg x depth f = .ok (ss.flatMap flat) := by
  unfold withExtractor
  rw [hc]
  simp only
  obtain ⟨_, _, h3⟩ := drain_contentLoop dbg ss [] c (c.length + 2) (fun s hm => tidy_good (AllTidy_mem ht s hm)) rfl hs hl (by simp)
  have he : extractAll dbg x depth (c.length + 2) ⟨c, 0, false⟩ = .ok ss := by
    refine extractAll_eq (c.length + 2) ⟨c, 0, false⟩ (ss.map Section.plain) ss ?_ ?_
    · rw [List.map_map]; exact h3
    · exact mapOut_map (fun s hm => extract_plain dbg depth s (AllTidy_mem ht s hm) (AllPacked_mem hp s hm) (by have := maxDepth_mem s hm; omega))
  rw [he]

/-! ### ReadSection -/

/-- What is done with the buffer once the section is found; `none` for the buffer if the service has to allocate it. -/
theorem deliver_section (alloc : Nat → Except Status Nat) (d : List UInt8) (p size : Nat) :
    (∀ a, alloc d.length = .ok a → deliverSection alloc d 0 size = ⟨.success, some d.length, some a, some (a, d)⟩) ∧
    (∀ e, alloc d.length = .error e → deliverSection alloc d 0 size = ⟨e, none, none, none⟩) ∧
    (p ≠ 0 → size = d.length → deliverSection alloc d p size = ⟨.success, some d.length, none, some (p, d)⟩) ∧
    (p ≠ 0 → size < d.length → deliverSection alloc d p size = ⟨.warnBufferTooSmall, some d.length, none, some (p, d.take size)⟩) := by
  refine ⟨fun a h => ?_, fun e h => ?_, fun hp hs => ?_, fun hp hs => ?_⟩
  · simp [deliverSection, h]
  · simp [deliverSection, h]
  · simp [deliverSection, hp, hs]
  · have : ¬ d.length < size := by omega
    simp [deliverSection, hp, hs, this]

/-- Finding: a buffer of the caller that is larger than the section stops the machine. -/
theorem larger_buffer_panics (alloc : Nat → Except Status Nat) (d : List UInt8) (p size : Nat) (hp : p ≠ 0) (hs : d.length < size) :
    (deliverSection alloc d p size).status = .panics := by
  simp [deliverSection, hp, hs]

/-- C83, with sections that are nested at most once. Let a file whose content was written from sections `ss` be found under its name, and the extractor
undo what packed the encapsulations. Then ReadSection for a type and an instance finds the section of that number among those of this type, counted depth
first, and delivers its content as `deliver_section` says; and it is NOT_FOUND if there are not so many. What is missing: a buffer of the caller that is too
large (`larger_buffer_panics`) and sections that are nested twice (`Fv/Witness`, `nested_missed`). -/
theorem read_section_partial (dbg : Bool) (alloc : Nat → Except Status Nat) {x : Extractor} {m : Mem} {info : Info} {fuel this name : Nat} {f : FileRef}
    (hf : findFile m info fuel this name = some (.ok f)) {c : List UInt8} (hc : f.content = .ok c) {ss : List Section}
    (hs : contentLoop [] ss = .ok c) (hl : c.length + 8 < 2 ^ 64) (ht : AllTidy ss) (hp : AllPacked x ss) {depth : Nat} (hd : maxDepth ss ≤ depth)
    (ho : OneLevel ss) (ty : UInt8) (inst p size : Nat) :
    readSection dbg alloc x depth m info fuel this true name ty inst p size =
      match ((deepAll ss).filter fun s => s.hdr.ty == ty)[inst]? with
      | some s => some (deliverSection alloc s.data p size)
      | none => some ⟨.notFound, none, none, none⟩ := by
  unfold readSection
  rw [hf]
  simp only [Bool.not_true, Bool.false_eq_true, if_false]
  have hw : sectionOf dbg x depth f ty inst =
      match ((deepAll ss).filter fun s => s.hdr.ty == ty)[inst]? with | some s => .ok s | none => .err .notFound := by
    unfold sectionOf
    rw [withExtractor_eq dbg hc hs hl ht hp hd, flat_deep ho (fun s hm => tidy_leaf (AllTidy_mem ht s hm))]
    rfl
  rw [hw]
  cases hn : ((deepAll ss).filter fun s => s.hdr.ty == ty)[inst]? with
  | none => rfl
  | some s =>
    simp only
    have hmem : s ∈ deepAll ss := (List.mem_filter.1 (List.mem_of_getElem? hn)).1
    have hcl : s.isDirty = false := (tidy_good (deepAll_tidy ht s hmem)).1
    unfold Section.content
    simp [hcl]

/-- Whatever the nesting: what ReadSection delivers is the content of a section of the asked type somewhere in the file. -/
theorem read_section_sound (dbg : Bool) (alloc : Nat → Except Status Nat) {x : Extractor} {m : Mem} {info : Info} {fuel this name : Nat} {f : FileRef}
    (hf : findFile m info fuel this name = some (.ok f)) {c : List UInt8} (hc : f.content = .ok c) {ss : List Section}
    (hs : contentLoop [] ss = .ok c) (hl : c.length + 8 < 2 ^ 64) (ht : AllTidy ss) (hp : AllPacked x ss) {depth : Nat} (hd : maxDepth ss ≤ depth)
    (ty : UInt8) (inst p size : Nat) :
    readSection dbg alloc x depth m info fuel this true name ty inst p size = some ⟨.notFound, none, none, none⟩ ∨
    ∃ s ∈ deepAll ss, s.hdr.ty = ty ∧ readSection dbg alloc x depth m info fuel this true name ty inst p size = some (deliverSection alloc s.data p size) := by
  unfold readSection
  rw [hf]
  simp only [Bool.not_true, Bool.false_eq_true, if_false]
  have hw : sectionOf dbg x depth f ty inst =
      match ((ss.flatMap flat).filter fun s => s.hdr.ty == ty)[inst]? with | some s => .ok s | none => .err .notFound := by
    unfold sectionOf
    rw [withExtractor_eq dbg hc hs hl ht hp hd]
    rfl
  rw [hw]
  cases hn : ((ss.flatMap flat).filter fun s => s.hdr.ty == ty)[inst]? with
  | none => exact .inl rfl
  | some s =>
    have h1 := List.mem_filter.1 (List.mem_of_getElem? hn)
    have hmem : s ∈ deepAll ss := (flat_sub (fun s hm => tidy_leaf (AllTidy_mem ht s hm))).subset h1.1
    have hcl : s.isDirty = false := (tidy_good (deepAll_tidy ht s hmem)).1
    refine .inr ⟨s, hmem, by simpa using h1.2, ?_⟩
    simp only
    unfold Section.content
    simp [hcl]

/-- The top level of a file is always found: the sections that are not in another one keep their order and can all be read. -/
theorem top_sections_listed (ss : List Section) : ss.Sublist (ss.flatMap flat) := by
  induction ss with
  | nil => exact .slnil
  | cons s ss ih =>
    rw [List.flatMap_cons]
    refine List.Sublist.append (l₁ := [s]) ?_ ih
    unfold flat
    split
    · exact List.Sublist.cons_cons s (List.nil_sublist _)
    · exact List.Sublist.refl _

/-- A section that cannot be parsed, behind others that can be parsed and extracted, is an error for the whole file. -/
theorem extractAll_damaged {dbg : Bool} {x : Extractor} {depth : Nat} {e : FfsError} {more : List (Except FfsError Section)} :
    ∀ (n : Nat) (it : SIter) (ps ss : List Section), it.drain dbg n = some (.ok (ps.map Except.ok ++ .error e :: more)) →
    mapOut (Section.extract dbg x depth) ps = .ok ss → extractAll dbg x depth n it = .err e := by
  intro n
  induction n with
  | zero => intro it ps ss h; cases h
  | succ n ih =>
    intro it ps ss h hm
    unfold SIter.drain at h
    unfold extractAll
    cases hs : it.step dbg with
    | done =>
      rw [hs] at h
      simp at h
    | panic => rw [hs] at h; cases h
    | item r it' =>
      rw [hs] at h
      simp only at h
      cases hd : it'.drain dbg n with
      | none => rw [hd] at h; simp at h
      | some o =>
        rw [hd] at h
        cases o with
        | err e => simp at h
        | panic => simp at h
        | ok rs =>
          simp only [Option.some.injEq, Outcome.ok.injEq] at h
          cases ps with
          | nil =>
            simp only [List.map_nil, List.nil_append, List.cons.injEq] at h
            rw [h.1]
          | cons p ps =>
            simp only [List.map_cons, List.cons_append, List.cons.injEq] at h
            obtain ⟨rfl, rfl⟩ := h
            obtain ⟨b, bs, h1, h2, rfl⟩ := mapOut_cons hm
            simp only [h1, ih it' ps bs hd h2]

/-- C83: if the content of a file ends in something that is no section, behind sections that can be extracted, ReadSection fails with the status of
that error for every type, and delivers nothing. -/
theorem read_section_garbage (dbg : Bool) (alloc : Nat → Except Status Nat) {x : Extractor} {m : Mem} {info : Info} {fuel this name : Nat} {f : FileRef}
    (hf : findFile m info fuel this name = some (.ok f)) {c : List UInt8} (hc : f.content = .ok c) {depth : Nat} {e : FfsError}
    {more : List (Except FfsError Section)} {ps ss : List Section}
    (hd : (⟨c, 0, false⟩ : SIter).drain dbg (c.length + 2) = some (.ok (ps.map Except.ok ++ .error e :: more)))
    (hm : mapOut (Section.extract dbg x depth) ps = .ok ss) (ty : UInt8) (inst p size : Nat) :
    readSection dbg alloc x depth m info fuel this true name ty inst p size = some ⟨.of e, none, none, none⟩ := by
  have he : withExtractor dbg x depth f = .err e := by
    unfold withExtractor
    rw [hc]
    simp only
    rw [extractAll_damaged _ _ ps ss hd hm]
  simp [readSection, hf, sectionOf, he]

example : (⟨[1, 2, 3, 4, 5], 0, false⟩ : SIter).drain true 7
    = some (.ok (([] : List Section).map Except.ok ++ .error .invalidHeader :: [])) := by rfl

/-- A file that the extractor cannot take apart is not read: the call fails with the status of the error, and nothing is written. -/
theorem read_section_damaged (dbg : Bool) (alloc : Nat → Except Status Nat) {x : Extractor} {m : Mem} {info : Info} {fuel this name : Nat} {f : FileRef}
    (hf : findFile m info fuel this name = some (.ok f)) {depth : Nat} {e : FfsError} (he : withExtractor dbg x depth f = .err e)
    (ty : UInt8) (inst p size : Nat) :
    readSection dbg alloc x depth m info fuel this true name ty inst p size = some ⟨.of e, none, none, none⟩ := by
  simp [readSection, hf, sectionOf, he]

end Verif.Fv
