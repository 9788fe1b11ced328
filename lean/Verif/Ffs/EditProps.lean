import Verif.Ffs.EditModel
import Verif.Ffs.FileProps
/-!
C48: editing sections. Edited content is never written out stale; composing makes it consistent again, and
what has been composed can be read back.
-/
namespace Verif.Ffs

/-! ### Editing -/

/-- Setting the content of a leaf: content and size are the new ones, type and type specific header stay, and
the section reports itself as not composed. -/
theorem setData_ok (s : Section) (d : List UInt8) (hleaf : s.encap = false) (hd : d.length < 2 ^ 32) :
    ∃ s', s.setData d = (.ok (), s') ∧ s'.data = d ∧ s'.hdr.contentSize = d.length ∧ s'.hdr.ty = s.hdr.ty ∧
      s'.hdr.extra = s.hdr.extra ∧ s'.isDirty = true := by
  refine ⟨{ s with hdr := s.hdr.withSize d.length, data := d, dirty := true }, ?_, rfl, ?_, ?_, ?_, ?_⟩
  · simp [Section.setData, hleaf, SecHdr.setContentSize, hd]
  · cases s.hdr <;> rfl
  · cases s.hdr <;> rfl
  · cases s.hdr <;> rfl
  · cases s; simp_all [Section.isDirty]

theorem setData_encap (s : Section) (d : List UInt8) (h : s.encap = true) : s.setData d = (.err .notLeaf, s) := by
  simp [Section.setData, h]

/-- What is waiting to be composed is not written out, has no size and no content. -/
theorem dirty_refused (s : Section) (h : s.isDirty = true) :
    s.serialize = .err .notComposed ∧ s.size = .err .notComposed ∧ s.content = .err .notComposed := by
  simp [Section.serialize, Section.size, Section.content, h]

theorem anyDirty_iff (ss : List Section) : anyDirty ss = true ↔ ∃ s ∈ ss, s.isDirty = true := by
  induction ss with
  | nil => simp [anyDirty]
  | cons s ss ih => simp [anyDirty, ih]

/-- An edit anywhere below an extracted section makes it wait to be composed, too. -/
theorem dirty_propagates (s sub : Section) (he : s.encap = true) (hx : s.extracted = true) (hs : sub ∈ s.subs)
    (hd : sub.isDirty = true) : s.isDirty = true := by
  obtain ⟨h, d, encap, ex, dirty, subs⟩ := s
  simp only at he hx hs
  subst he; subst hx
  simp [Section.isDirty, (anyDirty_iff subs).2 ⟨sub, hs, hd⟩]

/-- The data-checksum attribute: set or cleared, all other attribute bits as before. -/
theorem setDataChecksum_spec (f : File) (on : Bool) :
    hasChecksum (f.setDataChecksum on).attrs = on ∧ (f.setDataChecksum on).attrs &&& 0xBF = f.attrs &&& 0xBF ∧
    (f.setDataChecksum on).sections = f.sections := by
  have h1 : ∀ a : UInt8, hasChecksum (a ||| 0x40) = true ∧ (a ||| 0x40) &&& 0xBF = a &&& 0xBF :=
    forall_u8 (by decide +kernel)
  have h2 : ∀ a : UInt8, hasChecksum (a &&& ~~~ 0x40) = false ∧ (a &&& ~~~ 0x40) &&& 0xBF = a &&& 0xBF :=
    forall_u8 (by decide +kernel)
  cases on
  · exact ⟨(h2 f.attrs).1, (h2 f.attrs).2, rfl⟩
  · exact ⟨(h1 f.attrs).1, (h1 f.attrs).2, rfl⟩

/-! ### Composing -/

theorem store_ok {s s' : Section} {h : SecHdr} {b : List UInt8} (e : s.store h b = (.ok (), s')) :
    s' = { s with hdr := h.withSize b.length, data := b } := by
  unfold Section.store at e
  unfold SecHdr.setContentSize at e
  split at e
  · rename_i h' he
    split at he
    · injection he with he; subst he; injection e with _ e; exact e.symm
    · cases he
  · cases e
  · cases e

mutual
/-- After a successful `compose` nothing waits to be composed. -/
theorem compose_clean (c : Composer) (s s' : Section) (h : s.compose c = (.ok (), s')) : s'.isDirty = false := by
  match s with
  | ⟨hd, d, encap, ex, dirty, subs⟩ =>
    unfold Section.compose at h
    cases encap with
    | false =>
      simp only [Bool.false_eq_true, if_false] at h
      rw [store_ok h]
      simp [Section.isDirty]
    | true =>
      simp only [if_true] at h
      split at h
      · rename_i u subs' hs
        unfold Section.pack at h
        split at h
        · rw [store_ok h]
          have := composeAll_clean c subs subs' (by rw [hs])
          simp [Section.isDirty, this]
        · cases h
        · cases h
      · cases h
      · cases h
theorem composeAll_clean (c : Composer) (ss ss' : List Section) (h : composeAll c ss = (.ok (), ss')) :
    anyDirty ss' = false := by
  match ss with
  | [] => unfold composeAll at h; injection h with _ h; subst h; rfl
  | s :: ss =>
    unfold composeAll at h
    split at h
    · rename_i u s' hs
      cases hr : composeAll c ss with
      | mk r ss2 =>
        rw [hr] at h
        injection h with h1 h2
        subst h1; subst h2
        have k1 := compose_clean c s s' (by rw [hs])
        have k2 := composeAll_clean c ss ss2 hr
        simp [anyDirty, k1, k2]
    · cases h
    · cases h
end

/-! ### Reading back -/

/-- The composer packs the sub-sections as a file does (each padded to four bytes), and the extractor unpacks
what the composer packed. -/
def Inverse (c : Composer) (x : Extractor) : Prop :=
  ∀ s h content, c s = .ok (h, content) → ∃ body, contentLoop [] s.subs = .ok body ∧
    ∀ s', s'.hdr = h.withSize content.length → s'.data = content → s'.encap = true → x s' = .ok body

mutual
/-- Everything in the tree fits the format (see `Section.Good`), encapsulations are extracted and leaves have no
sub-sections. -/
def Section.Tidy : Section → Prop
  | ⟨h, d, encap, ex, dirty, subs⟩ =>
    Section.Good ⟨h, d, encap, ex, dirty, subs⟩ ∧ h.encapsulates = encap ∧ ex = encap ∧ dirty = false ∧
    (encap = false → subs = []) ∧ (∀ body, contentLoop [] subs = .ok body → body.length + 8 < 2 ^ 64) ∧ AllTidy subs
def AllTidy : List Section → Prop
  | [] => True
  | s :: ss => s.Tidy ∧ AllTidy ss
end

mutual
/-- How deep sections are nested. -/
def Section.depth : Section → Nat
  | ⟨_, _, _, _, _, subs⟩ => maxDepth subs + 1
def maxDepth : List Section → Nat
  | [] => 0
  | s :: ss => max s.depth (maxDepth ss)
end

mutual
/-- The extractor recovers the sub-sections of every encapsulation in the tree. -/
def Section.Packed (x : Extractor) : Section → Prop
  | ⟨h, d, encap, _, _, subs⟩ =>
    (encap = true → ∃ body, contentLoop [] subs = .ok body ∧
      ∀ s' : Section, s'.hdr = h → s'.data = d → s'.encap = true → x s' = .ok body) ∧ AllPacked x subs
def AllPacked (x : Extractor) : List Section → Prop
  | [] => True
  | s :: ss => s.Packed x ∧ AllPacked x ss
end

mutual
/-- Leaves have no sub-sections. -/
def Section.Leafy : Section → Prop
  | ⟨_, _, encap, _, _, subs⟩ => (encap = false → subs = []) ∧ AllLeafy subs
def AllLeafy : List Section → Prop
  | [] => True
  | s :: ss => s.Leafy ∧ AllLeafy ss
end

mutual
theorem compose_packed {c : Composer} {x : Extractor} (hi : Inverse c x) (s s' : Section) (hl : s.Leafy)
    (h : s.compose c = (.ok (), s')) : s'.Packed x := by
  match s with
  | ⟨hd, d, encap, ex, dirty, subs⟩ =>
    unfold Section.compose at h
    cases encap with
    | false =>
      simp only [Bool.false_eq_true, if_false] at h
      rw [store_ok h]
      simp [Section.Packed, hl.1 rfl, AllPacked]
    | true =>
      simp only [if_true] at h
      split at h
      · rename_i u subs' hs
        unfold Section.pack at h
        split at h
        · rename_i r hr
          rw [store_ok h]
          have := composeAll_packed hi subs subs' hl.2 (by rw [hs])
          obtain ⟨body, hb, hx⟩ := hi _ _ _ hr
          simp only [Section.Packed]
          exact ⟨fun _ => ⟨body, hb, fun s' h1 h2 h3 => hx s' h1 h2 h3⟩, this⟩
        · cases h
        · cases h
      · cases h
      · cases h
theorem composeAll_packed {c : Composer} {x : Extractor} (hi : Inverse c x) (ss ss' : List Section) (hl : AllLeafy ss)
    (h : composeAll c ss = (.ok (), ss')) : AllPacked x ss' := by
  match ss with
  | [] => unfold composeAll at h; injection h with _ h; subst h; trivial
  | s :: ss =>
    unfold composeAll at h
    split at h
    · rename_i u s' hs
      cases hr : composeAll c ss with
      | mk r ss2 =>
        rw [hr] at h
        injection h with h1 h2
        subst h1; subst h2
        exact ⟨compose_packed hi s s' hl.1 (by rw [hs]), composeAll_packed hi ss ss2 hl.2 hr⟩
    · cases h
    · cases h
end

theorem AllTidy_mem {ss : List Section} (h : AllTidy ss) : ∀ s ∈ ss, s.Tidy := by
  induction ss with
  | nil => simp
  | cons s ss ih =>
    intro t ht
    rcases List.mem_cons.1 ht with rfl | ht
    · exact h.1
    · exact ih h.2 t ht

theorem AllPacked_mem {x : Extractor} {ss : List Section} (h : AllPacked x ss) : ∀ s ∈ ss, s.Packed x := by
  induction ss with
  | nil => simp
  | cons s ss ih =>
    intro t ht
    rcases List.mem_cons.1 ht with rfl | ht
    · exact h.1
    · exact ih h.2 t ht

theorem maxDepth_mem {ss : List Section} : ∀ s ∈ ss, s.depth ≤ maxDepth ss := by
  induction ss with
  | nil => simp
  | cons s ss ih =>
    intro t ht
    simp only [maxDepth]
    rcases List.mem_cons.1 ht with rfl | ht
    · omega
    · have := ih t ht; omega

theorem mapOut_map {α β : Type} {f : α → Outcome FfsError β} {g : β → α} : ∀ {bs : List β},
    (∀ b ∈ bs, f (g b) = .ok b) → mapOut f (bs.map g) = .ok bs
  | [], _ => rfl
  | b :: bs, h => by
    have := mapOut_map (f := f) (g := g) (bs := bs) (fun b' hb => h b' (List.mem_cons_of_mem _ hb))
    simp only [List.map_cons, mapOut, h b (by simp), this]

/-- Extraction of a freshly parsed section yields the composed tree. -/
theorem extract_plain (dbg : Bool) {x : Extractor} : ∀ (fuel : Nat) (s : Section), s.Tidy → s.Packed x → s.depth ≤ fuel →
    s.plain.extract dbg x fuel = .ok s := by
  intro fuel
  induction fuel with
  | zero => intro s _ _ hd; cases s; simp [Section.depth] at hd
  | succ fuel ih =>
    rintro ⟨h, d, encap, ex, dirty, subs⟩ ht hp hd
    simp only [Section.Tidy] at ht
    obtain ⟨hg, he, hex, hdirty, hleaf, hlen, hall⟩ := ht
    subst hex; subst hdirty
    simp only [Section.depth] at hd
    unfold Section.extract
    simp only [Section.plain, he]
    cases ex with
    | false => simp [hleaf rfl]
    | true =>
      simp only [Section.Packed, true_implies] at hp
      obtain ⟨⟨body, hb, hx⟩, hpa⟩ := hp
      rw [hx ⟨h, d, true, false, false, []⟩ rfl rfl rfl]
      simp only [orNothing, Bool.not_false, Bool.and_self, Bool.not_true, Bool.false_eq_true, if_false]
      rw [sectionList_content (fun s hs => ?_) hb (hlen body hb)]
      · simp only []
        rw [mapOut_map (g := Section.plain) (fun s hs => ih s (AllTidy_mem hall s hs) (AllPacked_mem hpa s hs)
          (by have := maxDepth_mem s hs; omega))]
      · have := AllTidy_mem hall s hs
        obtain ⟨h, d, encap, ex, dirty, subs⟩ := s
        simp only [Section.Tidy] at this
        exact this.1

/-- C48, compose and read back. Sections are composed, written out, parsed and extracted again: the result is the
composed tree itself, with every edit in it. -/
theorem compose_roundtrip (dbg : Bool) {c : Composer} {x : Extractor} (hi : Inverse c x) (s s' : Section) (hl : s.Leafy)
    (h : s.compose c = (.ok (), s')) (ht : s'.Tidy) (fuel : Nat) (hf : s'.depth ≤ fuel) :
    ∃ bytes, s'.serialize = .ok bytes ∧ ∀ tail, ∃ p, parse dbg (bytes ++ tail) = .ok p ∧
      p.extract dbg x fuel = .ok s' := by
  have hg : s'.Good := by
    obtain ⟨h, d, encap, ex, dirty, subs⟩ := s'
    simp only [Section.Tidy] at ht
    exact ht.1
  obtain ⟨bytes, h1, _, _, _, h2⟩ := good_section_roundtrip dbg s' hg
  exact ⟨bytes, h1, fun tail => ⟨_, h2 tail, extract_plain dbg fuel s' ht (compose_packed hi s s' hl h) hf⟩⟩

/-! ### Composing keeps the leaves -/

mutual
/-- The leaves in order: type, type specific header, content. -/
def Section.leaves : Section → List (UInt8 × List UInt8 × List UInt8)
  | ⟨h, d, encap, _, _, subs⟩ => if encap then allLeaves subs else [(h.ty, h.extra, d)]
def allLeaves : List Section → List (UInt8 × List UInt8 × List UInt8)
  | [] => []
  | s :: ss => s.leaves ++ allLeaves ss
end

mutual
/-- Composing does not change any leaf, so what is read back after `compose_roundtrip` holds the edits made
before it. -/
theorem compose_leaves {c : Composer} (s s' : Section) (h : s.compose c = (.ok (), s')) : s'.leaves = s.leaves := by
  match s with
  | ⟨hd, d, encap, ex, dirty, subs⟩ =>
    unfold Section.compose at h
    cases encap with
    | false =>
      simp only [Bool.false_eq_true, if_false] at h
      rw [store_ok h]
      simp only [Section.leaves, Bool.false_eq_true, if_false]
      cases hd <;> rfl
    | true =>
      simp only [if_true] at h
      split at h
      · rename_i u subs' hs
        unfold Section.pack at h
        split at h
        · rw [store_ok h]
          have := composeAll_leaves subs subs' (c := c) (by rw [hs])
          simp [Section.leaves, this]
        · cases h
        · cases h
      · cases h
      · cases h
theorem composeAll_leaves {c : Composer} (ss ss' : List Section) (h : composeAll c ss = (.ok (), ss')) :
    allLeaves ss' = allLeaves ss := by
  match ss with
  | [] => unfold composeAll at h; injection h with _ h; subst h; rfl
  | s :: ss =>
    unfold composeAll at h
    split at h
    · rename_i u s' hs
      cases hr : composeAll c ss with
      | mk r ss2 =>
        rw [hr] at h
        injection h with h1 h2
        subst h1; subst h2
        simp [allLeaves, compose_leaves s s' (c := c) (by rw [hs]), composeAll_leaves ss ss2 hr]
    · cases h
    · cases h
end

/-! ### An example, and two findings -/

/-- Packs the sub-sections without compressing them. -/
def storeComposer : Composer := fun s => contentLoop [] s.subs >>= fun b => .ok (s.hdr, b)
def storeExtractor : Extractor := fun s => .ok s.data

theorem store_inverse : Inverse storeComposer storeExtractor := by
  intro s h content e
  unfold storeComposer at e
  cases hc : contentLoop [] s.subs with
  | ok b =>
    rw [hc] at e
    simp only [Outcome.ok_bind, Outcome.ok.injEq, Prod.mk.injEq] at e
    obtain ⟨_, rfl⟩ := e
    exact ⟨b, rfl, fun s' _ h2 _ => by simp [storeExtractor, h2]⟩
  | err e' => rw [hc] at e; cases e
  | panic => rw [hc] at e; cases e

/-- A leaf with content `d`. -/
def rawLeaf (d : List UInt8) (dirty : Bool) : Section := ⟨.standard 0x19 d.length, d, false, false, dirty, []⟩
/-- A GUID-defined section with one extracted sub-section, whose stored bytes are `packed`. -/
def wrap (packed : List UInt8) (sub : Section) : Section :=
  ⟨.guidDefined 7 24 1 [] packed.length, packed, true, true, false, [sub]⟩

/-- The hypotheses of `compose_roundtrip` hold for an edited sub-section, and the edit is packed. -/
example : (wrap [5, 0, 0, 0x19, 1] (rawLeaf [2, 3] true)).compose storeComposer =
    (.ok (), wrap [6, 0, 0, 0x19, 2, 3] (rawLeaf [2, 3] false)) := by
  have e : (SecHdr.standard 25 2).serialize = [6, 0, 0, 0x19] := by decide
  simp [wrap, rawLeaf, Section.compose, composeAll, Section.store, SecHdr.setContentSize, SecHdr.withSize, Section.pack,
    storeComposer, contentLoop, Section.serialize, Section.isDirty, e]
example : (wrap [6, 0, 0, 0x19, 2, 3] (rawLeaf [2, 3] false)).Tidy := by
  simp [wrap, rawLeaf, Section.Tidy, AllTidy, Section.Good, Section.isDirty, anyDirty, SecHdr.WF, SecHdr.FitsAt,
    SecHdr.encapsulates, SecHdr.contentSize, contentLoop, Section.serialize, SecHdr.contentOffset]
  decide

/-- Finding: `compose` clears the flag before it calls the composer. When the composer fails, the edited section
counts as composed and is written out with its old content: the edit is silently lost. -/
theorem failed_compose_stale :
    (wrap [5, 0, 0, 0x19, 1] (rawLeaf [2, 3] true)).serialize = .err .notComposed ∧
    ((wrap [5, 0, 0, 0x19, 1] (rawLeaf [2, 3] true)).compose fun _ => .err .unsupported).1 = .err .unsupported ∧
    ((wrap [5, 0, 0, 0x19, 1] (rawLeaf [2, 3] true)).compose fun _ => .err .unsupported).2.serialize =
      .ok ((SecHdr.guidDefined 7 24 1 [] 5).serialize ++ [5, 0, 0, 0x19, 1]) := by
  simp [wrap, rawLeaf, Section.compose, composeAll, Section.store, SecHdr.setContentSize, SecHdr.withSize, Section.pack,
    Section.serialize, Section.isDirty, anyDirty]

/-- Finding: the comment of `extract` says that it does nothing if the extractor does not support the section. It
marks the section as extracted, with no sub-sections, so that a later extraction with another extractor has no
effect. -/
theorem unsupported_marks (dbg : Bool) (s : Section) (he : s.encap = true) (hx : s.extracted = false) (x : Extractor)
    (fuel fuel' : Nat) :
    s.extract dbg (fun _ => .err .unsupported) (fuel + 1) = .ok { s with subs := [], extracted := true } ∧
    ({ s with subs := [], extracted := true } : Section).extract dbg x (fuel' + 1) =
      .ok { s with subs := [], extracted := true } := by
  constructor
  · unfold Section.extract
    simp only [he, hx, orNothing]
    rfl
  · unfold Section.extract
    simp

end Verif.Ffs
