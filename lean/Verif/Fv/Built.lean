import Verif.Fv.Files
import Verif.Ffs.VolumeProps
import Verif.Ffs.VolumeRobust
/-!
C82: what has been built into a firmware volume is what the protocol delivers.
-/
namespace Verif.Fv
open Verif.Ffs

/-- `bytes` are in memory at `base`. -/
def Stored (m : Mem) (base : Nat) (bytes : List UInt8) : Prop := ∀ i (h : i < bytes.length), m (base + i) = bytes[i]

theorem Stored.take {m : Mem} {base : Nat} {bytes : List UInt8} (h : Stored m base bytes) {n : Nat} (hn : n ≤ bytes.length) :
    bytesAt m base n = bytes.take n := by
  apply List.ext_getElem
  · simp [bytesAt]; omega
  · intro i h1 h2
    have h1' : i < n := by simpa [bytesAt] using h1
    simp only [bytesAt, List.getElem_map, List.getElem_range, List.getElem_take]
    exact h i (by omega)

theorem Stored.all {m : Mem} {base : Nat} {bytes : List UInt8} (h : Stored m base bytes) : bytesAt m base bytes.length = bytes := by
  rw [h.take (Nat.le_refl _), List.take_length]

theorem rd_take (b : List UInt8) (n i k : Nat) (h : i + k ≤ n) : rd (b.take n) i k = rd b i k := by
  unfold rd slice
  rw [List.drop_take, List.take_take]
  congr 2
  omega

theorem new_fields {b : List UInt8} {v : VolumeRef} (h : VolumeRef.new b = .ok v) :
    56 ≤ b.length ∧ rd b 40 4 = SIGNATURE ∧ v.length = rd b 32 8 ∧ v.data = b ∧ v.attributes = rd b 44 4 := by
  unfold VolumeRef.new at h
  split at h
  · cases h
  · rename_i hne
    have hi := headerError_inv hne
    cases h1 : parseExt b (rd b 52 2) with
    | err e => rw [h1] at h; cases h
    | panic => rw [h1] at h; cases h
    | ok ext =>
      rw [h1] at h
      simp only [Outcome.ok_bind] at h
      cases h2 : parseBlockMap (slice b 56 (rd b 48 2 - 56)) with
      | err e => rw [h2] at h; cases h
      | panic => rw [h2] at h; cases h
      | ok bm =>
        rw [h2] at h
        simp only [Outcome.ok_bind] at h
        cases h3 : alignedStart (filesStart (rd b 48 2) (rd b 52 2) ext) with
        | err e => rw [h3] at h; cases h
        | panic => rw [h3] at h; cases h
        | ok co =>
          rw [h3] at h
          injection h with h
          subst h
          refine ⟨?_, ?_, rfl, rfl, rfl⟩
          · exact Nat.not_lt.1 hi.1
          · exact Classical.not_not.1 hi.2.1

/-- A volume that fills its bytes is found at its address. -/
theorem openVolume_stored {m : Mem} {base : Nat} {bytes : List UInt8} {v : VolumeRef} (hs : Stored m base bytes) (hv : VolumeRef.new bytes = .ok v)
    (hl : v.length = bytes.length) : openVolume m base = .ok v := by
  obtain ⟨h1, h2, h3, _, _⟩ := new_fields hv
  unfold openVolume
  rw [hs.take h1, rd_take _ _ _ _ (by omega), rd_take _ _ _ _ (by omega), if_neg (by rw [h2]; exact fun h => h rfl), ← h3, hl, hs.all, hv]

theorem placed_mem {bytes : List UInt8} : ∀ {lo : Nat} {fs : List File} {rs : List FileRef}, PlacedFrom bytes lo fs rs →
    (∀ f ∈ fs, ∃ r ∈ rs, f.serialize = .ok r.data ∧ FileRef.new r.data = .ok r ∧ r.name = f.name ∧ r.fileType = f.fileType) ∧
    (∀ r ∈ rs, ∃ f ∈ fs, f.serialize = .ok r.data ∧ FileRef.new r.data = .ok r ∧ r.name = f.name ∧ r.fileType = f.fileType) ∧
    rs.map (fun r => (r.name, r.fileType)) = fs.map (fun f => (f.name, f.fileType)) := by
  intro lo fs
  induction fs generalizing lo with
  | nil =>
    intro rs h
    cases rs with
    | nil => exact ⟨(fun f hf => by cases hf), (fun r hr => by cases hr), rfl⟩
    | cons r rs => cases h
  | cons f fs ih =>
    intro rs h
    cases rs with
    | nil => cases h
    | cons r rs =>
      obtain ⟨o, _, _, h1, _, _, h2, h3, h4, _, _, _, ht⟩ := h
      obtain ⟨i1, i2, i3⟩ := ih ht
      refine ⟨fun g hg => ?_, fun s hs => ?_, ?_⟩
      · rcases List.mem_cons.1 hg with rfl | hg
        · exact ⟨r, List.mem_cons_self .., h1, h2, h3, h4⟩
        · obtain ⟨r', hr', h⟩ := i1 g hg
          exact ⟨r', List.mem_cons_of_mem _ hr', h⟩
      · rcases List.mem_cons.1 hs with rfl | hs
        · exact ⟨f, List.mem_cons_self .., h1, h2, h3, h4⟩
        · obtain ⟨f', hf', h⟩ := i2 s hs
          exact ⟨f', List.mem_cons_of_mem _ hf', h⟩
      · simp only [List.map_cons, i3, h3, h4]

theorem ref_content {r : FileRef} (hn : FileRef.new r.data = .ok r) :
    ∃ hdr c, r.data = hdr ++ c ∧ (hdr.length = 24 ∨ hdr.length = 32) ∧ r.content = .ok c := by
  obtain ⟨_, _, _, _, h5, _, h7, _⟩ := fileRef_inv hn
  refine ⟨r.data.take r.contentOffset, r.data.drop r.contentOffset, (List.take_append_drop ..).symm, ?_, ?_⟩
  · rw [List.length_take, Nat.min_eq_left h7, h5]
    unfold headerSize
    split
    · exact Or.inr rfl
    · exact Or.inl rfl
  · unfold FileRef.content
    rw [if_neg (by omega)]

/-- What `files()` lists, in terms of everything that is in the volume. -/
theorem ends_of_files {v : VolumeRef} {n : Nat} {fs : List FileRef} (h : v.files n = some (.ok (fs.map Except.ok))) :
    ∃ (it : FIter) (gs : List FileRef), v.iter = .ok it ∧ Ends it (gs.map Except.ok) ∧ gs.filter (·.fileType != 0xF0) = fs := by
  unfold VolumeRef.files at h
  cases hi : v.iter with
  | err e => rw [hi] at h; cases h
  | panic => rw [hi] at h; cases h
  | ok it =>
    rw [hi] at h
    simp only at h
    cases hd : it.drain n with
    | none => rw [hd] at h; cases h
    | some o =>
      rw [hd] at h
      cases o with
      | err e => cases h
      | panic => cases h
      | ok rs =>
        simp only [Option.some.injEq, Outcome.ok.injEq] at h
        have hall : ∃ gs : List FileRef, rs = gs.map (Except.ok (ε := FfsError)) ∧ gs.filter (·.fileType != 0xF0) = fs := by
          clear hd
          induction rs generalizing fs with
          | nil => exact ⟨[], rfl, by cases fs with | nil => rfl | cons a b => cases h⟩
          | cons r rs ih =>
            cases r with
            | error e =>
              rw [List.filter_cons_of_pos rfl] at h
              cases fs with
              | nil => cases h
              | cons a b => cases h
            | ok g =>
              by_cases hg : (g.fileType != 0xF0) = true
              · rw [List.filter_cons_of_pos (by exact hg)] at h
                cases fs with
                | nil => cases h
                | cons a b =>
                  simp only [List.map_cons, List.cons.injEq, Except.ok.injEq] at h
                  obtain ⟨gs, e1, e2⟩ := ih h.2
                  exact ⟨g :: gs, by rw [e1]; rfl, by rw [List.filter_cons_of_pos (by exact hg), e2, h.1]⟩
              · rw [List.filter_cons_of_neg (by exact hg)] at h
                obtain ⟨gs, e1, e2⟩ := ih h
                exact ⟨g :: gs, by rw [e1]; rfl, by rw [List.filter_cons_of_neg (by exact hg), e2]⟩
        obtain ⟨gs, e1, e2⟩ := hall
        subst e1
        exact ⟨it, gs, rfl, ends_of_drain n it _ hd, e2⟩

/-- C82, from building to reading: let a volume that the format can express and that may be read be serialised and placed in memory, and an interface be
installed for it. Then GetNextFile, called until it fails, reports the name and the type of every file that was put in (padding aside), in this order, and
then NOT_FOUND; and ReadFile delivers, for each file whose name is its own, the bytes that the file was serialised to, without their header of 24 or 32
bytes. -/
theorem built_volume_read (alloc : Nat → Except Status Nat) (v : Volume) (hv : v.Expressible) (bytes : List UInt8) (h : v.serialize = .ok bytes)
    (hlen : bytes.length < 2 ^ 63) (hstat : v.attributes &&& 4 ≠ 0) {m : Mem} {base : Nat} (hs : Stored m base bytes) {info : Info} {this : Nat}
    (hi : info.get this = some (.volume, base)) :
    ∃ enough, ∀ fuel, enough ≤ fuel →
      (∃ os, enumerate m info fuel this 0 fuel 0 = some (os, .notFound) ∧
        os.map (fun o => (o.name, o.type)) = (v.files.filter (·.fileType != 0xF0)).map (fun f => (f.name, f.fileType))) ∧
      (∀ f ∈ v.files, f.fileType ≠ 0xF0 → (∀ g ∈ v.files, g.name = f.name → g = f) →
        ∃ hdr c a, f.serialize = .ok (hdr ++ c) ∧ (hdr.length = 24 ∨ hdr.length = 32) ∧
          ∀ p size, p ≠ 0 → 0 < size → c.length ≤ size →
            readFile alloc m info fuel this true f.name (some p) size = some ⟨.success, some (f.fileType, a, c.length), none, some (p, c)⟩) := by
  obtain ⟨ref, rs, lo, hnew, hdata, hguid, hattr, hbm, hl, hrev, hext, _, _, hpl, ⟨en, hfiles⟩, _⟩ := volume_roundtrip v hv bytes h hlen
  obtain ⟨it, gs, hit, hends, hgs⟩ := ends_of_files (hfiles en (Nat.le_refl _))
  have hr : Readable m info this base ref it := ⟨hi, openVolume_stored hs hnew hl, by rw [hattr]; exact hstat, hit⟩
  obtain ⟨p1, p2, p3⟩ := placed_mem hpl
  have hwant : wanted 0 gs = rs.filter (·.fileType != 0xF0) := by
    rw [← hgs]
    unfold wanted
    apply List.filter_congr
    intro x _
    rw [Bool.eq_iff_iff]
    simp
  refine ⟨gs.length + 1, fun fuel hf => ⟨?_, fun f hfm hft hu => ?_⟩⟩
  · have hw : (wanted 0 gs).length ≤ gs.length := List.length_filter_le ..
    refine ⟨_, enumerate_exact hr hends (by omega) (by decide) (by omega), ?_⟩
    rw [List.map_map, hwant]
    have hz : ∀ (l : List FileRef) (k : Nat), ((l.zipIdx k).map ((fun o => (o.name, o.type)) ∘ fun x => reported ref (x.2 + 1) x.1))
        = l.map (fun r => (r.name, r.fileType)) := by
      intro l
      induction l with
      | nil => intro k; rfl
      | cons x xs ih => intro k; simp only [List.zipIdx_cons, List.map_cons, ih]; rfl
    rw [hz]
    have hfm : ∀ (xs : List FileRef) (ys : List File), xs.map (fun r => (r.name, r.fileType)) = ys.map (fun f => (f.name, f.fileType)) →
        (xs.filter (·.fileType != 0xF0)).map (fun r => (r.name, r.fileType)) = (ys.filter (·.fileType != 0xF0)).map (fun f => (f.name, f.fileType)) := by
      intro xs
      induction xs with
      | nil => intro ys e; cases ys with | nil => rfl | cons y ys => cases e
      | cons x xs ih =>
        intro ys e
        cases ys with
        | nil => cases e
        | cons y ys =>
          simp only [List.map_cons, List.cons.injEq, Prod.mk.injEq] at e
          have := ih ys e.2
          rw [List.filter_cons, List.filter_cons, e.1.2]
          split
          · simp only [List.map_cons, this, e.1.1, e.1.2]
          · exact this
    exact hfm rs v.files p3
  · obtain ⟨r, hrm, q1, q2, q3, q4⟩ := p1 f hfm
    obtain ⟨hdr, c, e1, e2, e3⟩ := ref_content q2
    refine ⟨hdr, c, fileAttributes r.attrs, by rw [q1, e1], e2, fun p size hp h0 hsz => ?_⟩
    have hmem : r ∈ wanted 0 gs := by
      rw [hwant]
      exact List.mem_filter.2 ⟨hrm, by rw [q4]; simpa using hft⟩
    have huniq : ∀ g ∈ wanted 0 gs, g.name = r.name → g = r := by
      intro g hg hgn
      rw [hwant] at hg
      obtain ⟨f', hf', s1, s2, s3, s4⟩ := p2 g (List.mem_filter.1 hg).1
      have : f' = f := hu f' hf' (by rw [← s3, hgn, q3])
      subst this
      rw [q1] at s1
      injection s1 with s1
      rw [s1] at q2
      rw [q2] at s2
      injection s2 with s2
      exact s2.symm
    have := listed_named alloc hr hends (show gs.length < fuel by omega) hmem huniq e3 hp h0 hsz
    rw [q3, q4] at this
    exact this

end Verif.Fv
