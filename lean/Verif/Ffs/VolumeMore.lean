import Verif.Ffs.VolumeProps
/-!
C39, continued: reloading a volume, when serialisation succeeds, witnesses.
-/
namespace Verif.Ffs

/-- What a file looks like after a round trip: same name, type and polarity, sections with their bytes, and the
large-file bit added when the content needs it. -/
def Reloaded (f g : File) : Prop :=
  g.name = f.name ∧ g.fileType = f.fileType ∧ g.polarity = f.polarity ∧ g.sections = f.sections.map Section.plain ∧
    (g.attrs = f.attrs ∨ g.attrs = f.attrs ||| 0x01)

/-- Two lists of files that correspond one to one. -/
def AllReloaded : List File → List File → Prop
  | [], [] => True
  | f :: fs, g :: gs => Reloaded f g ∧ AllReloaded fs gs
  | _, _ => False

theorem ofRef_of_file {dbg : Bool} {f : File} {content : List UInt8} {a : UInt8} {n : Nat}
    (hg : ∀ s ∈ f.sections, s.Good) (hc : contentLoop [] f.sections = .ok content)
    (hl : content.length + 8 < 2 ^ 64) :
    File.ofRef dbg ⟨f.header content ++ content, f.name, f.fileType, a, f.polarity, n,
        if f.usesLarge content then 32 else 24⟩
      = .ok { f with attrs := a, sections := f.sections.map Section.plain } := by
  unfold File.ofRef FileRef.sections FileRef.content
  simp only [← header_length f content]
  rw [if_neg (by simp)]
  simp only [List.drop_left, Outcome.ok_bind, sectionList_content hg hc hl]

theorem filesOfItems_placed (dbg : Bool) (bytes : List UInt8) (fs : List File) :
    ∀ lo rs, PlacedFrom bytes lo fs rs → bytes.length < 2 ^ 63 → (∀ f ∈ fs, f.name < 2 ^ 128) →
      (∀ f ∈ fs, ∀ s ∈ f.sections, s.Good) → (∀ f ∈ fs, f.fileType ≠ 0xF0) →
      ∃ gs, filesOfItems dbg ((rs.filter (·.fileType != 0xF0)).map Except.ok) = .ok gs ∧ AllReloaded fs gs := by
  induction fs with
  | nil =>
    intro lo rs hp _ _ _ _
    cases rs with
    | nil => exact ⟨[], rfl, trivial⟩
    | cons r rs => exact hp.elim
  | cons f fs ih =>
    intro lo rs hp hl hn hg hpad
    cases rs with
    | nil => exact hp.elim
    | cons r rs =>
      obtain ⟨o, p1, p2, p3, p4, p5, p6, p7, p8, p9, p10, p11, p12⟩ := hp
      obtain ⟨gs, hgs, hf2⟩ := ih _ rs p12 hl (fun g h => hn g (List.mem_cons_of_mem _ h))
        (fun g h => hg g (List.mem_cons_of_mem _ h)) (fun g h => hpad g (List.mem_cons_of_mem _ h))
      have hfm := List.mem_cons_self (a := f) (l := fs)
      obtain ⟨content, hc, hb⟩ := serialize_inv p3
      have hcl : content.length + 24 ≤ r.data.length := by
        rw [hb, List.length_append, header_length]; split <;> omega
      have hfr := fileRef_of_file (f := f) (content := content) (tail := []) (hn f hfm) (by omega)
      rw [List.append_nil, ← hb, p6] at hfr
      split at hfr
      · cases hfr
      · injection hfr with hfr
        have hof := ofRef_of_file (dbg := dbg) (a := r.attrs) (n := r.data.length) (hg f hfm) hc (by omega)
        rw [← hb] at hof
        have hr : r = ⟨r.data, f.name, f.fileType, r.attrs, f.polarity, r.data.length,
            if f.usesLarge content then 32 else 24⟩ := by
          rw [hfr]
        rw [← hr] at hof
        have ha : r.attrs = f.attrs ∨ r.attrs = f.attrs ||| 0x01 := by
          rw [hfr]; simp only []; split <;> simp
        have hk : (r.fileType != 0xF0) = true := by rw [p8]; simpa using hpad f hfm
        refine ⟨{ f with attrs := r.attrs, sections := f.sections.map Section.plain } :: gs, ?_, ⟨rfl, rfl, rfl, rfl, ha⟩, hf2⟩
        rw [List.filter_cons, hk]
        simp only [if_true, List.map_cons, filesOfItems, hof, Outcome.ok_bind, hgs]

/-- C39. Loading a serialised volume for editing gives back the volume: GUID, attributes, extended header, block map,
and file by file its name, type, polarity, attributes and sections. Its capacity becomes the size it had. (For
volumes without explicit padding files, whose sections are plain sections; see `Section.Good`.) -/
theorem volume_reload (dbg : Bool) (v : Volume) (hv : v.Expressible) (hg : ∀ f ∈ v.files, ∀ s ∈ f.sections, s.Good)
    (hpad : ∀ f ∈ v.files, f.fileType ≠ 0xF0) (bytes : List UInt8) (h : v.serialize = .ok bytes)
    (hlen : bytes.length < 2 ^ 63) :
    ∃ ref items w, VolumeRef.new bytes = .ok ref ∧ (∃ fuel, ref.files fuel = some (.ok items)) ∧
      Volume.ofRef dbg ref items = .ok w ∧ w.guid = v.guid ∧ w.attributes = v.attributes ∧ w.ext = v.ext ∧
      w.blockMap = v.blockMap ∧ w.capacity = some bytes.length ∧ AllReloaded v.files w.files := by
  obtain ⟨ref, rs, lo, h1, h2, h3, h4, h5, h6, h7, h8, h9, h10, h11, ⟨fuel, h12⟩, h13⟩ :=
    volume_roundtrip v hv bytes h hlen
  obtain ⟨gs, hgs, hall⟩ := filesOfItems_placed dbg bytes v.files lo rs h11 hlen hv.names hg hpad
  refine ⟨ref, _, ⟨ref.guid, ref.attributes, v.ext, ref.blockMap, gs, some ref.length⟩, h1,
    ⟨fuel, h12 fuel (Nat.le_refl _)⟩, ?_, h3, h4, rfl, h5, by rw [h6], hall⟩
  unfold Volume.ofRef
  rw [h7, if_neg (by omega), hgs]
  simp only [Outcome.ok_bind, h8]

/-- A volume with an extended header, erase polarity 1, and two files; the content of the second must be aligned to
512 bytes, so a padding file is needed. -/
def demoVolume : Volume :=
  ⟨FFS2, 0x800, some (⟨5, 23⟩, [1, 2, 3]), [⟨4, 4096⟩],
    [demoFile, { demoFile with name := 8, attrs := 0x18 }], some 1024⟩

/-- Whether serialisation succeeds with this length. -/
def serializesTo (v : Volume) (n : Nat) : Bool :=
  match v.serialize with
  | .ok b => b.length == n
  | _ => false

example : serializesTo demoVolume 1024 = true := by decide +kernel

example : demoVolume.Expressible := by
  refine ⟨Or.inl rfl, by decide, by decide, by decide, by decide, ?_, ?_⟩
  · intro f hf
    simp only [demoVolume, List.mem_cons, List.not_mem_nil, or_false] at hf
    rcases hf with rfl | rfl <;> decide
  · intro e data h
    simp only [demoVolume] at h
    cases h; decide

/-! ### When serialisation succeeds -/

/-- A file that can be put into a volume: nothing dirty, no data checksum (see `checksum_file_rejected`), small enough
for the file system, and an alignment below 16 MiB. -/
structure Placeable (ffs3 : Bool) (f : File) : Prop where
  clean : ∀ s ∈ f.sections, s.isDirty = false
  name : f.name < 2 ^ 128
  noChecksum : f.attrs &&& 0x40 = 0
  size : ∀ bytes, f.serialize = .ok bytes → bytes.length + 8 < 2 ^ 64 ∧ (ffs3 = true ∨ bytes.length < 0x1000000)
  alignment : requiredAlignment f.attrs < 0x1000000

theorem alignExp_or (a : UInt8) : alignExp (a ||| 0x01) = alignExp a :=
  forall_u8 (P := fun a => alignExp (a ||| 0x01) = alignExp a) (by decide +kernel) a

theorem filesLoop_ok {ls : Bool} {p : UInt8} {fs : List File} (h : ∀ f ∈ fs, Placeable ls f) (buf : List UInt8) :
    ∃ body, filesLoop ls p buf fs = .ok body := by
  induction fs generalizing buf with
  | nil => exact ⟨buf, rfl⟩
  | cons f fs ih =>
    have hf := h f (List.mem_cons_self ..)
    obtain ⟨content, hc⟩ := contentLoop_ok hf.clean []
    have hs : f.serialize = .ok (f.header content ++ content) := by unfold File.serialize; rw [hc]; rfl
    obtain ⟨s1, s2⟩ := hf.size _ hs
    have hcl : content.length + 24 ≤ (f.header content ++ content).length := by
      rw [List.length_append, header_length]; split <;> omega
    have hnew := fileRef_of_file (f := f) (content := content) (tail := []) hf.name (by omega)
    rw [List.append_nil, if_neg (by
      rintro ⟨h1, _⟩; simp [hasChecksum, hf.noChecksum] at h1)] at hnew
    have hA : 2 ^ alignExp (if f.usesLarge content then f.attrs ||| 0x01 else f.attrs) < 0x1000000 := by
      have : alignExp (if f.usesLarge content then f.attrs ||| 0x01 else f.attrs) = alignExp f.attrs := by
        split
        · exact alignExp_or _
        · rfl
      rw [this, ← requiredAlignment_eq]; exact hf.alignment
    have hpad : ∃ pad, alignPad buf.length (if f.usesLarge content then 32 else 24)
        (alignExp (if f.usesLarge content then f.attrs ||| 0x01 else f.attrs)) = .ok pad := by
      generalize alignExp (if f.usesLarge content then f.attrs ||| 0x01 else f.attrs) = e at *
      generalize (if f.usesLarge content then 32 else 24) = co at *
      unfold alignPad
      split
      · exact ⟨_, padFile_serialize _⟩
      · exact ⟨[], rfl⟩
    obtain ⟨pad, hpad⟩ := hpad
    have hguard : ((f.header content ++ content).length ≥ 0x1000000 && !ls) = false := by
      rcases s2 with h | h
      · simp [h]
      · rw [Bool.and_eq_false_iff]; left; simp only [decide_eq_false_iff_not]; omega
    have hplace : ∃ buf', placeFile ls p buf f = .ok buf' := by
      unfold placeFile
      rw [hs]
      simp only [Outcome.ok_bind]
      rw [hguard, if_neg (by simp), hnew]
      simp only [Outcome.ok_bind, hpad]
      exact ⟨_, rfl⟩
    obtain ⟨buf', hplace⟩ := hplace
    obtain ⟨body, hb⟩ := ih (fun g hg => h g (List.mem_cons_of_mem _ hg)) buf'
    exact ⟨body, by simp only [filesLoop, hplace, Outcome.ok_bind, hb]⟩

/-- C39. Serialisation of such files never panics and fails only with `InvalidHeader`, only because the header does not
fit 64 KiB, the extended header does not fit 32 bits or the whole does not fit 64 bits. -/
theorem volume_serialize_ok (v : Volume) (hf : ∀ f ∈ v.files, Placeable (v.guid == FFS3) f) :
    (∃ bytes, v.serialize = .ok bytes) ∨ v.serialize = .err .invalidHeader ∧
      (2 ^ 16 ≤ 56 + 8 * (v.blockMap.length + 1) + 32 ∨ (∃ e data, v.ext = some (e, data) ∧ 2 ^ 32 ≤ 20 + data.length) ∨
        ∃ before body, filesLoop (v.guid == FFS3) (eraseByte v.attributes) before v.files = .ok body ∧
          2 ^ 64 ≤ (fillTo (eraseByte v.attributes) body v.capacity).length) := by
  unfold Volume.serialize
  simp only []
  have hhead : (volumeHeader v.guid v.attributes 0 0 0 0 ++ blockBytes v.blockMap).length
      = 56 + 8 * (v.blockMap.length + 1) := by
    rw [List.length_append, volumeHeader_length, blockBytes_length]; omega
  generalize volumeHeader v.guid v.attributes 0 0 0 0 ++ blockBytes v.blockMap = head at *
  have hext : (∃ b x, extPart head v.ext = .ok (b, x) ∧ x ≤ head.length + 32) ∨
      extPart head v.ext = .err .invalidHeader ∧ ∃ e data, v.ext = some (e, data) ∧ 2 ^ 32 ≤ 20 + data.length := by
    cases he : v.ext with
    | none => exact Or.inl ⟨head, 0, rfl, by omega⟩
    | some ed =>
      obtain ⟨e, data⟩ := ed
      simp only [extPart]
      have hcl : (leBytes 16 e.name ++ (leBytes 4 e.size ++ data)).length = 20 + data.length := by simp; omega
      generalize leBytes 16 e.name ++ (leBytes 4 e.size ++ data) = content at *
      split
      · left
        have hs := padFile_serialize content
        rw [hs]
        obtain ⟨n, hn1, _, _⟩ := content_offset_correct _ _ hs
        refine ⟨_, _, by simp only [Outcome.ok_bind, hn1]; rfl, ?_⟩
        have : n = 32 ∨ n = 24 := by
          unfold File.contentOffset at hn1
          split at hn1
          · injection hn1 with hn1; omega
          · cases hx : contentLenLoop 0 (padFile content).sections with
            | err e => rw [hx] at hn1; cases hn1
            | panic => rw [hx] at hn1; cases hn1
            | ok m =>
              rw [hx] at hn1
              simp only [Outcome.ok_bind] at hn1
              injection hn1 with hn1
              split at hn1 <;> omega
        omega
      · right; exact ⟨rfl, e, data, rfl, by omega⟩
  rcases hext with ⟨b, x, hb, hx⟩ | ⟨he, h⟩
  · rw [hb]
    simp only [Outcome.ok_bind]
    obtain ⟨body, hbody⟩ := filesLoop_ok hf (p := eraseByte v.attributes) (b ++ pad8 (eraseByte v.attributes) b.length)
    rw [hbody]
    simp only [Outcome.ok_bind]
    unfold finish
    split
    · exact Or.inl ⟨_, rfl⟩
    · right
      refine ⟨rfl, ?_⟩
      by_cases h16 : 2 ^ 16 ≤ 56 + 8 * (v.blockMap.length + 1) + 32
      · exact Or.inl h16
      · right; right
        exact ⟨_, body, hbody, by omega⟩
  · rw [he]
    exact Or.inr ⟨rfl, Or.inr (Or.inl h)⟩

/-- Finding: a file that asks for the 16 MiB alignment the format defines makes serialisation panic. -/
theorem align_16m_panics :
    requiredAlignment 0x3A = 0x1000000 ∧
    (Volume.mk FFS2 0 none [⟨1, 4096⟩] [⟨1, 0x07, 0x3A, true, []⟩] none).serialize = .panic := by
  refine ⟨by decide +kernel, ?_⟩
  have : (File.mk 1 0x07 0x3A true []).serialize = .ok ((File.mk 1 0x07 0x3A true []).header [] ++ []) := rfl
  simp only [Volume.serialize, extPart, Outcome.ok_bind, filesLoop, placeFile, this]
  decide +kernel

/-- Finding: what does not fit the requested capacity silently makes the volume larger. -/
theorem capacity_exceeded :
    serializesTo (Volume.mk FFS2 0 none [⟨1, 4096⟩] [⟨1, 0x07, 0, true, []⟩] (some 80)) 96 = true := by decide +kernel

end Verif.Ffs
