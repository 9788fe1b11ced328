import Verif.Ffs.VolumeLemmas
import Verif.Ffs.VolumeSpec
/-!
C39: volumes are laid out correctly and parse back.
-/
namespace Verif.Ffs

theorem requiredAlignment_eq (a : UInt8) : requiredAlignment a = 2 ^ alignExp a :=
  forall_u8 (P := fun a => requiredAlignment a = 2 ^ alignExp a) (by decide +kernel) a

theorem PlacedFrom.mono {bytes : List UInt8} {lo lo' : Nat} {fs : List File} {rs : List FileRef} (h : lo ≤ lo')
    (hp : PlacedFrom bytes lo' fs rs) : PlacedFrom bytes lo fs rs := by
  cases fs with
  | nil => cases rs <;> exact hp
  | cons f fs =>
    cases rs with
    | nil => exact hp
    | cons r rs =>
      obtain ⟨o, h1, h2⟩ := hp
      exact ⟨o, by omega, h2⟩

/-- What one iteration of the file loop does. -/
theorem placeFile_inv {ls : Bool} {p : UInt8} {buf buf' : List UInt8} {f : File} (hb : buf.length % 8 = 0)
    (hn : f.name < 2 ^ 128) (hl : buf'.length + 32 < 2 ^ 64) (h : placeFile ls p buf f = .ok buf') :
    ∃ pad content, buf' = buf ++ (pad ++ ((f.header content ++ content) ++
        pad8 p ((buf ++ pad) ++ (f.header content ++ content)).length)) ∧
      f.serialize = .ok (f.header content ++ content) ∧ buf'.length % 8 = 0 ∧
      (hasChecksum f.attrs = true → sum8 content = 0) ∧ (buf.length + pad.length) % 8 = 0 ∧
      (buf.length + pad.length + (if f.usesLarge content then 32 else 24)) %
        2 ^ alignExp (if f.usesLarge content then f.attrs ||| 0x01 else f.attrs) = 0 ∧
      (pad = [] ∨ ∃ c, pad = (padFile c).header c ++ c ∧ c.length ≤ 0xffffff - 24 ∧ pad.length = 24 + c.length) ∧
      FileRef.new (f.header content ++ content) = .ok ⟨f.header content ++ content, f.name, f.fileType,
        if f.usesLarge content then f.attrs ||| 0x01 else f.attrs, f.polarity,
        (f.header content ++ content).length, if f.usesLarge content then 32 else 24⟩ := by
  unfold placeFile at h
  cases hs : f.serialize with
  | err e => rw [hs] at h; cases h
  | panic => rw [hs] at h; cases h
  | ok fb =>
    rw [hs] at h
    simp only [Outcome.ok_bind] at h
    split at h
    · cases h
    · cases hr : FileRef.new fb with
      | err e => rw [hr] at h; cases h
      | panic => rw [hr] at h; cases h
      | ok r =>
        rw [hr] at h
        simp only [Outcome.ok_bind] at h
        cases hp : alignPad buf.length r.contentOffset (alignExp r.attrs) with
        | err e => rw [hp] at h; cases h
        | panic => rw [hp] at h; cases h
        | ok pad =>
          rw [hp] at h
          simp only [Outcome.ok_bind] at h
          injection h with h
          obtain ⟨content, hc, rfl⟩ := serialize_inv hs
          have hlen : content.length + 32 < 2 ^ 64 := by
            have := congrArg List.length h
            simp only [List.length_append] at this
            omega
          have hnew := fileRef_of_file (f := f) (content := content) (tail := []) hn hlen
          rw [List.append_nil, hr] at hnew
          split at hnew
          · cases hnew
          · rename_i hck
            injection hnew with hnew
            subst hnew
            obtain ⟨p1, p2, p3⟩ := alignPad_ok hb
              (show (if f.usesLarge content then 32 else 24) % 8 = 0 by split <;> decide) hp
            refine ⟨pad, content, ?_, rfl, ?_, ?_, p1, p2, ?_, by rw [hr]⟩
            · rw [← h]; simp only [List.append_assoc]
            · rw [← h, List.length_append]
              exact (pad8_length p _).1
            · intro h1
              apply Classical.byContradiction
              intro h2; exact hck ⟨h1, h2⟩
            · rcases p3 with h0 | ⟨c, h1, h2, _, h3⟩
              · exact Or.inl h0
              · exact Or.inr ⟨c, h1, h2, h3⟩

/-- The part of the volume that the file loop writes. -/
theorem filesLoop_spec (ls : Bool) (a : Nat) (fs : List File) :
    ∀ buf body, buf.length % 8 = 0 → (∀ f ∈ fs, f.name < 2 ^ 128) → body.length + 32 < 2 ^ 64 →
      filesLoop ls (eraseByte a) buf fs = .ok body →
      ∃ region rs, body = buf ++ region ∧ body.length % 8 = 0 ∧
        (∀ pre tail, pre.length = buf.length → PlacedFrom (pre ++ (region ++ tail)) buf.length fs rs) ∧
        (∀ (data : List UInt8) (p : Nat) (tail : List UInt8) (n : Nat) (rest : List (Except FfsError FileRef)),
          data.drop p = region ++ tail → p % 8 = 0 → p ≤ data.length → data.length + 8 < 2 ^ 64 →
          FIter.drain n ⟨data, p + region.length, eraseByte a, false⟩ = some (.ok rest) →
          ∃ (items : List FileRef) (m : Nat), FIter.drain (n + m) ⟨data, p, eraseByte a, false⟩
              = some (.ok (items.map Except.ok ++ rest)) ∧
            items.filter (·.fileType != 0xF0) = rs.filter (·.fileType != 0xF0)) := by
  induction fs with
  | nil =>
    intro buf body hb _ _ h
    simp only [filesLoop] at h
    injection h with h
    subst h
    refine ⟨[], [], by simp, hb, fun _ _ _ => trivial, ?_⟩
    intro data p tail n rest _ _ _ _ hd
    exact ⟨[], 0, by simpa using hd, rfl⟩
  | cons f fs ih =>
    intro buf body hb hn hl h
    simp only [filesLoop] at h
    cases hp : placeFile ls (eraseByte a) buf f with
    | err e => rw [hp] at h; cases h
    | panic => rw [hp] at h; cases h
    | ok buf' =>
      rw [hp] at h
      simp only [Outcome.ok_bind] at h
      -- the body extends buf'
      have hext : ∀ (fs : List File) (b body : List UInt8),
          filesLoop ls (eraseByte a) b fs = .ok body → b.length ≤ body.length := by
        intro fs
        induction fs with
        | nil => intro b body h; simp only [filesLoop] at h; injection h with h; subst h; exact Nat.le_refl _
        | cons g gs ihg =>
          intro b body h
          simp only [filesLoop] at h
          cases hq : placeFile ls (eraseByte a) b g with
          | err e => rw [hq] at h; cases h
          | panic => rw [hq] at h; cases h
          | ok b' =>
            rw [hq] at h
            have h1 := ihg b' body h
            unfold placeFile at hq
            cases hs : g.serialize with
            | err e => rw [hs] at hq; cases hq
            | panic => rw [hs] at hq; cases hq
            | ok fb =>
              rw [hs] at hq
              simp only [Outcome.ok_bind] at hq
              split at hq
              · cases hq
              · cases hr : FileRef.new fb with
                | err e => rw [hr] at hq; cases hq
                | panic => rw [hr] at hq; cases hq
                | ok r =>
                  rw [hr] at hq
                  simp only [Outcome.ok_bind] at hq
                  cases hx : alignPad b.length r.contentOffset (alignExp r.attrs) with
                  | err e => rw [hx] at hq; cases hq
                  | panic => rw [hx] at hq; cases hq
                  | ok pad =>
                    rw [hx] at hq
                    simp only [Outcome.ok_bind] at hq
                    injection hq with hq
                    rw [← hq] at h1
                    simp only [List.length_append] at h1
                    omega
      have hble := hext fs buf' body h
      obtain ⟨pad, content, hbuf, hser, hb8, hck, hp8, hpa, hpad, hnew⟩ :=
        placeFile_inv hb (hn f (List.mem_cons_self ..)) (by omega) hp
      obtain ⟨region, rs, h1, h2, h3, h4⟩ :=
        ih buf' body hb8 (fun g hg => hn g (List.mem_cons_of_mem _ hg)) hl h
      generalize hfb : f.header content ++ content = fb at *
      generalize hq8 : pad8 (eraseByte a) ((buf ++ pad) ++ fb).length = q at *
      refine ⟨(pad ++ (fb ++ q)) ++ region, ⟨fb, f.name, f.fileType, if f.usesLarge content then f.attrs ||| 0x01
        else f.attrs, f.polarity, fb.length, if f.usesLarge content then 32 else 24⟩ :: rs,
        by rw [h1, hbuf]; simp only [List.append_assoc], h2, ?_, ?_⟩
      · intro pre tail hpre
        have e1 : pre ++ (((pad ++ (fb ++ q)) ++ region) ++ tail)
            = (pre ++ pad) ++ (fb ++ (q ++ (region ++ tail))) := by simp only [List.append_assoc]
        have e2 : (pre ++ pad) ++ (fb ++ (q ++ (region ++ tail)))
            = (pre ++ (pad ++ (fb ++ q))) ++ (region ++ tail) := by simp only [List.append_assoc]
        have hle : buf.length + pad.length + fb.length ≤ buf'.length := by
          rw [hbuf]; simp only [List.length_append]; omega
        refine ⟨buf.length + pad.length, by omega, hp8, hser, ?_, ?_, hnew, rfl, rfl, rfl, rfl, ?_, ?_⟩
        · rw [e1]; simp only [List.length_append]; omega
        · rw [e1, slice_right' (k := 0) (by simp only [List.length_append]; omega), slice_self _ _ rfl]
        · rw [requiredAlignment_eq]; exact hpa
        · rw [e1, e2]
          refine (h3 (pre ++ (pad ++ (fb ++ q))) tail ?_).mono hle
          rw [hbuf]; simp only [List.length_append]; omega
      · intro data p tail n rest hd hp0 hpl hdl hrest
        -- behind the padding and this file
        have hlen : (data.drop p).length = pad.length + (fb.length + q.length) + region.length + tail.length := by
          rw [hd]; simp only [List.length_append]
        rw [List.length_drop] at hlen
        have hq : q.length = (pad8 (eraseByte a) (p + pad.length + fb.length)).length := by
          rw [← hq8]; unfold pad8
          have : (buf ++ pad ++ fb).length % 8 = (p + pad.length + fb.length) % 8 := by
            simp only [List.length_append]; omega
          rw [this]
        have hdrop2 : data.drop (p + (pad.length + (fb.length + q.length))) = region ++ tail := by
          rw [← List.drop_drop, hd, List.append_assoc, List.drop_append_of_le_length (by simp), List.drop_of_length_le
            (by simp), List.nil_append]
        obtain ⟨items, m, hi1, hi2⟩ := h4 data (p + (pad.length + (fb.length + q.length))) tail n rest hdrop2
          (by have := (pad8_length (eraseByte a) (p + pad.length + fb.length)).1; omega) (by omega) hdl (by
            rw [← hrest]
            congr 2
            simp only [List.length_append]; omega)
        have hdrop1 : data.drop (p + pad.length) = f.header content ++ (content ++ (q ++ (region ++ tail))) := by
          rw [← List.drop_drop, hd, List.append_assoc, List.append_assoc, List.drop_left, ← hfb]
          simp only [List.append_assoc]
        have hstep := step_file (it := ⟨data, p + pad.length, eraseByte a, false⟩) (f := f) (content := content)
          (tail := q ++ (region ++ tail)) rfl rfl hdrop1 (hn f (List.mem_cons_self ..)) hdl (by simp only []; omega)
          hck (eraseByte a)
        rw [hfb] at hstep
        simp only [] at hstep
        have hnext : p + pad.length + fb.length + (pad8 (eraseByte a) (p + pad.length + fb.length)).length
            = p + (pad.length + (fb.length + q.length)) := by rw [← hq]; omega
        rw [hnext] at hstep
        have hd1 := drain_cons hstep hi1
        rcases hpad with hpad | ⟨c, hc1, hc2, hc3⟩
        · subst hpad
          simp only [List.length_nil, Nat.add_zero] at hd1
          refine ⟨_ :: items, m + 1, hd1, ?_⟩
          simp only [List.filter_cons, hi2]
        · have hstepP := step_file (it := ⟨data, p, eraseByte a, false⟩) (f := padFile c) (content := c)
            (tail := (fb ++ q) ++ (region ++ tail)) rfl rfl (by
              simp only []; rw [hd, hc1]; simp only [List.append_assoc]) (by
              show leVal (List.replicate 16 0xff) < 2 ^ 128
              decide +kernel) hdl (by simp only []; omega)
            (by intro hx; simp [padFile, hasChecksum] at hx) (eraseByte a)
          rw [← hc1] at hstepP
          simp only [] at hstepP
          have h8 : (pad8 (eraseByte a) (p + pad.length)).length = 0 := by
            unfold pad8
            rw [if_neg (by omega)]; rfl
          rw [h8, Nat.add_zero] at hstepP
          have hd2 := drain_cons hstepP hd1
          refine ⟨_ :: _ :: items, m + 2, hd2, ?_⟩
          simp only [List.filter_cons, hi2, padFile, bne_self_eq_false, Bool.false_eq_true, if_false]

/-- The header of a serialised volume passes all checks of the parser. -/
theorem headerError_none {v : Volume} (hv : v.Expressible) {len x : Nat} {rest : List UInt8}
    (hlen : len = 56 + (blockBytes v.blockMap).length + rest.length) (hl : len < 2 ^ 64)
    (hh : 56 + (blockBytes v.blockMap).length < 2 ^ 16) (hx : x < 2 ^ 16) (hxl : x ≤ len) (c : Nat)
    (hc : sum16 (volumeHeader v.guid v.attributes len (56 + (blockBytes v.blockMap).length) c x ++
      blockBytes v.blockMap) = 0) :
    headerError (volumeHeader v.guid v.attributes len (56 + (blockBytes v.blockMap).length) c x ++
      (blockBytes v.blockMap ++ rest)) = none := by
  have hg : v.guid < 2 ^ 128 := by rcases hv.guid with h | h <;> rw [h] <;> decide +kernel
  obtain ⟨f1, f2, f3, f4, f5, f6, f7⟩ := volumeHeader_fields (c := c) hg hv.attributes hl hh hx
    (blockBytes v.blockMap ++ rest)
  have hlen' : (volumeHeader v.guid v.attributes len (56 + (blockBytes v.blockMap).length) c x ++
      (blockBytes v.blockMap ++ rest)).length = len := by
    rw [List.length_append, volumeHeader_length, List.length_append]; omega
  unfold headerError
  have hb := blockBytes_length v.blockMap
  rw [f1, f2, f3, f5, f6, f7, hlen', if_neg (by omega), if_neg (by simp), if_neg (by omega), if_neg (by omega),
    if_neg (by omega), ← List.append_assoc, List.take_append_of_le_length (by
      rw [List.length_append, volumeHeader_length]; omega), List.take_of_length_le (by
      rw [List.length_append, volumeHeader_length]; omega), hc, if_neg (by simp), if_neg (by omega),
    if_neg (by rcases hv.guid with h | h <;> simp [h]), if_neg (by omega), if_neg (by omega), if_neg (by omega)]

/-- The shape of a serialised volume. -/
theorem volume_inv {v : Volume} {bytes : List UInt8} (h : v.serialize = .ok bytes) :
    ∃ e body, extPart (volumeHeader v.guid v.attributes 0 0 0 0 ++ blockBytes v.blockMap) v.ext = .ok e ∧
      filesLoop (v.guid == FFS3) (eraseByte v.attributes) (e.1 ++ pad8 (eraseByte v.attributes) e.1.length) v.files
        = .ok body ∧
      finish v (fillTo (eraseByte v.attributes) body v.capacity)
        (volumeHeader v.guid v.attributes 0 0 0 0 ++ blockBytes v.blockMap).length e.2 = .ok bytes := by
  unfold Volume.serialize at h
  simp only [] at h
  cases he : extPart (volumeHeader v.guid v.attributes 0 0 0 0 ++ blockBytes v.blockMap) v.ext with
  | err e => rw [he] at h; cases h
  | panic => rw [he] at h; cases h
  | ok e =>
    rw [he] at h
    simp only [Outcome.ok_bind] at h
    cases hf : filesLoop (v.guid == FFS3) (eraseByte v.attributes)
        (e.1 ++ pad8 (eraseByte v.attributes) e.1.length) v.files with
    | err e => rw [hf] at h; cases h
    | panic => rw [hf] at h; cases h
    | ok body =>
      rw [hf] at h
      simp only [Outcome.ok_bind] at h
      exact ⟨e, body, rfl, hf, h⟩

theorem fillTo_eq (p : UInt8) (b : List UInt8) (c : Option Nat) :
    ∃ k, fillTo p b c = b ++ List.replicate k p ∧ (∀ n, c = some n → (fillTo p b c).length = max n b.length) ∧
      (c = none → k = 0) := by
  cases c with
  | none => exact ⟨0, by simp [fillTo], fun n h => by (cases h), fun _ => rfl⟩
  | some n =>
    refine ⟨n - b.length, rfl, ?_, fun h => by (cases h)⟩
    intro m hm; cases hm; simp [fillTo]; omega

/-- What the extended header part writes. -/
theorem extPart_inv {head : List UInt8} {ext : Option (ExtHdr × List UInt8)} {r : List UInt8 × Nat}
    (hl : r.1.length + 32 < 2 ^ 64) (h : extPart head ext = .ok r) :
    (ext = none ∧ r = (head, 0)) ∨
    ∃ e data hdr, ext = some (e, data) ∧ r.1 = head ++ (hdr ++ (leBytes 16 e.name ++ (leBytes 4 e.size ++ data))) ∧
      r.2 = head.length + hdr.length ∧ 20 + data.length < 2 ^ 32 ∧ 24 ≤ hdr.length := by
  cases ext with
  | none => simp only [extPart] at h; cases h; exact Or.inl ⟨rfl, rfl⟩
  | some ed =>
    obtain ⟨e, data⟩ := ed
    right
    simp only [extPart] at h
    split at h
    · rename_i hlt
      generalize hc : leBytes 16 e.name ++ (leBytes 4 e.size ++ data) = content at *
      have hcl : content.length = 20 + data.length := by rw [← hc]; simp; omega
      have hs := padFile_serialize content
      rw [hs] at h
      simp only [Outcome.ok_bind] at h
      obtain ⟨n, hn1, hn2, hn3⟩ := content_offset_correct _ _ hs
      rw [hn1] at h
      simp only [Outcome.ok_bind] at h
      injection h with h
      have hcl2 : contentLoop [] (padFile content).sections = .ok content := by
        simp [padFile, contentLoop, Section.serialize, Section.isDirty, SecHdr.serialize]
      rw [hcl2] at hn3
      injection hn3 with hn3
      have : n = ((padFile content).header content).length := by
        have := congrArg List.length hn3
        rw [List.length_drop, List.length_append] at this
        rw [List.length_append] at hn2
        omega
      subst h
      refine ⟨e, data, (padFile content).header content, rfl, by rw [hc], by rw [this], by omega, ?_⟩
      rw [header_length]; split <;> omega
    · cases h

/-- C39. Whenever a volume that the format can express is serialised successfully, for every list of files,
attributes, alignments, block map, extended header and capacity: the result parses as a volume with the same GUID,
attributes, block map and extended header, and its stated length is the length of the result; every file is in it,
behind the headers and behind the files before it, at a multiple of 8 and with its content at a multiple of the
alignment its attributes ask for; listing the files of the parsed volume gives exactly these files, padding files
aside, in the same order and with no error. With a fixed capacity the result has exactly this size unless the
contents need more. (Byte vectors in Rust are shorter than 2^63.) -/
theorem volume_roundtrip (v : Volume) (hv : v.Expressible) (bytes : List UInt8) (h : v.serialize = .ok bytes)
    (hlen : bytes.length < 2 ^ 63) :
    ∃ ref rs lo, VolumeRef.new bytes = .ok ref ∧ ref.data = bytes ∧ ref.guid = v.guid ∧
      ref.attributes = v.attributes ∧ ref.blockMap = v.blockMap ∧ ref.length = bytes.length ∧ ref.revision = 2 ∧
      ref.extHeader = .ok v.ext ∧
      56 + 8 * (v.blockMap.length + 1) ≤ lo ∧ (∀ e data, v.ext = some (e, data) → ref.extOffset + e.size ≤ lo) ∧
      PlacedFrom bytes lo v.files rs ∧
      (∃ enough, ∀ fuel, enough ≤ fuel →
        ref.files fuel = some (.ok ((rs.filter (·.fileType != 0xF0)).map Except.ok))) ∧
      (∀ n, v.capacity = some n → n ≤ bytes.length) := by
  obtain ⟨e, body, h1, h2, h3⟩ := volume_inv h
  generalize hhead : volumeHeader v.guid v.attributes 0 0 0 0 ++ blockBytes v.blockMap = head at *
  have hheadlen : head.length = 56 + (blockBytes v.blockMap).length := by
    rw [← hhead, List.length_append, volumeHeader_length]
  have hbb := blockBytes_length v.blockMap
  obtain ⟨k, hfill, hcap, _⟩ := fillTo_eq (eraseByte v.attributes) body v.capacity
  unfold finish at h3
  split at h3
  · rename_i hfit
    obtain ⟨hf1, hf2, hf3⟩ := hfit
    simp only [] at h3
    injection h3 with h3
    generalize hbuf : fillTo (eraseByte v.attributes) body v.capacity = buf at *
    have h56 : 56 ≤ bytes.length := by rw [← h3, List.length_append, volumeHeader_length]; omega
    -- lengths
    have hbl' : bytes.length = 56 + (buf.length - 56) := by
      rw [← h3, List.length_append, volumeHeader_length, List.length_drop]
    have hblen : body.length ≤ buf.length := by rw [hfill, List.length_append]; omega
    have hbody32 : body.length + 32 < 2 ^ 64 := by omega
    -- monotonicity of the loop gives the length of the start
    have hstartle : (e.1 ++ pad8 (eraseByte v.attributes) e.1.length).length ≤ body.length ∧
        (e.1 ++ pad8 (eraseByte v.attributes) e.1.length).length % 8 = 0 := by
      have hp8 := pad8_length (eraseByte v.attributes) e.1.length
      have h8 : (e.1 ++ pad8 (eraseByte v.attributes) e.1.length).length % 8 = 0 := by
        rw [List.length_append]; exact hp8.1
      obtain ⟨region, rs, hr1, _⟩ := filesLoop_spec (v.guid == FFS3) v.attributes v.files _ body h8 hv.names hbody32 h2
      rw [hr1]
      exact ⟨by rw [List.length_append (bs := region)]; omega, h8⟩
    have he32 : e.1.length + 32 < 2 ^ 64 := by
      have := hstartle.1
      rw [List.length_append] at this; omega
    obtain ⟨region, rs, hr1, hr2, hr3, hr4⟩ :=
      filesLoop_spec (v.guid == FFS3) v.attributes v.files _ body hstartle.2 hv.names hbody32 h2
    -- the part between the header and the files
    have hext := extPart_inv he32 h1
    obtain ⟨mid, hmid⟩ : ∃ mid, e.1 = head ++ mid := by
      rcases hext with ⟨_, hr⟩ | ⟨_, _, _, _, hr, _⟩
      · exact ⟨[], by rw [hr]; simp⟩
      · exact ⟨_, hr⟩
    generalize hpad : pad8 (eraseByte v.attributes) e.1.length = pad at *
    have hbufeq : buf = head ++ (mid ++ (pad ++ (region ++ List.replicate k (eraseByte v.attributes)))) := by
      rw [hfill, hr1, hmid]; simp only [List.append_assoc]
    generalize hrest : mid ++ (pad ++ (region ++ List.replicate k (eraseByte v.attributes))) = rest at *
    have hbuflen : buf.length = head.length + rest.length := by rw [hbufeq, List.length_append]
    have hlb : bytes.length = buf.length := by rw [hbl']; omega
    have htake : buf.take head.length = head := by rw [hbufeq, List.take_left]
    rw [htake] at h3
    have hdrop : buf.drop 56 = blockBytes v.blockMap ++ rest := by
      rw [hbufeq, ← hhead, List.append_assoc]
      exact List.drop_left' (volumeHeader_length ..)
    rw [hdrop, hheadlen] at h3
    generalize hck : (0 - (sum16 head + sum16 (leBytes 8 buf.length) +
      sum16 (leBytes 2 (56 + (blockBytes v.blockMap).length)) + sum16 (leBytes 2 e.2))).toNat = ck at *
    have hg : v.guid < 2 ^ 128 := by rcases hv.guid with h | h <;> rw [h] <;> decide +kernel
    have hsum : sum16 (volumeHeader v.guid v.attributes buf.length (56 + (blockBytes v.blockMap).length) ck e.2 ++
        blockBytes v.blockMap) = 0 := by
      rw [sum16_append _ (by rw [volumeHeader_length]), volumeHeader_sum, ← hck, sum16_leBytes2, ← hhead,
        sum16_append _ (by rw [volumeHeader_length])]
      grind
    have hxl : e.2 ≤ buf.length := by
      rcases hext with ⟨_, hr⟩ | ⟨_, _, hdr, _, hr, hr', _⟩
      · rw [hr]; omega
      · have : e.1.length ≤ body.length := by
          have := hstartle.1
          rw [List.length_append] at this; omega
        rw [hr] at this
        rw [hr']; simp only [List.length_append] at this; omega
    have herr := headerError_none (rest := rest) hv (by omega) hf3 (by omega) hf2 hxl ck hsum
    obtain ⟨f1, f2, f3, f4, f5, f6, f7⟩ := volumeHeader_fields (c := ck) hg hv.attributes hf3
      (h := 56 + (blockBytes v.blockMap).length) (by omega) hf2 (blockBytes v.blockMap ++ rest)
    rw [h3] at herr f1 f2 f3 f4 f5 f6 f7
    have hslice : slice bytes 56 (56 + (blockBytes v.blockMap).length - 56) = blockBytes v.blockMap := by
      rw [← h3, slice_right' (k := 0) (by rw [volumeHeader_length]), slice_self _ _ (by omega)]
    -- everything behind the header
    have hbytes2 : ∀ i, 56 ≤ i → bytes.drop i = buf.drop i := by
      intro i hi
      have : i = 56 + (i - 56) := by omega
      rw [this, ← List.drop_drop, ← List.drop_drop, hdrop]
      congr 1
      rw [← h3]
      exact List.drop_left' (volumeHeader_length ..)
    have hstart : (e.1 ++ pad).length = head.length + (mid.length + pad.length) := by
      rw [hmid]; simp only [List.length_append]; omega
    have hdropStart : bytes.drop (e.1 ++ pad).length = region ++ List.replicate k (eraseByte v.attributes) := by
      rw [hbytes2 _ (by omega), hfill, hr1, List.append_assoc, List.drop_left]
    -- the extended header and the start of the files
    have hextok : ∃ x, parseExt bytes e.2 = .ok x ∧
        filesStart (56 + (blockBytes v.blockMap).length) e.2 x = e.1.length ∧
        (VolumeRef.mk bytes v.guid bytes.length v.attributes 2 e.2 x v.blockMap (e.1 ++ pad).length).extHeader
          = .ok v.ext ∧
        (∀ e' data, v.ext = some (e', data) → e.2 + e'.size = e.1.length) := by
      rcases hext with ⟨hn, hr⟩ | ⟨eh, data, hdr, hs, hr, hr', hd32, hdr24⟩
      · refine ⟨none, ?_, ?_, ?_, ?_⟩
        · rw [hr]; simp [parseExt]
        · rw [hr]; exact hheadlen.symm
        · rw [hn]; rfl
        · rw [hn]; intro _ _ hx; cases hx
      · obtain ⟨hnm, hsz⟩ := hv.ext eh data hs
        have hdropX : bytes.drop e.2 = leBytes 16 eh.name ++ (leBytes 4 eh.size ++ (data ++ (pad ++
            (region ++ List.replicate k (eraseByte v.attributes))))) := by
          rw [hbytes2 _ (by omega), hfill, hr1, hr, hr']
          have : (head ++ (hdr ++ (leBytes 16 eh.name ++ (leBytes 4 eh.size ++ data))) ++ pad ++ region ++
              List.replicate k (eraseByte v.attributes)) = (head ++ hdr) ++ (leBytes 16 eh.name ++ (leBytes 4 eh.size
              ++ (data ++ (pad ++ (region ++ List.replicate k (eraseByte v.attributes)))))) := by
            simp only [List.append_assoc]
          rw [this]
          exact List.drop_left' (by rw [List.length_append])
        have hel : e.1.length = e.2 + (20 + data.length) := by
          rw [hr, hr']; simp only [List.length_append, leBytes_length]; omega
        have hele : e.1.length ≤ bytes.length := by
          have := hstartle.1
          rw [List.length_append] at this; omega
        have r1 : rd bytes e.2 16 = eh.name := by
          unfold rd slice
          rw [hdropX, List.take_left' (by simp), leVal_leBytes_of_lt (by omega)]
        have r2 : rd bytes (e.2 + 16) 4 = eh.size := by
          unfold rd slice
          rw [← List.drop_drop, hdropX, List.drop_left' (by simp), List.take_left' (by simp),
            leVal_leBytes_of_lt (by omega)]
        have r3 : slice bytes (e.2 + 20) (eh.size - 20) = data := by
          unfold slice
          have : e.2 + 20 = e.2 + (16 + 4) := by omega
          rw [this, ← List.drop_drop, hdropX, ← List.drop_drop, List.drop_left' (by simp), List.drop_left' (by simp),
            List.take_left' (by omega)]
        refine ⟨some eh, ?_, ?_, ?_, ?_⟩
        · unfold parseExt
          rw [if_neg (by omega), if_neg (by omega), r1, r2, if_neg (by omega)]
        · unfold filesStart; simp only []; omega
        · unfold VolumeRef.extHeader
          simp only []
          rw [if_neg (by omega), r3, hs]
        · rw [hs]; intro e' d' hx; cases hx; omega
    obtain ⟨x, hx1, hx2, hx3, hx4⟩ := hextok
    have halign : alignedStart e.1.length = .ok (e.1 ++ pad).length := by
      unfold alignedStart
      rw [alignUp8_eq (eraseByte v.attributes) (by omega), hpad, List.length_append]
    have hnew : VolumeRef.new bytes = .ok ⟨bytes, v.guid, bytes.length, v.attributes, 2, e.2, x, v.blockMap,
        (e.1 ++ pad).length⟩ := by
      unfold VolumeRef.new
      rw [herr, f1, f2, f4, f5, f6, f7, hslice]
      simp only [hx1, Outcome.ok_bind, parseBlockMap_bytes hv.blocks hv.someBlocks hv.noTerminator, hx2, halign, hlb]
    have hsle : (e.1 ++ pad).length ≤ bytes.length := by rw [hlb]; have := hstartle.1; omega
    refine ⟨_, rs, (e.1 ++ pad).length, hnew, rfl, rfl, rfl, rfl, rfl, rfl, hx3, by omega, ?_, ?_, ?_, ?_⟩
    · intro e' data he'
      have := hx4 e' data he'
      rw [List.length_append]
      show e.2 + e'.size ≤ _
      omega
    · have hp := hr3 (bytes.take (e.1 ++ pad).length) (List.replicate k (eraseByte v.attributes))
        (by rw [List.length_take]; omega)
      rw [← hdropStart, List.take_append_drop] at hp
      exact hp
    · obtain ⟨items, m, hi1, hi2⟩ := hr4 (bytes.drop (e.1 ++ pad).length) 0
        (List.replicate k (eraseByte v.attributes)) 1 [] (by rw [List.drop_zero, hdropStart]) rfl (Nat.zero_le _)
        (by rw [List.length_drop]; omega) (by
          unfold FIter.drain
          rw [step_erased (it := ⟨bytes.drop (e.1 ++ pad).length, 0 + region.length, eraseByte v.attributes, false⟩)
            (k := k) (tail := []) (by
              simp only []
              rw [hdropStart, Nat.zero_add, List.drop_left]; simp) (Or.inr rfl)])
      refine ⟨1 + m, ?_⟩
      intro fuel hfuel
      obtain ⟨j, rfl⟩ : ∃ j, fuel = 1 + m + j := ⟨fuel - (1 + m), by omega⟩
      unfold VolumeRef.files VolumeRef.iter
      simp only []
      rw [if_neg (by omega)]
      simp only [drain_mono hi1, List.append_nil]
      congr 2
      rw [← hi2, List.filter_map]
      rfl
    · intro n hn
      have := hcap n hn
      rw [hlb]; omega
  · cases h3

end Verif.Ffs
