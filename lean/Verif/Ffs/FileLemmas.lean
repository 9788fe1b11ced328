import Verif.Ffs.FileModel
import Verif.Ffs.SectionProps
namespace Verif.Ffs

theorem byteAt_right {a b : List UInt8} {i k : Nat} (h : i = a.length + k) : byteAt (a ++ b) i = byteAt b k := by
  unfold byteAt
  rw [h, List.drop_append, List.drop_of_length_le (by omega), List.nil_append]
  congr 2; omega

theorem sum8_append (a b : List UInt8) : sum8 (a ++ b) = sum8 a + sum8 b := by
  induction a with
  | nil => simp [sum8]
  | cons x xs ih => simp only [List.cons_append, sum8, ih, UInt8.add_assoc]

theorem forall_u8 {P : UInt8 → Prop} (h : ∀ n : Fin 256, P (UInt8.ofFin n)) (a : UInt8) : P a := by
  have := h a.toFin
  simpa using this

theorem hasChecksum_or (a : UInt8) : hasChecksum (a ||| 0x01) = hasChecksum a :=
  forall_u8 (P := fun a => hasChecksum (a ||| 0x01) = hasChecksum a) (by decide +kernel) a

theorem isLarge_or (a : UInt8) : isLarge (a ||| 0x01) = true :=
  forall_u8 (P := fun a => isLarge (a ||| 0x01) = true) (by decide +kernel) a

theorem stateByte_ok (p : Bool) : stateOk (stateByte p) = true ∧ (stateByte p &&& 0x80 != 0) = p := by
  cases p <;> decide

section header
variable {name : Nat} {ft attrs : UInt8} {size3 ext : List UInt8} {ich icf st : UInt8}

theorem headerBytes_length (h3 : size3.length = 3) :
    (headerBytes name ft attrs size3 ext ich icf st).length = 24 + ext.length := by
  simp [headerBytes, h3]; omega

theorem headerBytes_sum :
    sum8 (headerBytes name ft attrs size3 ext ich icf st)
      = sum8 (headerBytes name ft attrs size3 ext 0 0 0) + ich + icf + st := by
  simp only [headerBytes, sum8_append, sum8, List.cons_append, List.nil_append]
  grind

theorem headerBytes_icf (rest : List UInt8) :
    byteAt (headerBytes name ft attrs size3 ext ich icf st ++ rest) 17 = icf := by
  unfold headerBytes
  rw [List.append_assoc, byteAt_right (k := 1) (by simp)]
  rfl

theorem headerBytes_ft (rest : List UInt8) :
    byteAt (headerBytes name ft attrs size3 ext ich icf st ++ rest) 18 = ft := by
  unfold headerBytes
  rw [List.append_assoc, byteAt_right (k := 2) (by simp)]
  rfl

theorem headerBytes_attrs (rest : List UInt8) :
    byteAt (headerBytes name ft attrs size3 ext ich icf st ++ rest) 19 = attrs := by
  unfold headerBytes
  rw [List.append_assoc, byteAt_right (k := 3) (by simp)]
  rfl

theorem headerBytes_state (h3 : size3.length = 3) (rest : List UInt8) :
    byteAt (headerBytes name ft attrs size3 ext ich icf st ++ rest) 23 = st := by
  unfold headerBytes
  rw [List.append_assoc, byteAt_right (k := 7) (by simp), List.append_assoc,
    byteAt_right (k := 3) (by simp), List.append_assoc, byteAt_right (k := 0) (by simp [h3])]
  rfl

theorem headerBytes_name (hn : name < 2 ^ 128) (rest : List UInt8) :
    rd (headerBytes name ft attrs size3 ext ich icf st ++ rest) 0 16 = name := by
  have := rd_mid (pre := []) (post := ([ich, icf, ft, attrs] ++ (size3 ++ (st :: ext))) ++ rest) (n := 16)
    (v := name) (i := 0) rfl hn
  unfold headerBytes
  rw [List.append_assoc]
  exact this

theorem headerBytes_size {v : Nat} (hv : v < 2 ^ 24) (rest : List UInt8) :
    rd (headerBytes name ft attrs (leBytes 3 v) ext ich icf st ++ rest) 20 3 = v := by
  have : headerBytes name ft attrs (leBytes 3 v) ext ich icf st ++ rest
      = (leBytes 16 name ++ [ich, icf, ft, attrs]) ++ (leBytes 3 v ++ ((st :: ext) ++ rest)) := by
    simp [headerBytes, List.append_assoc]
  rw [this]
  exact rd_mid (by simp) hv

theorem headerBytes_ext {v : Nat} (h3 : size3.length = 3) (hv : v < 2 ^ 64) (rest : List UInt8) :
    rd (headerBytes name ft attrs size3 (leBytes 8 v) ich icf st ++ rest) 24 8 = v := by
  have : headerBytes name ft attrs size3 (leBytes 8 v) ich icf st ++ rest
      = (leBytes 16 name ++ ([ich, icf, ft, attrs] ++ (size3 ++ [st]))) ++ (leBytes 8 v ++ rest) := by
    simp [headerBytes, List.append_assoc]
  rw [this]
  exact rd_mid (by simp [h3]) hv

end header

/-- Parsing a complete header followed by its content and anything else. -/
theorem fileRef_of_header {name : Nat} {ft attrs : UInt8} {pol : Bool} {size3 ext content tail : List UInt8}
    (hn : name < 2 ^ 128) (h3 : size3.length = 3) (he : ext.length = if isLarge attrs then 8 else 0)
    (hsz : ∀ ich icf st rest, fileSize (headerBytes name ft attrs size3 ext ich icf st ++ rest)
      = headerSize attrs + content.length) :
    FileRef.new (headerOf name ft attrs pol size3 ext content ++ (content ++ tail)) =
      if hasChecksum attrs = true ∧ sum8 content ≠ 0 then .err .dataCorrupt
      else .ok ⟨headerOf name ft attrs pol size3 ext content ++ content, name, ft, attrs, pol,
        headerSize attrs + content.length, headerSize attrs⟩ := by
  unfold headerOf
  generalize hich : (0 - sum8 (headerBytes name ft attrs size3 ext 0 0 0)) = ich
  generalize hicf : fileChecksum attrs content = icf
  have hlen : (headerBytes name ft attrs size3 ext ich icf (stateByte pol)).length = headerSize attrs := by
    rw [headerBytes_length h3, he]; unfold headerSize; split <;> rfl
  have hsum := headerBytes_sum (name := name) (ft := ft) (attrs := attrs) (size3 := size3) (ext := ext)
    (ich := ich) (icf := icf) (st := stateByte pol)
  have hs := hsz ich icf (stateByte pol) (content ++ tail)
  have h17 := headerBytes_icf (name := name) (ft := ft) (attrs := attrs) (size3 := size3) (ext := ext)
    (ich := ich) (icf := icf) (st := stateByte pol) (content ++ tail)
  have h18 := headerBytes_ft (name := name) (ft := ft) (attrs := attrs) (size3 := size3) (ext := ext)
    (ich := ich) (icf := icf) (st := stateByte pol) (content ++ tail)
  have h19 := headerBytes_attrs (name := name) (ft := ft) (attrs := attrs) (size3 := size3) (ext := ext)
    (ich := ich) (icf := icf) (st := stateByte pol) (content ++ tail)
  have h23 := headerBytes_state (name := name) (ft := ft) (attrs := attrs) (size3 := size3) (ext := ext)
    (ich := ich) (icf := icf) (st := stateByte pol) h3 (content ++ tail)
  have hnm := headerBytes_name (name := name) (ft := ft) (attrs := attrs) (size3 := size3) (ext := ext)
    (ich := ich) (icf := icf) (st := stateByte pol) hn (content ++ tail)
  generalize headerBytes name ft attrs size3 ext ich icf (stateByte pol) = H at *
  have hH : 24 ≤ headerSize attrs := by unfold headerSize; split <;> omega
  unfold FileRef.new
  rw [h19, hs, h23, h17, h18, hnm]
  rw [if_neg (by simp; omega)]
  have hl : (isLarge attrs && decide ((H ++ (content ++ tail)).length < 32)) = false := by
    cases hL : isLarge attrs with
    | false => rfl
    | true =>
      have : headerSize attrs = 32 := by simp [headerSize, hL]
      simp; omega
  rw [hl, if_neg (by simp), if_neg (by simp; omega), (stateByte_ok pol).1, if_neg (by simp)]
  have htk : (H ++ (content ++ tail)).take (headerSize attrs) = H := by
    rw [← hlen]; simp
  rw [htk, hsum, ← hich]
  have hz : sum8 (headerBytes name ft attrs size3 ext 0 0 0) + (0 - sum8 (headerBytes name ft attrs size3 ext 0 0 0))
      + icf + stateByte pol - stateByte pol - icf = 0 := by grind
  rw [hz, if_neg (by simp)]
  have htake : (H ++ (content ++ tail)).take (headerSize attrs + content.length) = H ++ content := by
    rw [← hlen, ← List.append_assoc, ← List.length_append, List.take_left]
  have hsl : slice (H ++ (content ++ tail)) (headerSize attrs) (headerSize attrs + content.length - headerSize attrs)
      = content := by
    rw [slice_right' (k := 0) (by omega), slice_self _ _ (by omega)]
  have hlt : ¬ headerSize attrs + content.length < headerSize attrs := by omega
  unfold dataCheck
  rw [h17, hsl, ← hicf, (stateByte_ok pol).2, htake]
  cases hck : hasChecksum attrs with
  | true =>
    simp only [if_true, true_and, if_neg hlt]
    by_cases h0 : sum8 content ≠ 0
    · rw [if_pos h0, if_pos h0]; rfl
    · rw [if_neg h0, if_neg h0]; rfl
  | false =>
    simp [fileChecksum, hck]

/-- The parsed form of a serialised file. -/
theorem fileRef_of_file {f : File} {content tail : List UInt8} (hn : f.name < 2 ^ 128)
    (hc : content.length + 32 < 2 ^ 64) :
    FileRef.new (f.header content ++ (content ++ tail)) =
      if hasChecksum f.attrs = true ∧ sum8 content ≠ 0 then .err .dataCorrupt
      else .ok ⟨f.header content ++ content, f.name, f.fileType,
        if f.usesLarge content then f.attrs ||| 0x01 else f.attrs, f.polarity,
        (f.header content ++ content).length, if f.usesLarge content then 32 else 24⟩ := by
  cases hu : f.usesLarge content with
  | true =>
    have hL := isLarge_or f.attrs
    have hhs : headerSize (f.attrs ||| 0x01) = 32 := by simp [headerSize, hL]
    have hh : f.header content = headerOf f.name f.fileType (f.attrs ||| 0x01) f.polarity [0, 0, 0]
        (leBytes 8 (32 + content.length)) content := by simp only [File.header, hu, if_true]
    rw [hh]
    rw [fileRef_of_header hn rfl (by simp [hL]) (by
      intro ich icf st rest
      unfold fileSize
      rw [headerBytes_attrs, hL, hhs]
      simp only [if_true]
      exact headerBytes_ext rfl (by omega) rest)]
    rw [hasChecksum_or, hhs]
    have : (headerOf f.name f.fileType (f.attrs ||| 0x01) f.polarity [0, 0, 0]
        (leBytes 8 (32 + content.length)) content ++ content).length = 32 + content.length := by
      rw [List.length_append]; unfold headerOf; rw [headerBytes_length rfl]; simp
    rw [this]; rfl
  | false =>
    have hu' := hu
    unfold File.usesLarge at hu'
    simp only [Bool.or_eq_false_iff, decide_eq_false_iff_not] at hu'
    obtain ⟨hL, hcl⟩ := hu'
    have hhs : headerSize f.attrs = 24 := by simp [headerSize, hL]
    have hh : f.header content = headerOf f.name f.fileType f.attrs f.polarity (leBytes 3 (24 + content.length))
        [] content := by simp only [File.header, hu]; rfl
    rw [hh]
    rw [fileRef_of_header hn (by simp) (by simp [hL]) (by
      intro ich icf st rest
      unfold fileSize
      rw [headerBytes_attrs, hL, hhs]
      simp only [Bool.false_eq_true, if_false]
      exact headerBytes_size (by omega) rest)]
    rw [hhs]
    have : (headerOf f.name f.fileType f.attrs f.polarity (leBytes 3 (24 + content.length)) [] content
        ++ content).length = 24 + content.length := by
      rw [List.length_append]; unfold headerOf; rw [headerBytes_length (by simp)]; simp
    rw [this]; rfl

/-! ### The section list of a file -/

theorem pad4_length (n : Nat) : (n + (pad4 n).length) % 4 = 0 ∧ (pad4 n).length < 4 := by
  unfold pad4
  split
  · simp; omega
  · simp; omega

/-- Iterating over the sections written by the loop gives them back. -/
theorem drain_contentLoop (dbg : Bool) (ss : List Section) :
    ∀ (acc : List UInt8) (content : List UInt8) (fuel : Nat),
      (∀ s ∈ ss, s.Good) → acc.length % 4 = 0 → contentLoop acc ss = .ok content →
      content.length + 8 < 2 ^ 64 → content.length + 1 < acc.length + fuel →
      acc.length ≤ content.length ∧ (∃ r, content = acc ++ r) ∧
      SIter.drain dbg fuel ⟨content, acc.length, false⟩
        = some (.ok (ss.map fun s => .ok s.plain)) := by
  induction ss with
  | nil =>
    intro acc content fuel hg ha hc hl hf
    simp only [contentLoop] at hc
    cases hc
    refine ⟨Nat.le_refl _, ⟨[], by simp⟩, ?_⟩
    cases fuel with
    | zero => omega
    | succ fuel =>
      unfold SIter.drain SIter.step
      simp
  | cons s rest ih =>
    intro acc content fuel hg ha hc hl hf
    obtain ⟨b, hb, hsz, h4, h32, hparse⟩ := good_section_roundtrip dbg s (hg s (List.mem_cons_self ..))
    have hstep : ∀ tail, content = acc ++ (b ++ tail) → ∃ a, (b.length ≤ a ∧ a % 4 = 0 ∧ a < b.length + 4) ∧
        SIter.step dbg ⟨content, acc.length, false⟩ = .item (.ok s.plain) ⟨content, acc.length + a, false⟩ := by
      intro tail ht
      have hdrop : content.drop acc.length = b ++ tail := by rw [ht]; simp
      obtain ⟨a, ha1, ha4, hta, hm, hlt⟩ := parse_panic_or (hparse tail) (by
        rw [← hdrop]; simp; omega) ⟨content, acc.length, false⟩
      have hts : s.plain.hdr.totalSize = b.length := by
        have hd := (hg s (List.mem_cons_self ..)).1
        unfold Section.size at hsz
        rw [hd] at hsz
        simp only [Bool.false_eq_true, if_false] at hsz
        injection hsz
      refine ⟨a, ⟨by omega, hm, by omega⟩, ?_⟩
      unfold SIter.step
      simp only [Bool.false_eq_true, if_false]
      rw [if_neg (by rw [ht]; simp; omega), hdrop, hparse tail]
      exact ha1
    cases rest with
    | nil =>
      simp only [contentLoop, hb, Outcome.ok_bind] at hc
      cases hc
      refine ⟨by simp, ⟨b, rfl⟩, ?_⟩
      obtain ⟨a, ⟨h1, h2, h3⟩, hst⟩ := hstep [] (by simp)
      match fuel, hf with
      | 0, hf => simp at hf; omega
      | 1, hf => simp at hf; omega
      | fuel + 2, hf =>
        unfold SIter.drain
        rw [hst]
        simp only
        have : SIter.drain dbg (fuel + 1) ⟨acc ++ b, acc.length + a, false⟩ = some (.ok []) := by
          unfold SIter.drain SIter.step
          simp only [Bool.false_eq_true, if_false]
          rw [if_pos (by simp; omega)]
        rw [this]; rfl
    | cons t rest =>
      simp only [contentLoop, hb, Outcome.ok_bind] at hc
      have hp := pad4_length (acc ++ b).length
      generalize pad4 (acc ++ b).length = P at *
      rw [List.length_append] at hp
      have hacc : ((acc ++ b) ++ P).length = acc.length + (b.length + P.length) := by
        rw [List.length_append, List.length_append]; omega
      cases fuel with
      | zero =>
        exfalso
        have := (ih ((acc ++ b) ++ P) content (content.length + 2)
          (fun x hx => hg x (List.mem_cons_of_mem _ hx)) (by omega) hc hl (by omega)).1
        omega
      | succ fuel =>
        obtain ⟨i1, ⟨r, i2⟩, i3⟩ := ih ((acc ++ b) ++ P) content fuel
          (fun x hx => hg x (List.mem_cons_of_mem _ hx)) (by omega) hc hl (by omega)
        refine ⟨by omega, ⟨b ++ (P ++ r), by rw [i2]; simp [List.append_assoc]⟩, ?_⟩
        obtain ⟨a, ⟨h1, h2, h3⟩, hst⟩ := hstep (P ++ r) (by rw [i2]; simp [List.append_assoc])
        have hla : acc.length + a = ((acc ++ b) ++ P).length := by omega
        unfold SIter.drain
        rw [hst]
        simp only
        rw [hla, i3]
        rfl

theorem collect_map_ok {α : Type} (xs : List α) : collect (xs.map fun x => .ok x) = .ok xs := by
  induction xs with
  | nil => rfl
  | cons x xs ih => simp only [List.map_cons, collect, ih]; rfl

theorem sectionList_content {dbg : Bool} {ss : List Section} {content : List UInt8} (hg : ∀ s ∈ ss, s.Good)
    (hc : contentLoop [] ss = .ok content) (hl : content.length + 8 < 2 ^ 64) :
    sectionList dbg content = .ok (ss.map Section.plain) := by
  obtain ⟨_, _, h3⟩ := drain_contentLoop dbg ss [] content (content.length + 2) hg rfl hc hl (by simp)
  unfold sectionList
  have : (⟨content, ([] : List UInt8).length, false⟩ : SIter) = ⟨content, 0, false⟩ := rfl
  rw [this] at h3
  rw [h3]
  have := collect_map_ok (ss.map Section.plain)
  rw [List.map_map] at this
  exact this

theorem contentLoop_ok {ss : List Section} (hg : ∀ s ∈ ss, s.isDirty = false) (acc : List UInt8) :
    ∃ c, contentLoop acc ss = .ok c := by
  induction ss generalizing acc with
  | nil => exact ⟨acc, rfl⟩
  | cons s rest ih =>
    have hs : ∃ b, s.serialize = .ok b := by
      unfold Section.serialize; rw [hg s (List.mem_cons_self ..)]; exact ⟨_, rfl⟩
    obtain ⟨b, hb⟩ := hs
    cases rest with
    | nil => exact ⟨acc ++ b, by simp [contentLoop, hb]⟩
    | cons t rest =>
      obtain ⟨c, hc⟩ := ih (fun x hx => hg x (List.mem_cons_of_mem _ hx)) ((acc ++ b) ++ pad4 (acc ++ b).length)
      exact ⟨c, by simp only [contentLoop, hb, Outcome.ok_bind, hc]⟩

end Verif.Ffs
