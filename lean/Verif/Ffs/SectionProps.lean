import Verif.Ffs.SectionLemmas
/-!
Properties of sections: round trip (C37) and robustness of parsing (C40).
-/
namespace Verif.Ffs

theorem serialize_length {h : SecHdr} (hw : h.serialize ≠ []) :
    h.serialize.length = (if h.plainTotal < 0x1000000 then 4 else 8) + h.extra.length := by
  have e : h.serialize = SecHdr.serializeWith h.ty h.extra h.contentSize := by
    cases h with
    | pad n => exact (hw rfl).elim
    | _ => rfl
  rw [e]
  unfold SecHdr.plainTotal
  split
  · rename_i hs; rw [serializeWith_small hs]; simp; omega
  · rename_i hs; rw [serializeWith_big hs]; simp; omega

/-- C37. Building a section from a header and content gives a section with that header and content.
Its serialisation is as long as the size it reports, and parsing it, whatever bytes follow, gives the same
section back. It holds for every variant and every content length whose total size fits 32 bits, except the
one length at which the plain total size is 0xFFFFFF (see `size_ffffff_broken`). -/
theorem section_roundtrip_partial (dbg : Bool) (h : SecHdr) (data tail : List UInt8) (hw : h.WF)
    (hl : data.length = h.contentSize) (ht : h.totalSize < 2 ^ 32) (hne : h.plainTotal ≠ 0xFFFFFF) :
    ∃ s, newFromHeader dbg h data = .ok s ∧ s.hdr = h ∧ s.content = .ok data ∧
      s.encap = h.encapsulates ∧
      ∃ bytes, s.serialize = .ok bytes ∧ s.size = .ok bytes.length ∧ parse dbg (bytes ++ tail) = .ok s := by
  have hp : newFromHeader dbg h data = parse dbg (h.serialize ++ (data ++ [])) := by
    cases h with
    | pad n => exact hw.2.elim
    | _ => simp [newFromHeader]
  have hd : (Section.mk h data h.encapsulates false false []).isDirty = false :=
    clean_isDirty _ _ _ _ (fun _ => rfl)
  refine ⟨⟨h, data, h.encapsulates, false, false, []⟩, hp.trans (parse_serialize hw hl ht hne), rfl, ?_, rfl,
    h.serialize ++ data, ?_, ?_, ?_⟩
  · unfold Section.content; rw [hd]; rfl
  · unfold Section.serialize; rw [hd]; rfl
  · unfold Section.size; rw [hd]
    simp [SecHdr.totalSize, SecHdr.contentOffset, hl]
  · rw [List.append_assoc]; exact parse_serialize hw hl ht hne

/-- C37, for a section that already exists, however it came about (composed, extracted, modified). -/
theorem good_section_roundtrip (dbg : Bool) (s : Section) (hg : s.Good) :
    ∃ bytes, s.serialize = .ok bytes ∧ s.size = .ok bytes.length ∧ 4 ≤ bytes.length ∧ bytes.length < 2 ^ 32 ∧
      ∀ tail, parse dbg (bytes ++ tail) = .ok s.plain := by
  obtain ⟨hd, hw, hl, ht, hne⟩ := hg
  have hne' : s.hdr.serialize ≠ [] := by
    rw [serialize_eq hw]
    by_cases hs : 4 + s.hdr.extra.length + s.hdr.contentSize < 0x1000000
    · rw [serializeWith_small hs]; simp
    · rw [serializeWith_big hs]; simp
  have hlen : (s.hdr.serialize ++ s.data).length = s.hdr.totalSize := by
    simp [SecHdr.totalSize, SecHdr.contentOffset, hl]
  refine ⟨s.hdr.serialize ++ s.data, ?_, ?_, ?_, by omega, ?_⟩
  · unfold Section.serialize; rw [hd]; rfl
  · unfold Section.size; rw [hd, hlen]; rfl
  · rw [List.length_append, serialize_length hne']; split <;> omega
  · intro tail
    rw [List.append_assoc]
    exact parse_serialize hw hl ht hne

/-- The hypotheses are met by a GUID-defined section with vendor data, and by a section that needs the
extended header. -/
example : (SecHdr.guidDefined 5 (4 + 20 + 3) 1 [1, 2, 3] 2).WF ∧
    (SecHdr.guidDefined 5 (4 + 20 + 3) 1 [1, 2, 3] 2).plainTotal ≠ 0xFFFFFF ∧
    (SecHdr.standard 0x19 0x2000000).WF ∧ (SecHdr.standard 0x19 0x2000000).totalSize = 0x2000008 ∧
    (SecHdr.guidDefined 5 (8 + 20) 0 [] 0x2000000).WF := by
  have e : ∀ n, (SecHdr.standard 0x19 n).serialize = SecHdr.serializeWith 0x19 [] n := fun _ => rfl
  have e' : (SecHdr.guidDefined 5 (8 + 20) 0 [] 0x2000000).serialize
      = SecHdr.serializeWith 0x02 (SecHdr.guidDefined 5 (8 + 20) 0 [] 0x2000000).extra 0x2000000 := rfl
  refine ⟨⟨by decide, by decide, by decide, by decide, by decide⟩, by decide, ⟨by decide, by decide⟩, ?_, by decide, by decide, by decide, by decide, ?_⟩
  · unfold SecHdr.totalSize SecHdr.contentOffset
    rw [e, serializeWith_big (by decide)]; rfl
  · unfold SecHdr.contentOffset
    rw [e', serializeWith_big (by decide)]; rfl

/-- C37, the layout itself: byte 3 of a serialised section is its type; the 3-byte size field is the length of
the whole section, or all ones with the length in the following four bytes. -/
theorem section_layout (dbg : Bool) (h : SecHdr) (data : List UInt8) (hw : h.WF)
    (hl : data.length = h.contentSize) (ht : h.totalSize < 2 ^ 32) (hne : h.plainTotal ≠ 0xFFFFFF) :
    ∃ s bytes, newFromHeader dbg h data = .ok s ∧ s.serialize = .ok bytes ∧
      bytes[3]? = some h.ty ∧
      (if bytes.length < 0xFFFFFF then leVal (bytes.take 3) = bytes.length
       else leVal (bytes.take 3) = 0xFFFFFF ∧ leVal ((bytes.drop 4).take 4) = bytes.length) := by
  obtain ⟨s, h1, h2, h3, h4, bytes, h5, h6, h7⟩ := section_roundtrip_partial dbg h data [] hw hl ht hne
  refine ⟨s, bytes, h1, h5, ?_⟩
  have hb : bytes = h.serialize ++ data := by
    have hp : newFromHeader dbg h data = parse dbg (h.serialize ++ (data ++ [])) := by
      cases h with
      | pad n => exact hw.2.elim
      | _ => simp [newFromHeader]
    rw [parse_serialize hw hl ht hne] at hp
    rw [hp] at h1
    cases h1
    unfold Section.serialize at h5
    rw [clean_isDirty _ _ _ _ (fun _ => rfl)] at h5
    simp only [Bool.false_eq_true, if_false] at h5
    cases h5; rfl
  subst hb
  have hser := serialize_eq hw
  unfold SecHdr.totalSize SecHdr.contentOffset at ht
  unfold SecHdr.plainTotal at hne
  by_cases hs : 4 + h.extra.length + h.contentSize < SecHdr.MAX_STD
  · have hse : h.serialize = leBytes 3 (4 + h.extra.length + h.contentSize) ++ (h.ty :: h.extra) := by
      rw [hser]; simp only [SecHdr.serializeWith]; rw [if_pos hs]
    have hm : SecHdr.MAX_STD = 0x1000000 := rfl
    have hlen : (h.serialize ++ data).length = 4 + h.extra.length + h.contentSize := by
      rw [hse]; simp [hl]; omega
    constructor
    · rw [hse]; simp
    · rw [hlen, if_pos (by omega), hse, List.append_assoc, List.take_append_of_le_length (by simp),
        List.take_of_length_le (by simp), leVal_leBytes_of_lt (by omega)]
  · have hm : SecHdr.MAX_STD = 0x1000000 := rfl
    have hse : h.serialize = [0xff, 0xff, 0xff, h.ty] ++
        (leBytes 4 ((4 + h.extra.length + h.contentSize) % 2 ^ 32 + 4) ++ h.extra) := by
      rw [hser]; simp only [SecHdr.serializeWith]; rw [if_neg hs]
    have hlen : (h.serialize ++ data).length = 8 + h.extra.length + h.contentSize := by
      rw [hse]; simp [hl]; omega
    rw [hse] at ht
    simp only [List.length_append, leBytes_length, List.length_cons, List.length_nil] at ht
    constructor
    · rw [hse]; rfl
    · rw [hlen, if_neg (by omega)]
      refine ⟨by rw [hse]; simp [leVal], ?_⟩
      rw [hse]
      have : ((([0xff, 0xff, 0xff, h.ty] ++ (leBytes 4 ((4 + h.extra.length + h.contentSize) % 2 ^ 32 + 4) ++ h.extra)) ++ data).drop 4).take 4
          = leBytes 4 ((4 + h.extra.length + h.contentSize) % 2 ^ 32 + 4) := by
        simp only [List.cons_append, List.nil_append, List.drop_succ_cons, List.drop_zero]
        rw [List.append_assoc, List.take_append_of_le_length (by simp), List.take_of_length_le (by simp)]
      rw [this, leVal_leBytes, Nat.mod_eq_of_lt (a := 4 + _ + _) (by omega), Nat.mod_eq_of_lt (by omega)]
      omega

/-- C37. Re-serialising a parsed section reproduces exactly the bytes it was parsed from, and reports as its
size the number of these bytes, unless the input used an extended header for a section smaller than
0x1000004 bytes (see `small_extended_broken`). -/
theorem parsed_section_bytes (dbg : Bool) (b : List UInt8) (s : Section) (h : parse dbg b = .ok s)
    (hx : ¬ (b.take 3 = [0xff, 0xff, 0xff] ∧ leVal ((b.drop 4).take 4) < 0x1000004)) :
    ∃ n, s.size = .ok n ∧ n ≤ b.length ∧ s.serialize = .ok (b.take n) ∧
      n = (if b.take 3 = [0xff, 0xff, 0xff] then leVal ((b.drop 4).take 4) else leVal (b.take 3)) := by
  obtain ⟨c, h4, hdo, hsz, hs, hty, hc, hex, hsize, hfit⟩ := parse_inv h
  have hd : s.isDirty = false := by rw [hs]; exact clean_isDirty _ _ _ _ (fun _ => rfl)
  have hnp : s.hdr.serialize = SecHdr.serializeWith s.hdr.ty s.hdr.extra s.hdr.contentSize := by
    cases hh : s.hdr with
    | pad n => rw [hh] at hfit; exact hfit.2.elim
    | _ => rfl
  have hdata : s.data = slice b c (sizeField b - c) := by rw [hs]
  have hcl : c ≤ sizeField b := by omega
  have hsf : sizeField b =
      (if b.take 3 = [0xff, 0xff, 0xff] then leVal ((b.drop 4).take 4) else leVal (b.take 3)) := by
    unfold sizeField isExt rd slice
    simp
  have hser : s.hdr.serialize = b.take c := by
    rw [hnp]
    by_cases he : b.take 3 = [0xff, 0xff, 0xff]
    · have hext : isExt b = true := by simp [isExt, slice, he]
      have hoff : dataOff b = 8 := by unfold dataOff; rw [hext]; rfl
      rw [if_pos he] at hsf
      have hbig : 0x1000004 ≤ sizeField b := by
        rw [hsf]
        exact Nat.le_of_not_lt fun hh => hx ⟨he, hh⟩
      have hlt : sizeField b < 2 ^ 32 := by
        have : sizeField b = rd b 4 4 := by unfold sizeField; rw [hext]; rfl
        rw [this]; exact rd_lt b 4 4
      rw [hoff] at hc hex hdo
      rw [serializeWith_big (by omega)]
      have e1 : (4 + s.hdr.extra.length + s.hdr.contentSize) % 2 ^ 32 + 4 = sizeField b := by
        rw [Nat.mod_eq_of_lt (by omega)]; omega
      have e2 : leBytes 4 (sizeField b) = slice b 4 4 := by
        have : sizeField b = rd b 4 4 := by unfold sizeField; rw [hext]; rfl
        rw [this]; exact leBytes_rd (by omega)
      have e3 : ([0xff, 0xff, 0xff, s.hdr.ty] : List UInt8) = slice b 0 4 := by
        rw [hty]
        match b, h4, he with
        | b0 :: b1 :: b2 :: b3 :: bs, _, he =>
          simp [List.take_succ_cons] at he
          simp [slice, he]
      rw [e1, e2, e3, hex, slice_add' (i := 4) (j := 8) (k := 4 + s.hdr.extra.length) rfl rfl,
        slice_add' (i := 0) (j := 4) (k := c) rfl (by omega), slice_zero]
    · have hext : isExt b = false := by simp [isExt, slice, he]
      have hoff : dataOff b = 4 := by unfold dataOff; rw [hext]; rfl
      rw [hoff] at hc hex hdo
      have hsr : sizeField b = rd b 0 3 := by unfold sizeField; rw [hext]; rfl
      have hlt : sizeField b < 0x1000000 := by
        rw [hsr]; exact rd_lt b 0 3
      rw [serializeWith_small (by omega)]
      have e1 : 4 + s.hdr.extra.length + s.hdr.contentSize = sizeField b := by omega
      have e2 : leBytes 3 (sizeField b) = slice b 0 3 := by
        rw [hsr]; exact leBytes_rd (by omega)
      have e3 : (s.hdr.ty :: s.hdr.extra) = slice b 3 1 ++ slice b 4 s.hdr.extra.length := by
        rw [← hex, hty]
        match b, h4 with
        | b0 :: b1 :: b2 :: b3 :: bs, _ => simp [slice]
      rw [e1, e2, e3, slice_add' (i := 3) (j := 4) (k := 1 + s.hdr.extra.length) rfl rfl,
        slice_add' (i := 0) (j := 3) (k := c) rfl (by omega), slice_zero]
  refine ⟨sizeField b, ?_, hsz, ?_, hsf⟩
  · unfold Section.size; rw [hd]
    simp only [Bool.false_eq_true, if_false]
    unfold SecHdr.totalSize SecHdr.contentOffset
    rw [hser]
    congr 1
    rw [List.length_take, Nat.min_eq_left (by omega)]
    omega
  · unfold Section.serialize; rw [hd]
    simp only [Bool.false_eq_true, if_false]
    rw [hser, hdata, ← slice_zero, slice_add' (i := 0) (j := c) (k := sizeField b) (by omega) (by omega), slice_zero]

/-- Finding. A section whose plain total size is exactly 0xFFFFFF serialises with a size field that reads as
"extended header follows": building one from content that starts with four zero bytes fails. -/
theorem size_ffffff_broken (data : List UInt8) (hl : data.length = 0xFFFFFB)
    (h0 : data.take 4 = [0, 0, 0, 0]) :
    (SecHdr.standard 0x19 data.length).WF ∧
    newFromHeader false (.standard 0x19 data.length) data = .err .invalidHeader := by
  refine ⟨⟨?_, (by decide : (0x19 : UInt8) ≠ 1 ∧ (0x19 : UInt8) ≠ 2 ∧ (0x19 : UInt8) ≠ 0x14 ∧ (0x19 : UInt8) ≠ 0x18)⟩, ?_⟩
  · show data.length < _; omega
  have e : (SecHdr.standard 0x19 data.length).serialize = [0xff, 0xff, 0xff, 0x19] := by
    rw [hl]; decide
  show parse false ((SecHdr.standard 0x19 data.length).serialize ++ data) = _
  rw [e]
  have hext : isExt ([0xff, 0xff, 0xff, 0x19] ++ data) = true := by simp [isExt, slice]
  have hsz : sizeField ([0xff, 0xff, 0xff, 0x19] ++ data) = 0 := by
    unfold sizeField; rw [hext]
    simp only [if_true, rd, slice, List.cons_append, List.nil_append, List.drop_succ_cons, List.drop_zero, h0]
    rfl
  have hdo : dataOff ([0xff, 0xff, 0xff, 0x19] ++ data) = 8 := by unfold dataOff; rw [hext]; rfl
  unfold parse
  rw [if_neg (by simp), hext, hsz, hdo]
  have : (true && decide (([0xff, 0xff, 0xff, 0x19] ++ data).length < 8)) = false := by simp [hl]
  rw [this]
  simp only [Bool.false_eq_true, if_false]
  rw [if_neg (by omega)]
  have hlen : 8 ≤ ([0xff, 0xff, 0xff, 0x19] ++ data).length := by simp [hl]
  have hph : parseHdr false ([0xff, 0xff, 0xff, 0x19] ++ data) 0 8 0x19 = .err .invalidHeader := by
    show parseFixed false ([0xff, 0xff, 0xff, 0x19] ++ data) 0 8 0 (.standard 0x19) = _
    unfold parseFixed
    rw [if_neg (by omega)]; rfl
  show (parseHdr false ([0xff, 0xff, 0xff, 0x19] ++ data) 0 8 0x19 >>= _) = _
  rw [hph]; rfl

/-- Finding. A section given with an extended header although it is small parses, but then reports a size four
bytes too small and serialises to other bytes; the section iterator therefore continues at the wrong place. -/
theorem small_extended_broken :
    let b : List UInt8 := [0xff, 0xff, 0xff, 0x19, 12, 0, 0, 0, 1, 2, 3, 4]
    ∃ s, parse false b = .ok s ∧ s.size = .ok 8 ∧ s.serialize = .ok [8, 0, 0, 0x19, 1, 2, 3, 4] := by
  refine ⟨⟨.standard 0x19 4, [1, 2, 3, 4], false, false, false, []⟩, rfl, ?_, ?_⟩ <;>
    simp [Section.size, Section.serialize, Section.isDirty] <;> decide

/-- C40, sections. In release builds parsing any byte string returns, except for exactly one kind of input: a
complete GUID-defined header whose data offset points inside the header itself, on which it panics. -/
theorem parse_panics_iff (b : List UInt8) :
    parse false b = .panic ↔
      let off := if b.take 3 = [0xff, 0xff, 0xff] then 8 else 4
      let dataOffset := leVal ((b.drop (off + 16)).take 2)
      b[3]? = some 0x02 ∧ sizeField b ≤ b.length ∧ off + 20 ≤ b.length ∧ dataOffset < off + 20 := by
  have hoff : (if b.take 3 = [0xff, 0xff, 0xff] then 8 else 4) = dataOff b := by
    unfold dataOff isExt slice; simp
  have hdo : dataOff b = 4 ∨ (dataOff b = 8 ∧ isExt b = true) := by
    unfold dataOff; split <;> simp_all
  have hfix : ∀ n mk, parseFixed false b (sizeField b) (dataOff b) n mk ≠ .panic := by
    intro n mk h
    unfold parseFixed contentSizeOf at h
    split at h
    · cases h
    · split at h
      · cases h
      · split at h <;> cases h
  simp only [hoff]
  have hrd : leVal ((b.drop (dataOff b + 16)).take 2) = rd b (dataOff b + 16) 2 := rfl
  rw [hrd]
  constructor
  · intro h
    unfold parse at h
    split at h
    · cases h
    · split at h
      · cases h
      · split at h
        · cases h
        · rename_i h1 h2 h3
          cases hr : parseHdr false b (sizeField b) (dataOff b) ((b.drop 3).headD 0) with
          | ok r => rw [hr] at h; cases h
          | err e => rw [hr] at h; cases h
          | panic =>
            unfold parseHdr at hr
            split at hr
            · exact (hfix _ _ hr).elim
            · split at hr
              · rename_i ht
                unfold parseGuid at hr
                simp only at hr
                split at hr
                · cases hr
                · split at hr
                  · cases hr
                  · split at hr
                    · refine ⟨?_, by omega, by omega, by assumption⟩
                      match b, h1, ht with
                      | b0 :: b1 :: b2 :: b3 :: bs, _, ht => simpa using ht
                    · exfalso
                      unfold contentSizeOf at hr
                      split at hr
                      · cases hr
                      · split at hr <;> cases hr
              · split at hr
                · exact (hfix _ _ hr).elim
                · split at hr
                  · exact (hfix _ _ hr).elim
                  · exact (hfix _ _ hr).elim
  · rintro ⟨h1, h2, h3, h4⟩
    have hlen : 4 ≤ b.length := by omega
    have hty : (b.drop 3).headD 0 = 0x02 := by
      match b, hlen, h1 with
      | b0 :: b1 :: b2 :: b3 :: bs, _, h1 => simpa using h1
    unfold parse
    rw [if_neg (by omega)]
    have : (isExt b && decide (b.length < 8)) = false := by
      cases isExt b
      · rfl
      · simp; omega
    rw [this, if_neg (by simp), if_neg (by omega), hty]
    have : parseHdr false b (sizeField b) (dataOff b) 0x02 = .panic := by
      show parseGuid false b (sizeField b) (dataOff b) = .panic
      unfold parseGuid
      simp only
      rw [if_neg (by omega), if_neg (by omega), if_pos h4]
    rw [this]; rfl

/-- Such an input, 24 bytes long. -/
example : parse false (24 :: 0 :: 0 :: 2 :: List.replicate 20 0) = .panic := by rfl

/-- C40, sections. The content of a parsed section is a piece of the input. -/
theorem parse_within (dbg : Bool) (b : List UInt8) (s : Section) (h : parse dbg b = .ok s) :
    Within s.data b ∧ s.data.length = s.hdr.contentSize := by
  obtain ⟨c, h4, hdo, hsz, hs, hty, hc, hex, hsize, hfit⟩ := parse_inv h
  have hd : s.data = slice b c (sizeField b - c) := by rw [hs]
  rw [hd]
  exact ⟨slice_within, by rw [slice_length (by omega)]; omega⟩

theorem parse_size {dbg : Bool} {b : List UInt8} {s : Section} (h : parse dbg b = .ok s) :
    s.isDirty = false ∧ s.size = .ok s.hdr.totalSize ∧ 4 ≤ s.hdr.totalSize ∧ s.hdr.totalSize ≤ b.length + 4 := by
  obtain ⟨c, h4, hdo, hsz, hs, hty, hc, hex, hsize, hfit⟩ := parse_inv h
  have hd : s.isDirty = false := by rw [hs]; exact clean_isDirty _ _ _ _ (fun _ => rfl)
  have hnp : s.hdr.serialize = SecHdr.serializeWith s.hdr.ty s.hdr.extra s.hdr.contentSize := by
    cases hh : s.hdr with
    | pad n => rw [hh] at hfit; exact hfit.2.elim
    | _ => rfl
  have hne : s.hdr.serialize ≠ [] := by
    rw [hnp]; unfold SecHdr.serializeWith; simp only; split <;> simp
  have hl := serialize_length hne
  have hdo4 : 4 ≤ dataOff b := by unfold dataOff; split <;> omega
  refine ⟨hd, by unfold Section.size; rw [hd]; rfl, ?_, ?_⟩ <;>
    (unfold SecHdr.totalSize SecHdr.contentOffset; rw [hl]; split <;> omega)

/-! ### The section iterator -/

theorem parse_panic_or {dbg : Bool} {b : List UInt8} {s : Section} (h : parse dbg b = .ok s)
    (hb : b.length + 8 < 2 ^ 64) (it : SIter) :
    ∃ a, it.advance s = .item (.ok s) { it with next := it.next + a } ∧ 4 ≤ a ∧
      s.hdr.totalSize ≤ a ∧ a % 4 = 0 ∧ a < s.hdr.totalSize + 4 := by
  obtain ⟨h1, h2, h3, h4⟩ := parse_size h
  obtain ⟨a, ha, hle, hm, hlt⟩ := alignUp4 (n := s.hdr.totalSize) (by omega)
  refine ⟨a, ?_, by omega, hle, hm, hlt⟩
  unfold SIter.advance
  rw [h2]; simp only [ha]

theorem drain_spec (dbg : Bool) (data : List UInt8) (hl : data.length + 8 < 2 ^ 64) :
    ∀ fuel next error, data.length - next < fuel →
      ∃ r, SIter.drain dbg (fuel + 1) ⟨data, next, error⟩ = some r ∧
        ∀ rs, r = .ok rs → ∀ s, .ok s ∈ rs → Within s.data data := by
  intro fuel
  induction fuel with
  | zero => intro next error hf; omega
  | succ fuel ih =>
    intro next error hf
    unfold SIter.drain SIter.step
    cases error with
    | true => exact ⟨.ok [], rfl, fun rs h => by cases h; simp⟩
    | false =>
      simp only [Bool.false_eq_true, if_false]
      by_cases hn : data.length ≤ next
      · rw [if_pos hn]; exact ⟨.ok [], rfl, fun rs h => by cases h; simp⟩
      · rw [if_neg hn]
        cases hp : parse dbg (data.drop next) with
        | panic => exact ⟨.panic, rfl, fun rs h => by cases h⟩
        | err e =>
          simp only
          have hd : SIter.drain dbg (fuel + 1) ⟨data, next, true⟩ = some (.ok []) := by
            unfold SIter.drain SIter.step; rfl
          rw [hd]
          exact ⟨.ok [.error e], rfl, fun rs h => by cases h; simp⟩
        | ok s =>
          simp only
          obtain ⟨a, ha, ha4, hta, hm, hlt⟩ :=
            parse_panic_or hp (by simp; omega) ⟨data, next, false⟩
          rw [ha]
          simp only
          obtain ⟨r, hr, hw⟩ := ih (next + a) false (by omega)
          rw [hr]
          have hsw : Within s.data data := (parse_within dbg _ s hp).1.trans (within_drop data next)
          cases r with
          | ok rs =>
            refine ⟨.ok (.ok s :: rs), rfl, ?_⟩
            intro rs' hrs' t ht
            cases hrs'
            rcases List.mem_cons.1 ht with h | h
            · cases h; exact hsw
            · exact hw rs rfl t h
          | err e => exact ⟨.err e, rfl, fun rs h => by cases h⟩
          | panic => exact ⟨.panic, rfl, fun rs h => by cases h⟩

/-- C40, sections. For every byte string (of a size a 64-bit machine can hold) the section iterator ends after at
most one call per byte and one more, and every section it yields has its content inside the input. -/
theorem section_iter_terminates (dbg : Bool) (data : List UInt8) (hl : data.length + 8 < 2 ^ 64) :
    ∃ r, SIter.drain dbg (data.length + 2) ⟨data, 0, false⟩ = some r ∧
      ∀ rs, r = .ok rs → ∀ s, .ok s ∈ rs → Within s.data data :=
  drain_spec dbg data hl (data.length + 1) 0 false (by omega)

end Verif.Ffs
