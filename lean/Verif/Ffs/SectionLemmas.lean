import Verif.Ffs.SectionSpec
import Verif.Base.Props
namespace Verif.Ffs

theorem slice_left {a b : List UInt8} {i n : Nat} (h : i + n ≤ a.length) :
    slice (a ++ b) i n = slice a i n := by
  unfold slice
  rw [List.drop_append_of_le_length (by omega), List.take_append_of_le_length (by simp; omega)]

theorem slice_right (a b : List UInt8) (i n : Nat) : slice (a ++ b) (a.length + i) n = slice b i n := by
  unfold slice
  rw [List.drop_append, List.drop_of_length_le (by omega), List.nil_append]
  congr 2; omega

theorem slice_right' {a b : List UInt8} {i k n : Nat} (h : i = a.length + k) :
    slice (a ++ b) i n = slice b k n := by rw [h, slice_right]

theorem slice_self (a b : List UInt8) {n : Nat} (h : n = a.length) : slice (a ++ b) 0 n = a := by
  simp [slice, h]

theorem slice_length {b : List UInt8} {i n : Nat} (h : i + n ≤ b.length) : (slice b i n).length = n := by
  simp [slice]; omega

theorem slice_zero (b : List UInt8) (n : Nat) : slice b 0 n = b.take n := by simp [slice]

theorem slice_within {b : List UInt8} {i n : Nat} : Within (slice b i n) b :=
  ⟨b.take i, (b.drop i).drop n, by
    unfold slice
    rw [List.append_assoc, List.take_append_drop, List.take_append_drop]⟩

theorem Within.trans {a b c : List UInt8} (h1 : Within a b) (h2 : Within b c) : Within a c := by
  obtain ⟨p, q, rfl⟩ := h1
  obtain ⟨p', q', rfl⟩ := h2
  exact ⟨p' ++ p, q ++ q', by simp [List.append_assoc]⟩

theorem Within.refl (a : List UInt8) : Within a a := ⟨[], [], by simp⟩

theorem within_drop (b : List UInt8) (i : Nat) : Within (b.drop i) b :=
  ⟨b.take i, [], by simp⟩

theorem Within.length_le {a b : List UInt8} (h : Within a b) : a.length ≤ b.length := by
  obtain ⟨p, q, rfl⟩ := h; simp; omega

theorem rd_lt (b : List UInt8) (i n : Nat) : rd b i n < 256 ^ n := by
  unfold rd
  refine Nat.lt_of_lt_of_le (leVal_lt _) (Nat.pow_le_pow_right (by decide) ?_)
  simp [slice]; omega

theorem rd_mid {pre post : List UInt8} {n v i : Nat} (hi : i = pre.length) (hv : v < 256 ^ n) :
    rd (pre ++ (leBytes n v ++ post)) i n = v := by
  unfold rd
  rw [slice_right' (k := 0) (by omega), slice_self _ _ (by simp), leVal_leBytes_of_lt hv]

theorem rd_left {a b : List UInt8} {i n : Nat} (h : i + n ≤ a.length) : rd (a ++ b) i n = rd a i n := by
  unfold rd; rw [slice_left h]

theorem contentSizeOf_ok {dbg : Bool} {size off cs : Nat} (h : size = off + cs) (hc : cs < 2 ^ 32) :
    contentSizeOf dbg size off = .ok cs := by
  subst h
  have h1 : ¬ off + cs < off := by omega
  have h2 : off + cs - off = cs := by omega
  simp only [contentSizeOf, if_neg h1, h2, if_pos hc]

theorem contentSizeOf_inv {dbg : Bool} {size off cs : Nat} (h : contentSizeOf dbg size off = .ok cs) :
    size = off + cs ∧ cs < 2 ^ 32 := by
  unfold contentSizeOf at h
  split at h
  · split at h <;> cases h
  · split at h
    · cases h; omega
    · cases h

theorem parseFixed_ok {dbg : Bool} {b : List UInt8} {size off n cs : Nat} {mk : Nat → SecHdr}
    (hb : off + n ≤ b.length) (hs : size = off + n + cs) (hc : cs < 2 ^ 32) :
    parseFixed dbg b size off n mk = .ok (mk cs, off + n) := by
  unfold parseFixed
  rw [if_neg (by omega), contentSizeOf_ok hs hc]; rfl

theorem parseFixed_inv {dbg : Bool} {b : List UInt8} {size off n : Nat} {mk : Nat → SecHdr} {r : SecHdr × Nat}
    (h : parseFixed dbg b size off n mk = .ok r) :
    off + n ≤ b.length ∧ ∃ cs, r = (mk cs, off + n) ∧ size = off + n + cs ∧ cs < 2 ^ 32 := by
  unfold parseFixed at h
  split at h
  · cases h
  · cases hc : contentSizeOf dbg size (off + n) with
    | ok cs =>
      rw [hc] at h
      cases h
      exact ⟨by omega, cs, rfl, contentSizeOf_inv hc⟩
    | err e => rw [hc] at h; cases h
    | panic => rw [hc] at h; cases h

/-- Reading back the type specific header. -/
theorem parseHdr_ok {dbg : Bool} {h : SecHdr} {pre rest : List UInt8} {size : Nat}
    (hw : h.WF) (hp : pre.length + h.extra.length = h.contentOffset)
    (hs : size = pre.length + h.extra.length + h.contentSize) :
    parseHdr dbg (pre ++ (h.extra ++ rest)) size pre.length h.ty =
      .ok (h, pre.length + h.extra.length) := by
  obtain ⟨hc, hw⟩ := hw
  cases h with
  | pad n => exact hw.elim
  | standard t n =>
    simp only at hw
    simp only [SecHdr.ty, parseHdr, hw.1, hw.2.1, hw.2.2.1, hw.2.2.2, if_false, SecHdr.extra,
      List.length_nil, Nat.add_zero] at *
    exact parseFixed_ok (by simp) (by simpa [SecHdr.contentSize] using hs) hc
  | compression ul ct n =>
    simp only at hw
    simp only [SecHdr.ty, parseHdr, if_true]
    have e1 : rd (pre ++ ((SecHdr.compression ul ct n).extra ++ rest)) pre.length 4 = ul := by
      simp only [SecHdr.extra, List.append_assoc]; exact rd_mid rfl (by simpa using hw.1)
    have e2 : rd (pre ++ ((SecHdr.compression ul ct n).extra ++ rest)) (pre.length + 4) 1 = ct := by
      simp only [SecHdr.extra, List.append_assoc]
      rw [← List.append_assoc]
      exact rd_mid (by simp) (by simpa using hw.2)
    rw [e1, e2]
    have he : (SecHdr.compression ul ct n).extra.length = 5 := by simp [SecHdr.extra]
    rw [he] at hs ⊢
    exact parseFixed_ok (by simp [he]) hs hc
  | guidDefined g o a spec n =>
    simp only at hw
    obtain ⟨h1, h2, h3, h4⟩ := hw
    have he : (SecHdr.guidDefined g o a spec n).extra.length = 20 + spec.length := by
      simp [SecHdr.extra]; omega
    have e0 : parseHdr dbg (pre ++ ((SecHdr.guidDefined g o a spec n).extra ++ rest)) size pre.length
        (SecHdr.guidDefined g o a spec n).ty
        = parseGuid dbg (pre ++ ((SecHdr.guidDefined g o a spec n).extra ++ rest)) size pre.length := rfl
    have hx : pre ++ ((SecHdr.guidDefined g o a spec n).extra ++ rest)
        = pre ++ (leBytes 16 g ++ (leBytes 2 o ++ (leBytes 2 a ++ (spec ++ rest)))) := by
      simp [SecHdr.extra, List.append_assoc]
    have r1 : rd (pre ++ ((SecHdr.guidDefined g o a spec n).extra ++ rest)) pre.length 16 = g := by
      rw [hx]; exact rd_mid rfl (by simpa using h1)
    have r2 : rd (pre ++ ((SecHdr.guidDefined g o a spec n).extra ++ rest)) (pre.length + 16) 2 = o := by
      rw [hx, ← List.append_assoc]; exact rd_mid (by simp) (by simpa using h2)
    have r3 : rd (pre ++ ((SecHdr.guidDefined g o a spec n).extra ++ rest)) (pre.length + 18) 2 = a := by
      rw [hx, ← List.append_assoc, ← List.append_assoc]; exact rd_mid (by simp) (by simpa using h3)
    have ho : o = pre.length + (20 + spec.length) := by rw [← he, hp]; exact h4
    have r4 : slice (pre ++ ((SecHdr.guidDefined g o a spec n).extra ++ rest)) (pre.length + 20)
        (o - (pre.length + 20)) = spec := by
      rw [hx, ← List.append_assoc, ← List.append_assoc, ← List.append_assoc,
        slice_right' (k := 0) (by simp), slice_self _ _ (by omega)]
    have hl : (pre ++ ((SecHdr.guidDefined g o a spec n).extra ++ rest)).length
        = pre.length + (20 + spec.length) + rest.length := by simp [he]; omega
    rw [e0]
    unfold parseGuid
    simp only [r1, r2, r3, r4]
    rw [if_neg (by omega), if_neg (by omega), if_neg (by omega),
      contentSizeOf_ok (cs := n) (by rw [hs, he, ho]; simp [SecHdr.contentSize]) hc, he, ← ho]
    rfl
  | version v n =>
    simp only at hw
    have e0 : parseHdr dbg (pre ++ ((SecHdr.version v n).extra ++ rest)) size pre.length
        (SecHdr.version v n).ty
        = parseFixed dbg (pre ++ ((SecHdr.version v n).extra ++ rest)) size pre.length 2
          (.version (rd (pre ++ ((SecHdr.version v n).extra ++ rest)) pre.length 2)) := rfl
    have e1 : rd (pre ++ ((SecHdr.version v n).extra ++ rest)) pre.length 2 = v := rd_mid rfl (by simpa using hw)
    have he : (SecHdr.version v n).extra.length = 2 := by simp [SecHdr.extra]
    rw [e0, e1]
    rw [he] at hs ⊢
    exact parseFixed_ok (by simp [he]) hs hc
  | freeform g n =>
    simp only at hw
    have e0 : parseHdr dbg (pre ++ ((SecHdr.freeform g n).extra ++ rest)) size pre.length
        (SecHdr.freeform g n).ty
        = parseFixed dbg (pre ++ ((SecHdr.freeform g n).extra ++ rest)) size pre.length 16
          (.freeform (rd (pre ++ ((SecHdr.freeform g n).extra ++ rest)) pre.length 16)) := rfl
    have e1 : rd (pre ++ ((SecHdr.freeform g n).extra ++ rest)) pre.length 16 = g := rd_mid rfl (by simpa using hw)
    have he : (SecHdr.freeform g n).extra.length = 16 := by simp [SecHdr.extra]
    rw [e0, e1]
    rw [he] at hs ⊢
    exact parseFixed_ok (by simp [he]) hs hc

theorem serializeWith_small {t : UInt8} {x : List UInt8} {n : Nat} (h : 4 + x.length + n < 0x1000000) :
    SecHdr.serializeWith t x n = leBytes 3 (4 + x.length + n) ++ (t :: x) := by
  unfold SecHdr.serializeWith
  have : 4 + x.length + n < SecHdr.MAX_STD := h
  simp only [if_pos this]

theorem serializeWith_big {t : UInt8} {x : List UInt8} {n : Nat} (h : ¬ 4 + x.length + n < 0x1000000) :
    SecHdr.serializeWith t x n
      = [0xff, 0xff, 0xff, t] ++ (leBytes 4 ((4 + x.length + n) % 2 ^ 32 + 4) ++ x) := by
  unfold SecHdr.serializeWith
  have : ¬ 4 + x.length + n < SecHdr.MAX_STD := h
  simp only [if_neg this]

theorem alignUp_pow {n k : Nat} (h : n + 2 ^ k < 2 ^ 64) :
    ∃ a, Base.alignUp 64 n (2 ^ k) = .ok a ∧ n ≤ a ∧ a % 2 ^ k = 0 ∧ a < n + 2 ^ k := by
  have hk := Nat.two_pow_pos k
  obtain ⟨r, ⟨hd, hle, hmin⟩, he⟩ := (Base.alignUp_spec 64 n (2 ^ k) (by omega)).1 ⟨k, rfl⟩
  have hlt : r < n + 2 ^ k := by
    apply Nat.lt_of_not_le
    intro hge
    have := hmin (r - 2 ^ k) (Nat.dvd_sub hd (Nat.dvd_refl _)) (by omega)
    omega
  exact ⟨r, by rw [he, if_pos (by omega)], hle, Nat.mod_eq_zero_of_dvd hd, hlt⟩

theorem alignUp4 {n : Nat} (h : n + 4 < 2 ^ 64) :
    ∃ a, Base.alignUp 64 n 4 = .ok a ∧ n ≤ a ∧ a % 4 = 0 ∧ a < n + 4 := alignUp_pow (k := 2) h

theorem alignUp8 {n : Nat} (h : n + 8 < 2 ^ 64) :
    ∃ a, Base.alignUp 64 n 8 = .ok a ∧ n ≤ a ∧ a % 8 = 0 ∧ a < n + 8 := alignUp_pow (k := 3) h

theorem serialize_eq {h : SecHdr} (hw : h.WF) :
    h.serialize = SecHdr.serializeWith h.ty h.extra h.contentSize := by
  cases h with
  | pad n => exact hw.2.elim
  | _ => rfl

theorem leBytes3_ff {n : Nat} (hn : n < 0xFFFFFF) : leBytes 3 n ≠ [0xff, 0xff, 0xff] := by
  intro h
  have := congrArg leVal h
  rw [leVal_leBytes_of_lt (by omega)] at this
  simp [leVal] at this
  omega

/-- Parsing a serialised well-formed section, whatever follows it. -/
theorem parse_serialize {dbg : Bool} {h : SecHdr} (hw : h.WF) {data tail : List UInt8}
    (hl : data.length = h.contentSize) (ht : h.totalSize < 2 ^ 32) (hne : h.plainTotal ≠ 0xFFFFFF) :
    parse dbg (h.serialize ++ (data ++ tail)) = .ok ⟨h, data, h.encapsulates, false, false, []⟩ := by
  have hser := serialize_eq hw
  unfold SecHdr.plainTotal at hne
  by_cases hs : 4 + h.extra.length + h.contentSize < SecHdr.MAX_STD
  · have hse : h.serialize = leBytes 3 (4 + h.extra.length + h.contentSize) ++ (h.ty :: h.extra) := by
      rw [hser]; simp only [SecHdr.serializeWith]; rw [if_pos hs]
    have hmax : SecHdr.MAX_STD = 0x1000000 := rfl
    have hco : 4 + h.extra.length = h.contentOffset := by
      unfold SecHdr.contentOffset; rw [hse]; simp; omega
    have hb : h.serialize ++ (data ++ tail)
        = (leBytes 3 (4 + h.extra.length + h.contentSize) ++ [h.ty]) ++ (h.extra ++ (data ++ tail)) := by
      rw [hse]; simp [List.append_assoc]
    rw [hb]
    have hpre : (leBytes 3 (4 + h.extra.length + h.contentSize) ++ [h.ty]).length = 4 := by simp
    have hs3 : slice ((leBytes 3 (4 + h.extra.length + h.contentSize) ++ [h.ty]) ++ (h.extra ++ (data ++ tail))) 0 3
        = leBytes 3 (4 + h.extra.length + h.contentSize) := by
      rw [List.append_assoc]; exact slice_self _ _ (by simp)
    have hext : isExt ((leBytes 3 (4 + h.extra.length + h.contentSize) ++ [h.ty]) ++ (h.extra ++ (data ++ tail)))
        = false := by
      unfold isExt; rw [hs3]
      exact beq_eq_false_iff_ne.2 (leBytes3_ff (by omega))
    have hsz : sizeField ((leBytes 3 (4 + h.extra.length + h.contentSize) ++ [h.ty]) ++ (h.extra ++ (data ++ tail)))
        = 4 + h.extra.length + h.contentSize := by
      unfold sizeField
      rw [hext]; simp only [Bool.false_eq_true, if_false]
      unfold rd
      rw [hs3, leVal_leBytes_of_lt (by omega)]
    have hty : (((leBytes 3 (4 + h.extra.length + h.contentSize) ++ [h.ty]) ++ (h.extra ++ (data ++ tail))).drop 3).headD 0
        = h.ty := by
      rw [List.append_assoc, List.drop_append_of_le_length (by simp)]
      rw [List.drop_of_length_le (by simp)]; rfl
    have hlen : ((leBytes 3 (4 + h.extra.length + h.contentSize) ++ [h.ty]) ++ (h.extra ++ (data ++ tail))).length
        = 4 + h.extra.length + h.contentSize + tail.length := by simp [hl]; omega
    unfold parse
    rw [if_neg (by omega), hext, hsz, hty, hlen]
    simp only [Bool.false_and, Bool.false_eq_true, if_false]
    rw [if_neg (by omega)]
    have hd : dataOff ((leBytes 3 (4 + h.extra.length + h.contentSize) ++ [h.ty]) ++ (h.extra ++ (data ++ tail)))
        = (leBytes 3 (4 + h.extra.length + h.contentSize) ++ [h.ty]).length := by
      rw [hpre]; unfold dataOff; rw [hext]; rfl
    rw [hd, parseHdr_ok hw (by rw [hpre]; exact hco) (by rw [hpre])]
    simp only [Outcome.ok_bind]
    unfold mkSection
    congr 2
    rw [← List.append_assoc (leBytes 3 _ ++ [h.ty]), slice_right' (k := 0) (by simp; omega),
      slice_self _ _ (by omega)]
  · have hmax : SecHdr.MAX_STD = 0x1000000 := rfl
    have hse : h.serialize = [0xff, 0xff, 0xff, h.ty] ++
        (leBytes 4 ((4 + h.extra.length + h.contentSize) % 2 ^ 32 + 4) ++ h.extra) := by
      rw [hser]; simp only [SecHdr.serializeWith]; rw [if_neg hs]
    have hco : 8 + h.extra.length = h.contentOffset := by
      unfold SecHdr.contentOffset; rw [hse]; simp; omega
    unfold SecHdr.totalSize at ht
    have hmod : (4 + h.extra.length + h.contentSize) % 2 ^ 32 + 4 = 8 + h.extra.length + h.contentSize := by
      rw [Nat.mod_eq_of_lt (by omega)]; omega
    rw [hmod] at hse
    have hb : h.serialize ++ (data ++ tail)
        = ([0xff, 0xff, 0xff, h.ty] ++ leBytes 4 (8 + h.extra.length + h.contentSize))
          ++ (h.extra ++ (data ++ tail)) := by
      rw [hse]; simp [List.append_assoc]
    rw [hb]
    have hpre : ([0xff, 0xff, 0xff, h.ty] ++ leBytes 4 (8 + h.extra.length + h.contentSize)).length = 8 := by
      simp
    generalize hP : ([0xff, 0xff, 0xff, h.ty] ++ leBytes 4 (8 + h.extra.length + h.contentSize)) = P at *
    have hext : isExt (P ++ (h.extra ++ (data ++ tail))) = true := by
      unfold isExt
      rw [slice_left (by omega), ← hP]
      simp [slice]
    have hsz : sizeField (P ++ (h.extra ++ (data ++ tail))) = 8 + h.extra.length + h.contentSize := by
      unfold sizeField
      rw [hext]; simp only [if_true]
      rw [← hP, List.append_assoc]
      exact rd_mid (by simp) (by omega)
    have hty : ((P ++ (h.extra ++ (data ++ tail))).drop 3).headD 0 = h.ty := by
      rw [← hP]; rfl
    have hlen : (P ++ (h.extra ++ (data ++ tail))).length
        = 8 + h.extra.length + h.contentSize + tail.length := by simp [hl, hpre]; omega
    unfold parse
    rw [if_neg (by omega), hext, hsz, hty, hlen]
    have h8 : (true && decide (8 + h.extra.length + h.contentSize + tail.length < 8)) = false := by
      simp; omega
    rw [h8]
    simp only [Bool.false_eq_true, if_false]
    rw [if_neg (by omega)]
    have hd : dataOff (P ++ (h.extra ++ (data ++ tail))) = P.length := by
      rw [hpre]; unfold dataOff; rw [hext]; rfl
    rw [hd, parseHdr_ok hw (by rw [hpre]; exact hco) (by rw [hpre])]
    simp only [Outcome.ok_bind]
    unfold mkSection
    congr 2
    rw [← List.append_assoc P, slice_right' (k := 0) (by simp), slice_self _ _ (by simp [hl, hpre])]

theorem leBytes_rd {b : List UInt8} {i n : Nat} (h : i + n ≤ b.length) : leBytes n (rd b i n) = slice b i n := by
  unfold rd
  have := leBytes_leVal (slice b i n)
  rwa [slice_length h] at this

theorem slice_add (b : List UInt8) (i n m : Nat) : slice b i n ++ slice b (i + n) m = slice b i (n + m) := by
  unfold slice
  rw [List.take_add, List.drop_drop]

theorem slice_add' {b : List UInt8} {i j n m k : Nat} (hj : j = i + n) (hk : k = n + m) :
    slice b i n ++ slice b j m = slice b i k := by
  subst hj hk; exact slice_add b i n m

/-- What a successful header parse says. -/
theorem parseHdr_inv {dbg : Bool} {b : List UInt8} {size off : Nat} {ty : UInt8} {h : SecHdr} {c : Nat}
    (hp : parseHdr dbg b size off ty = .ok (h, c)) :
    h.ty = ty ∧ c = off + h.extra.length ∧ c ≤ b.length ∧ h.extra = slice b off h.extra.length ∧
    size = c + h.contentSize ∧ h.FitsAt c := by
  unfold parseHdr at hp
  split at hp
  · rename_i ht
    obtain ⟨hb, cs, hr, hs, hc⟩ := parseFixed_inv hp
    cases hr
    have hl : (SecHdr.compression (rd b off 4) (rd b (off + 4) 1) cs).extra.length = 5 := by simp [SecHdr.extra]
    refine ⟨ht.symm, by rw [hl], hb, ?_, hs, hc, rd_lt b off 4, rd_lt b (off + 4) 1⟩
    rw [hl]
    show leBytes 4 _ ++ leBytes 1 _ = _
    rw [leBytes_rd (by omega), leBytes_rd (by omega), slice_add]
  · split at hp
    · rename_i _ ht
      unfold parseGuid at hp
      simp only at hp
      split at hp
      · cases hp
      · split at hp
        · cases hp
        · split at hp
          · cases hp
          · rename_i h1 h2 h3
            cases hcs : contentSizeOf dbg size (rd b (off + 16) 2) with
            | err e => rw [hcs] at hp; cases hp
            | panic => rw [hcs] at hp; cases hp
            | ok cs =>
              rw [hcs] at hp
              cases hp
              obtain ⟨hs, hc⟩ := contentSizeOf_inv hcs
              have hl : (SecHdr.guidDefined (rd b off 16) (rd b (off + 16) 2) (rd b (off + 18) 2)
                  (slice b (off + 20) (rd b (off + 16) 2 - (off + 20))) cs).extra.length
                  = rd b (off + 16) 2 - off := by
                simp only [SecHdr.extra, List.length_append, leBytes_length]
                rw [slice_length (by omega)]; omega
              refine ⟨ht.symm, by omega, by omega, ?_, hs, hc, rd_lt b off 16, rd_lt b (off + 16) 2,
                rd_lt b (off + 18) 2, rfl⟩
              rw [hl]
              show leBytes 16 _ ++ (leBytes 2 _ ++ (leBytes 2 _ ++ _)) = _
              rw [leBytes_rd (by omega), leBytes_rd (by omega), leBytes_rd (by omega),
                slice_add' (i := off + 18) (j := off + 20) (k := rd b (off + 16) 2 - (off + 18)) rfl (by omega),
                slice_add' (i := off + 16) (j := off + 18) (k := rd b (off + 16) 2 - (off + 16)) rfl (by omega),
                slice_add' (i := off) (j := off + 16) (k := rd b (off + 16) 2 - off) rfl (by omega)]
    · split at hp
      · rename_i ht
        obtain ⟨hb, cs, hr, hs, hc⟩ := parseFixed_inv hp
        cases hr
        have hl : (SecHdr.version (rd b off 2) cs).extra.length = 2 := by simp [SecHdr.extra]
        refine ⟨ht.symm, by rw [hl], hb, ?_, hs, hc, rd_lt b off 2⟩
        rw [hl]
        exact leBytes_rd (by omega)
      · split at hp
        · rename_i ht
          obtain ⟨hb, cs, hr, hs, hc⟩ := parseFixed_inv hp
          cases hr
          have hl : (SecHdr.freeform (rd b off 16) cs).extra.length = 16 := by simp [SecHdr.extra]
          refine ⟨ht.symm, by rw [hl], hb, ?_, hs, hc, rd_lt b off 16⟩
          rw [hl]
          exact leBytes_rd (by omega)
        · rename_i h1 h2 h3 h4
          obtain ⟨hb, cs, hr, hs, hc⟩ := parseFixed_inv hp
          cases hr
          exact ⟨rfl, rfl, hb, by simp [SecHdr.extra, slice], hs, hc, h1, h2, h3, h4⟩

/-- What a successful section parse says. -/
theorem parse_inv {dbg : Bool} {b : List UInt8} {s : Section} (h : parse dbg b = .ok s) :
    ∃ c, 4 ≤ b.length ∧ dataOff b ≤ b.length ∧ sizeField b ≤ b.length ∧
      s = ⟨s.hdr, slice b c (sizeField b - c), s.hdr.encapsulates, false, false, []⟩ ∧
      s.hdr.ty = (b.drop 3).headD 0 ∧ c = dataOff b + s.hdr.extra.length ∧
      s.hdr.extra = slice b (dataOff b) s.hdr.extra.length ∧
      sizeField b = c + s.hdr.contentSize ∧ s.hdr.FitsAt c := by
  unfold parse at h
  split at h
  · cases h
  · split at h
    · cases h
    · split at h
      · cases h
      · rename_i h1 h2 h3
        cases hr : parseHdr dbg b (sizeField b) (dataOff b) ((b.drop 3).headD 0) with
        | err e => rw [hr] at h; cases h
        | panic => rw [hr] at h; cases h
        | ok r =>
          rw [hr] at h
          cases h
          obtain ⟨hh, c⟩ := r
          obtain ⟨p1, p2, p3, p4, p5, p6⟩ := parseHdr_inv hr
          refine ⟨c, by omega, by omega, by omega, rfl, p1, p2, p4, p5, p6⟩

theorem clean_isDirty (h : SecHdr) (d : List UInt8) (e x : Bool) (hs : e = true → x = false):
    (Section.mk h d e x false []).isDirty = false := by
  cases e <;> cases x <;> simp [Section.isDirty, anyDirty]

end Verif.Ffs
