import Verif.Ffs.VolumeModel
import Verif.Ffs.FileProps
namespace Verif.Ffs

/-! ### Checksums and fields of the header -/

theorem sum16_append {a : List UInt8} (b : List UInt8) (h : a.length % 2 = 0) :
    sum16 (a ++ b) = sum16 a + sum16 b := by
  fun_induction sum16 a with
  | case1 x y rest ih =>
    simp only [List.cons_append, sum16]
    rw [ih (by simp at h; omega), UInt16.add_assoc]
  | case2 xs hx =>
    match xs, hx, h with
    | [], _, _ => simp
    | [_], _, h => simp at h
    | a :: b :: r, hx, _ => exact absurd rfl (hx a b r)

theorem sum16_replicate (n : Nat) : sum16 (List.replicate (2 * n) 0) = 0 := by
  induction n with
  | zero => rfl
  | succ n ih =>
    have : 2 * (n + 1) = (2 * n) + 1 + 1 := by omega
    rw [this, List.replicate_succ, List.replicate_succ, sum16, ih]; rfl

theorem sum16_leBytes2 (c : UInt16) : sum16 (leBytes 2 c.toNat) = c := by
  have hc := c.toNat_lt
  simp only [leBytes, sum16]
  have h1 : (UInt8.ofNat (c.toNat % 256)).toNat = c.toNat % 256 := by simp
  have h2 : (UInt8.ofNat (c.toNat / 256 % 256)).toNat = c.toNat / 256 := by simp; omega
  rw [h1, h2]
  have : c.toNat % 256 + 256 * (c.toNat / 256) = c.toNat := by omega
  rw [this]; simp

theorem volumeHeader_length (g a l h c x : Nat) : (volumeHeader g a l h c x).length = 56 := by
  simp [volumeHeader]

theorem volumeHeader_sum (g a l h c x : Nat) :
    sum16 (volumeHeader g a l h c x) = sum16 (volumeHeader g a 0 0 0 0) + sum16 (leBytes 8 l) + sum16 (leBytes 2 h)
      + sum16 (leBytes 2 c) + sum16 (leBytes 2 x) := by
  have z8 : sum16 (leBytes 8 0) = 0 := by decide
  have z2 : sum16 (leBytes 2 0) = 0 := by decide
  have key : ∀ l h c x, sum16 (volumeHeader g a l h c x) = sum16 (List.replicate 16 0) + (sum16 (leBytes 16 g) +
      (sum16 (leBytes 8 l) + (sum16 (leBytes 4 SIGNATURE) + (sum16 (leBytes 4 a) + (sum16 (leBytes 2 h) +
        (sum16 (leBytes 2 c) + (sum16 (leBytes 2 x) + sum16 [0, 2]))))))) := by
    intro l h c x
    unfold volumeHeader
    rw [sum16_append _ (by simp), sum16_append _ (by simp), sum16_append _ (by simp), sum16_append _ (by simp),
      sum16_append _ (by simp), sum16_append _ (by simp), sum16_append _ (by simp), sum16_append _ (by simp)]
  rw [key, key 0 0 0 0, z8, z2]
  grind

theorem blockBytes_length (bm : List Blocks) : (blockBytes bm).length = 8 * bm.length + 8 := by
  have : ∀ bm : List Blocks, (bm.flatMap Blocks.bytes).length = 8 * bm.length := by
    intro bm
    induction bm with
    | nil => rfl
    | cons e es ih => simp only [List.flatMap_cons, List.length_append, ih, List.length_cons]; simp [Blocks.bytes]; omega
  simp [blockBytes, this, Blocks.bytes]

theorem blockEntries_cons (e : Blocks) (hn : e.num < 2 ^ 32) (hl : e.len < 2 ^ 32) (rest : List UInt8) :
    blockEntries (e.bytes ++ rest) = e :: blockEntries rest := by
  obtain ⟨n, l⟩ := e
  have h1 : leBytes 4 n = [UInt8.ofNat (n % 256), UInt8.ofNat (n / 256 % 256), UInt8.ofNat (n / 256 / 256 % 256),
    UInt8.ofNat (n / 256 / 256 / 256 % 256)] := rfl
  have h2 : leBytes 4 l = [UInt8.ofNat (l % 256), UInt8.ofNat (l / 256 % 256), UInt8.ofNat (l / 256 / 256 % 256),
    UInt8.ofNat (l / 256 / 256 / 256 % 256)] := rfl
  have k1 := leVal_leBytes_of_lt (n := 4) (v := n) (by simpa using hn)
  have k2 := leVal_leBytes_of_lt (n := 4) (v := l) (by simpa using hl)
  rw [h1] at k1
  rw [h2] at k2
  simp only [Blocks.bytes]
  rw [h1, h2]
  simp only [List.cons_append, List.nil_append, blockEntries, k1, k2]

theorem blockEntries_bytes (bm : List Blocks) (h : ∀ e ∈ bm, e.num < 2 ^ 32 ∧ e.len < 2 ^ 32) :
    blockEntries (blockBytes bm) = bm ++ [noBlocks] := by
  induction bm with
  | nil => rfl
  | cons e es ih =>
    have he := h e (List.mem_cons_self ..)
    have : blockBytes (e :: es) = e.bytes ++ blockBytes es := by simp [blockBytes, List.append_assoc]
    rw [this, blockEntries_cons e he.1 he.2, ih (fun x hx => h x (List.mem_cons_of_mem _ hx))]
    rfl

theorem parseBlockMap_bytes {bm : List Blocks} (h : ∀ e ∈ bm, e.num < 2 ^ 32 ∧ e.len < 2 ^ 32) (hne : bm ≠ [])
    (hz : noBlocks ∉ bm) : parseBlockMap (blockBytes bm) = .ok bm := by
  unfold parseBlockMap
  rw [if_neg (by rw [blockBytes_length]; omega), blockEntries_bytes bm h, if_neg (by simp), List.dropLast_concat,
    if_neg hne, if_neg hz]

/-- The fields of a complete header. -/
theorem volumeHeader_fields {g a l h c x : Nat} (hg : g < 2 ^ 128) (ha : a < 2 ^ 32) (hl : l < 2 ^ 64)
    (hh : h < 2 ^ 16) (hx : x < 2 ^ 16) (rest : List UInt8) :
    rd (volumeHeader g a l h c x ++ rest) 16 16 = g ∧ rd (volumeHeader g a l h c x ++ rest) 32 8 = l ∧
    rd (volumeHeader g a l h c x ++ rest) 40 4 = SIGNATURE ∧ rd (volumeHeader g a l h c x ++ rest) 44 4 = a ∧
    rd (volumeHeader g a l h c x ++ rest) 48 2 = h ∧ rd (volumeHeader g a l h c x ++ rest) 52 2 = x ∧
    rd (volumeHeader g a l h c x ++ rest) 55 1 = 2 := by
  have key : ∀ (pre : List UInt8) (n v i : Nat) (post : List UInt8),
      volumeHeader g a l h c x ++ rest = pre ++ (leBytes n v ++ post) → i = pre.length → v < 256 ^ n →
      rd (volumeHeader g a l h c x ++ rest) i n = v := by
    intro pre n v i post he hi hv
    rw [he]; exact rd_mid hi hv
  have z : leBytes 1 2 = [2] := rfl
  refine ⟨?_, ?_, ?_, ?_, ?_, ?_, ?_⟩
  · exact key (List.replicate 16 0) 16 g 16 _ (by simp [volumeHeader, List.append_assoc]; rfl) (by simp) (by omega)
  · exact key (List.replicate 16 0 ++ leBytes 16 g) 8 l 32 _ (by simp [volumeHeader, List.append_assoc]; rfl)
      (by simp) (by omega)
  · exact key (List.replicate 16 0 ++ (leBytes 16 g ++ leBytes 8 l)) 4 SIGNATURE 40 _
      (by simp [volumeHeader, List.append_assoc]; rfl) (by simp) (by decide)
  · exact key (List.replicate 16 0 ++ (leBytes 16 g ++ (leBytes 8 l ++ leBytes 4 SIGNATURE))) 4 a 44 _
      (by simp [volumeHeader, List.append_assoc]; rfl) (by simp) (by omega)
  · exact key (List.replicate 16 0 ++ (leBytes 16 g ++ (leBytes 8 l ++ (leBytes 4 SIGNATURE ++ leBytes 4 a)))) 2 h 48 _
      (by simp [volumeHeader, List.append_assoc]; rfl) (by simp) (by omega)
  · exact key (List.replicate 16 0 ++ (leBytes 16 g ++ (leBytes 8 l ++ (leBytes 4 SIGNATURE ++ (leBytes 4 a ++
      (leBytes 2 h ++ leBytes 2 c)))))) 2 x 52 _
      (by simp [volumeHeader, List.append_assoc]; rfl) (by simp) (by omega)
  · exact key (List.replicate 16 0 ++ (leBytes 16 g ++ (leBytes 8 l ++ (leBytes 4 SIGNATURE ++ (leBytes 4 a ++
      (leBytes 2 h ++ (leBytes 2 c ++ (leBytes 2 x ++ [0])))))))) 1 2 55 _
      (by simp [volumeHeader, List.append_assoc]; rfl) (by simp) (by decide)

/-! ### Padding and alignment -/

theorem pad8_length (p : UInt8) (n : Nat) : (n + (pad8 p n).length) % 8 = 0 ∧ (pad8 p n).length < 8 := by
  unfold pad8
  split
  · simp; omega
  · simp; omega

theorem alignUp8_eq {n : Nat} (p : UInt8) (h : n + 8 < 2 ^ 64) :
    Base.alignUp 64 n 8 = .ok (n + (pad8 p n).length) := by
  obtain ⟨a, h1, h2, h3, h4⟩ := alignUp8 h
  have := pad8_length p n
  rw [h1]; congr 1; omega

theorem alignExp_cases (a : UInt8) : alignExp a = 0 ∨ 4 ≤ alignExp a :=
  forall_u8 (P := fun a => alignExp a = 0 ∨ 4 ≤ alignExp a) (by decide +kernel) a

theorem padFile_serialize (content : List UInt8) :
    (padFile content).serialize = .ok ((padFile content).header content ++ content) := by
  simp [File.serialize, padFile, contentLoop, Section.serialize, Section.isDirty, SecHdr.serialize]

theorem padFile_small {content : List UInt8} (h : content.length ≤ 0xffffff - 24) :
    (padFile content).usesLarge content = false := by
  have : isLarge (padFile content).attrs = false := by simp [padFile, isLarge]
  unfold File.usesLarge
  rw [this]; simp; omega

/-- What the inserted padding achieves. -/
theorem alignPad_ok {len co : Nat} {attrs : UInt8} {pad : List UInt8} (hl : len % 8 = 0) (hc : co % 8 = 0)
    (h : alignPad len co (alignExp attrs) = .ok pad) :
    (len + pad.length) % 8 = 0 ∧ (len + pad.length + co) % 2 ^ alignExp attrs = 0 ∧
      (pad = [] ∨ ∃ content, pad = (padFile content).header content ++ content ∧ content.length ≤ 0xffffff - 24 ∧
        content.length + 32 < 2 ^ 64 ∧ pad.length = 24 + content.length) := by
  unfold alignPad at h
  split at h
  · rename_i hne
    split at h
    · rename_i hA
      rw [padFile_serialize] at h
      cases h
      have he : 4 ≤ alignExp attrs := by
        rcases alignExp_cases attrs with h0 | h0
        · rw [h0] at hne; simp [Nat.mod_one] at hne
        · exact h0
      obtain ⟨k, hk⟩ : ∃ k, 2 ^ alignExp attrs = 8 * k := by
        refine ⟨2 ^ (alignExp attrs - 3), ?_⟩
        have : alignExp attrs = 3 + (alignExp attrs - 3) := by omega
        conv => lhs; rw [this, Nat.pow_add]
      have hpos := Nat.two_pow_pos (alignExp attrs)
      have hA23 : 2 ^ alignExp attrs ≤ 2 ^ 23 := by
        apply Nat.pow_le_pow_right (by decide)
        apply Nat.le_of_not_lt
        intro hlt
        have := Nat.pow_le_pow_right (n := 2) (by decide) hlt
        omega
      generalize hA' : 2 ^ alignExp attrs = A at *
      have hrem := Nat.mod_lt (len + 24 + co) hpos
      generalize hr : (len + 24 + co) % A = rem at *
      have hr8 : rem % 8 = 0 := by
        have h1 := Nat.div_add_mod (len + 24 + co) A
        rw [hr, hk, Nat.mul_assoc] at h1
        omega
      have hcl : (List.replicate (if rem = 0 then 0 else A - rem) (0xff : UInt8)).length
          = if rem = 0 then 0 else A - rem := by simp
      generalize hP : (if rem = 0 then 0 else A - rem) = P at *
      have hP8 : P % 8 = 0 := by split at hP <;> omega
      have hPA : (len + 24 + co + P) % A = 0 := by
        have h1 := Nat.div_add_mod (len + 24 + co) A
        rw [hr] at h1
        split at hP
        · subst hP; rw [← h1, Nat.add_zero, ‹rem = 0›, Nat.add_zero]; exact Nat.mul_mod_right ..
        · have : len + 24 + co + P = A * ((len + 24 + co) / A + 1) := by
            rw [Nat.mul_add]; omega
          rw [this]; exact Nat.mul_mod_right ..
      have hPs : P ≤ 0xffffff - 24 := by split at hP <;> omega
      have hhl := header_length (padFile (List.replicate P 0xff)) (List.replicate P 0xff)
      rw [padFile_small (by rw [hcl]; exact hPs)] at hhl
      simp only [Bool.false_eq_true, if_false] at hhl
      have hlen : ((padFile (List.replicate P 0xff)).header (List.replicate P 0xff) ++
          List.replicate P (0xff : UInt8)).length = 24 + P := by rw [List.length_append, hhl, hcl]
      refine ⟨by rw [hlen]; omega, ?_, Or.inr ⟨_, rfl, by rw [hcl]; exact hPs, by rw [hcl]; omega,
        by rw [hlen, hcl]⟩⟩
      rw [hlen]
      have : len + (24 + P) + co = len + 24 + co + P := by omega
      rw [this]; exact hPA
    · cases h
  · rename_i hne
    cases h
    exact ⟨by simpa using hl, by simpa using hne, Or.inl rfl⟩

/-! ### Iterating over files -/

theorem header_state (f : File) (content tail : List UInt8) :
    byteAt (f.header content ++ tail) 23 = stateByte f.polarity := by
  unfold File.header headerOf
  split
  · exact headerBytes_state rfl _
  · exact headerBytes_state (by simp) _

theorem erase_or (a : Nat) : eraseByte a = 0 ∨ eraseByte a = 0xff := by
  unfold eraseByte; split <;> simp

theorem stateByte_not_erase (p : Bool) (a : Nat) : stateByte p ≠ eraseByte a := by
  rcases erase_or a with h | h <;> rw [h] <;> cases p <;> decide

/-- One step over a serialised file. -/
theorem step_file {it : FIter} {f : File} {content tail : List UInt8} {a : Nat} (he : it.error = false)
    (hp : it.erase = eraseByte a)
    (hd : it.data.drop it.next = f.header content ++ (content ++ tail)) (hn : f.name < 2 ^ 128)
    (hl : it.data.length + 8 < 2 ^ 64) (hle : it.next ≤ it.data.length)
    (hck : hasChecksum f.attrs = true → sum8 content = 0) (q : UInt8) :
    it.step = .item (.ok ⟨f.header content ++ content, f.name, f.fileType,
        if f.usesLarge content then f.attrs ||| 0x01 else f.attrs, f.polarity,
        (f.header content ++ content).length, if f.usesLarge content then 32 else 24⟩)
      { it with next := it.next + (f.header content ++ content).length +
        (pad8 q (it.next + (f.header content ++ content).length)).length } := by
  have hlen : (it.data.drop it.next).length = (f.header content).length + (content.length + tail.length) := by
    rw [hd]; simp
  have hh : 24 ≤ (f.header content).length := by rw [header_length]; split <;> omega
  have hlen' := hlen
  rw [List.length_drop] at hlen'
  have hall : ((slice it.data it.next 24).all (· == it.erase)) = false := by
    rw [Bool.eq_false_iff]
    intro hall
    rw [List.all_eq_true] at hall
    have hs := header_state f content (content ++ tail)
    have hmem : stateByte f.polarity ∈ slice it.data it.next 24 := by
      unfold slice
      rw [hd]
      rw [← hs]
      unfold byteAt
      have h23 : 23 < (f.header content ++ (content ++ tail)).length := by simp; omega
      rw [List.drop_eq_getElem_cons h23]
      simp only [List.headD_cons]
      have : (f.header content ++ (content ++ tail))[23] =
          ((f.header content ++ (content ++ tail)).take 24)[23]'(by simp; omega) := by simp
      rw [this]
      exact List.getElem_mem _
    have := hall _ hmem
    rw [hp] at this
    exact stateByte_not_erase _ _ (by simpa using this)
  have hc32 : content.length + 32 < 2 ^ 64 := by omega
  have hnew := fileRef_of_file (f := f) (content := content) (tail := tail) hn hc32
  rw [if_neg (by rintro ⟨h1, h2⟩; exact h2 (hck h1))] at hnew
  unfold FIter.step
  rw [he, if_neg (by simp), if_neg (by omega), if_neg (by omega), hall, if_neg (by simp), hd, hnew]
  unfold FIter.advance
  have : Base.alignUp 64 (it.next + (f.header content ++ content).length) 8 = .ok (it.next +
      (f.header content ++ content).length + (pad8 q (it.next + (f.header content ++ content).length)).length) :=
    alignUp8_eq q (by rw [List.length_append]; omega)
  simp only [this, he]

theorem step_erased {it : FIter} {k : Nat} {tail : List UInt8}
    (hd : it.data.drop it.next = List.replicate k it.erase ++ tail) (hk : 24 ≤ k ∨ tail = []) :
    it.step = .done := by
  unfold FIter.step
  split
  · rfl
  · split
    · rfl
    · split
      · rfl
      · rename_i h3
        rw [if_pos]
        unfold slice
        rw [hd] at h3 ⊢
        rw [List.all_eq_true]
        intro x hx
        have : x ∈ List.replicate k it.erase := by
          rcases hk with hk | hk
          · rw [List.take_append_of_le_length (by simp; exact hk)] at hx
            exact List.mem_of_mem_take hx
          · rw [hk, List.append_nil] at hx
            exact List.mem_of_mem_take hx
        rw [List.eq_of_mem_replicate this]; simp

theorem drain_cons {it it' : FIter} {r : Except FfsError FileRef} {n : Nat} {rs : List (Except FfsError FileRef)}
    (h : it.step = .item r it') (h' : it'.drain n = some (.ok rs)) : it.drain (n + 1) = some (.ok (r :: rs)) := by
  simp only [FIter.drain, h, h']

theorem drain_mono {it : FIter} {n k : Nat} {x} (h : it.drain n = some x) : it.drain (n + k) = some x := by
  induction n generalizing it x with
  | zero => cases h
  | succ n ih =>
    have e : n + 1 + k = (n + k) + 1 := by omega
    rw [e]
    unfold FIter.drain at h ⊢
    cases hs : it.step with
    | done => simp only [hs] at h ⊢; exact h
    | panic => simp only [hs] at h ⊢; exact h
    | item r it' =>
      simp only [hs] at h ⊢
      cases hd : it'.drain n with
      | none => rw [hd] at h; cases h
      | some y => rw [hd] at h; rw [ih hd]; exact h

end Verif.Ffs
