import Verif.Fv.Model
import Verif.Ffs.LbaProps
/-!
C81: the firmware volume block protocol.
-/
namespace Verif.Fv
open Verif.Ffs

/-- The interface `this` is the block interface of the volume `v` at `base`. -/
structure BlockOf (m : Mem) (info : Info) (this base : Nat) (v : VolumeRef) : Prop where
  known : info.get this = some (.block, base)
  volume : openVolume m base = .ok v

theorem BlockOf.eq {m : Mem} {info : Info} {this base : Nat} {v : VolumeRef} (h : BlockOf m info this base v) :
    volumeOf m info .block this = .ok (base, v) := by
  unfold volumeOf
  rw [h.known]
  simp only [if_true, h.volume]

/-- C81: attributes and address are those of the volume. -/
theorem block_describes {m : Mem} {info : Info} {this base : Nat} {v : VolumeRef} (h : BlockOf m info this base v) :
    blockAttributes m info this true = (.success, some v.attributes) ∧ physicalAddress info this true = (.success, some base) := by
  refine ⟨?_, ?_⟩
  · unfold blockAttributes; rw [h.eq]; rfl
  · unfold physicalAddress; rw [h.known]; rfl

/-- C81: an interface pointer the core did not hand out, or that of the other protocol, is refused by every function, and nothing is written. -/
theorem block_refused (dbg : Bool) (m : Mem) {info : Info} {this : Nat} (h : ∀ base, info.get this ≠ some (.block, base)) (lba offset n : Nat) :
    blockAttributes m info this true = (.notFound, none) ∧ physicalAddress info this true = (.notFound, none) ∧
    blockSize dbg m info this lba true = (.notFound, none) ∧ blockRead dbg m info this lba offset n true = ⟨.notFound, none, none⟩ := by
  have hv : volumeOf m info .block this = .err .notFound := by
    unfold volumeOf
    cases hi : info.get this with
    | none => rfl
    | some x =>
      obtain ⟨k, base⟩ := x
      cases k with
      | block => exact absurd hi (h base)
      | volume => rfl
  refine ⟨?_, ?_, ?_, ?_⟩
  · unfold blockAttributes; rw [hv]; rfl
  · unfold physicalAddress
    cases hi : info.get this with
    | none => rfl
    | some x =>
      obtain ⟨k, base⟩ := x
      cases k with
      | block => exact absurd hi (h base)
      | volume => rfl
  · unfold blockSize; rw [hv]; rfl
  · unfold blockRead blockSpan; rw [hv]; rfl

/-- C81: a block number beyond the block map is refused, by both functions. -/
theorem block_beyond (dbg : Bool) {m : Mem} {info : Info} {this base : Nat} {v : VolumeRef} (h : BlockOf m info this base v)
    (hb : numBlocks v.blockMap < 2 ^ 32) (hB : numBytes v.blockMap < 2 ^ 32) {lba : Nat} (hl : numBlocks v.blockMap ≤ lba) (offset n : Nat) :
    blockSize dbg m info this lba true = (.invalidParameter, none) ∧ blockRead dbg m info this lba offset n true = ⟨.invalidParameter, none, none⟩ := by
  have hlba : lbaOf dbg v lba = .err .invalidParameter := by
    unfold lbaOf
    split
    · rfl
    · rw [(lba_info_partial dbg v.blockMap lba hb hB).1 hl]; rfl
  refine ⟨?_, ?_⟩
  · unfold blockSize; rw [h.eq]; simp only [Bool.not_true, Bool.false_eq_true, if_false, Outcome.ok_bind, hlba]
  · unfold blockRead blockSpan
    rw [h.eq]
    simp only [Bool.not_true, Bool.false_eq_true, if_false, Outcome.ok_bind, hlba]
    rfl

/-- C81 (partial: right for the blocks of the first region of the block map only, see `read_wrong_place`; and for a release build, a debug build panics when
a read crosses the end of the block). Reading `n` bytes at an offset within a block delivers the bytes of the volume that are there. If the block ends
before, it delivers the bytes up to the end of the block, and BAD_BUFFER_SIZE. -/
theorem block_read_partial (dbg : Bool) {m : Mem} {info : Info} {this base : Nat} {v : VolumeRef} (h : BlockOf m info this base v)
    (hb : numBlocks v.blockMap < 2 ^ 32) (hB : numBytes v.blockMap < 2 ^ 32) (hbase : base + numBytes v.blockMap < 2 ^ 64)
    {first : Blocks} {more : List Blocks} (hm : v.blockMap = first :: more) {lba off size : Nat} (hl : lba < first.num)
    (hlay : (layoutFrom 0 v.blockMap)[lba]? = some (off, size)) {offset n : Nat} (ho : offset ≤ size) (hn : n < 2 ^ 63) :
    (offset + n ≤ size → blockRead dbg m info this lba offset n true = ⟨.success, some n, some (bytesAt m (base + off + offset) n)⟩) ∧
    (size < offset + n → dbg = false →
      blockRead dbg m info this lba offset n true = ⟨.badBufferSize, some (size - offset), some (bytesAt m (base + off + offset) (size - offset))⟩) ∧
    (size < offset + n → dbg = true → blockRead dbg m info this lba offset n true = ⟨.panics, none, none⟩) := by
  have hbl := hb
  have hnb : first.num ≤ numBlocks v.blockMap := by rw [hm, numBlocks_cons]; omega
  have hnB : first.num * first.len ≤ numBytes v.blockMap := by rw [hm, numBytes_cons]; omega
  obtain ⟨before, e, after, hbm, h3, h4, h5, h6, h7⟩ := (lba_info_partial dbg v.blockMap lba hb hB).2 (by omega)
  have hbefore : before = [] := by
    cases before with
    | nil => rfl
    | cons x xs =>
      rw [hm] at hbm
      simp only [List.cons_append, List.cons.injEq] at hbm
      rw [numBlocks_cons, ← hbm.1] at h3
      omega
  obtain ⟨o', hlay', hinfo⟩ := h7 hbefore
  subst hbefore
  rw [hlay] at hlay'
  have e1 : off = o' := by injection hlay' with h; injection h
  have e2 : size = e.len := by injection hlay' with h; injection h
  subst e1
  have hfe : first = e := by
    rw [hm] at hbm
    simp only [List.nil_append, List.cons.injEq] at hbm
    exact hbm.1
  have hoff : off = lba * e.len := by
    rw [h5] at hlay
    injection hlay with h
    injection h with h _
    simp [numBytes, numBlocks] at h
    exact h.symm
  have hfit : off + size ≤ first.num * first.len := by
    rw [hoff, e2, hfe]
    have : (lba + 1) * e.len ≤ e.num * e.len := Nat.mul_le_mul_right _ (by rw [← hfe]; omega)
    rw [Nat.add_mul, Nat.one_mul] at this
    exact this
  have hlba : lbaOf dbg v lba = .ok (off, size, e.num - lba) := by
    unfold lbaOf
    rw [if_neg (by omega), hinfo, e2]
  have hlt : offset + n < 2 ^ 64 := by omega
  have hd : (dbg && decide (2 ^ 64 ≤ offset + n)) = false := by cases dbg <;> simp; omega
  have hst : startAt dbg base off offset = .ok (base + off + offset) := by
    unfold startAt
    have : (dbg && decide (2 ^ 64 ≤ base + off + offset)) = false := by cases dbg <;> simp; omega
    rw [this, Nat.mod_eq_of_lt (by omega)]
    rfl
  have hcl : ∀ r, clip dbg offset n size = .ok r → blockSpan dbg m info this lba offset n = .ok (base + off + offset, r) := by
    intro r hr
    unfold blockSpan
    rw [h.eq]
    simp only [Outcome.ok_bind, hlba, hr, hst]
  refine ⟨fun hs => ?_, fun hs hdb => ?_, fun hs hdb => ?_⟩
  · unfold blockRead
    rw [hcl n (by
      unfold clip
      rw [hd, Nat.mod_eq_of_lt hlt]
      simp only [Bool.false_eq_true, if_false]
      rw [if_neg (by omega)])]
    simp
  · unfold blockRead
    rw [hcl (size - offset) (by
      unfold clip
      rw [hd, Nat.mod_eq_of_lt hlt, hdb]
      simp only [Bool.false_eq_true, if_false]
      rw [if_pos (by omega)]
      congr 1
      omega)]
    simp only [Bool.not_true, Bool.false_eq_true, if_false]
    rw [if_neg (by omega), if_pos (by omega)]
  · unfold blockRead blockSpan
    rw [h.eq]
    simp only [Outcome.ok_bind, hlba]
    have : clip dbg offset n size = .panic := by
      unfold clip
      rw [hd, Nat.mod_eq_of_lt hlt, hdb]
      simp only [Bool.false_eq_true, if_false]
      rw [if_pos (by omega)]
      rfl
    rw [this]
    rfl

/-- C81: a read never copies more bytes than the caller has room for, and the number it reports is the number it copied. -/
theorem block_read_bounded (dbg : Bool) (m : Mem) (info : Info) (this lba offset n : Nat) (args : Bool) {d : List UInt8}
    (h : (blockRead dbg m info this lba offset n args).data = some d) :
    d.length ≤ n ∧ (blockRead dbg m info this lba offset n args).num = some d.length := by
  unfold blockRead at h ⊢
  split at h
  · cases h
  · rename_i ha
    rw [if_neg ha]
    split at h
    · cases h
    · cases h
    · split at h
      · cases h
      · rename_i a len _ hle
        simp only [Option.some.injEq] at h
        subst h
        rw [if_neg hle]
        simp [bytesAt]
        omega

/-- Finding: GetBlockSize reports the offset of the block as its size, and the size as the number of blocks. -/
theorem block_size_swapped (dbg : Bool) {m : Mem} {info : Info} {this base : Nat} {v : VolumeRef} (h : BlockOf m info this base v) {lba off size rest : Nat}
    (hl : lba < 2 ^ 32) (hi : lbaInfo dbg v.blockMap lba = .ok (off, size, rest)) :
    blockSize dbg m info this lba true = (.success, some (off, size)) := by
  unfold blockSize
  rw [h.eq]
  have : lbaOf dbg v lba = .ok (off, size, rest) := by
    unfold lbaOf
    rw [if_neg (by omega), hi]
  simp only [Bool.not_true, Bool.false_eq_true, if_false, Outcome.ok_bind, this]

/-- Finding: in particular the first block of every volume is said to have the size 0. -/
theorem first_block_size_zero (dbg : Bool) {m : Mem} {info : Info} {this base : Nat} {v : VolumeRef} (h : BlockOf m info this base v)
    (hb : numBlocks v.blockMap < 2 ^ 32) (hB : numBytes v.blockMap < 2 ^ 32) {first : Blocks} {more : List Blocks} (hm : v.blockMap = first :: more)
    (h0 : 0 < first.num) : blockSize dbg m info this 0 true = (.success, some (0, first.len)) := by
  refine block_size_swapped dbg h (rest := first.num) (by decide) ?_
  unfold lbaInfo
  rw [hm]
  have h1 : first.num ≤ numBlocks v.blockMap := by rw [hm, numBlocks_cons]; omega
  have hd1 : (dbg && decide (2 ^ 32 ≤ 0 + first.num)) = false := by cases dbg <;> simp; omega
  simp only [lbaLoop]
  rw [hd1, Nat.mod_eq_of_lt (by omega)]
  simp only [Bool.false_eq_true, if_false]
  rw [if_pos (by omega)]
  simp only [Outcome.ok_bind, lbaResult]
  rw [if_neg (by omega)]
  simp

/-- Finding: a read that starts behind the end of the block is not refused. In a release build it reports that the buffer is too small and asks for one of
almost 2^64 bytes. -/
theorem read_behind_block {m : Mem} {info : Info} {this base : Nat} {v : VolumeRef} (h : BlockOf m info this base v) {lba off size rest : Nat}
    (hl : lba < 2 ^ 32) (hi : lbaInfo false v.blockMap lba = .ok (off, size, rest)) {offset n : Nat} (ho : size < offset) (hs : offset + n < 2 ^ 64) :
    blockRead false m info this lba offset n true = ⟨.bufferTooSmall, some (2 ^ 64 - (offset - size)), none⟩ := by
  have hc : clip false offset n size = .ok (2 ^ 64 - (offset - size)) := by
    unfold clip
    simp only [Bool.false_and, Bool.false_eq_true, if_false]
    rw [Nat.mod_eq_of_lt hs, if_pos (by omega)]
    congr 1
    rw [Nat.mod_eq_of_lt (by omega)]
    omega
  unfold blockRead blockSpan
  rw [h.eq]
  have : lbaOf false v lba = .ok (off, size, rest) := by
    unfold lbaOf
    rw [if_neg (by omega), hi]
  simp only [Bool.not_true, Bool.false_eq_true, if_false, Outcome.ok_bind, this, hc, startAt, Bool.false_and]
  rw [if_pos (by omega)]

/-- Finding: behind the first region of the block map, a read delivers bytes from the wrong place, beyond the block. -/
theorem read_wrong_place {m : Mem} {info : Info} {this base : Nat} {v : VolumeRef} (h : BlockOf m info this base v) {before after : List Blocks}
    {e : Blocks} (hm : v.blockMap = before ++ e :: after) {i : Nat} (hi : i < e.num) (h0 : 0 < e.len) (hbef : 0 < numBlocks before)
    (hb : numBlocks v.blockMap < 2 ^ 32) (hB : numBytes v.blockMap < 2 ^ 32) (hfit : numBytes before + (numBlocks before + i) * e.len < 2 ^ 32)
    (hbase : base < 2 ^ 63) :
    ∃ right, (layoutFrom 0 v.blockMap)[numBlocks before + i]? = some (right, e.len) ∧
      blockRead false m info this (numBlocks before + i) 0 e.len true
        = ⟨.success, some e.len, some (bytesAt m (base + (right + numBlocks before * e.len)) e.len)⟩ := by
  rw [hm] at hb hB ⊢
  obtain ⟨right, wrong, h1, h2, h3, _⟩ := lba_offset_wrong_always false before after e i hi h0 hbef hb hB hfit
  have hnb : numBlocks (before ++ e :: after) = numBlocks before + (e.num + numBlocks after) := by
    simp [numBlocks]
  have hnB : numBytes (before ++ e :: after) = numBytes before + (e.num * e.len + numBytes after) := by
    simp [numBytes]
  have hel : e.len ≤ e.num * e.len := Nat.le_mul_of_pos_left _ (by omega)
  have hw : wrong < 2 ^ 32 := by
    have := layoutFrom_get (before ++ e :: after) 0 before e after i rfl hi
    rw [h1] at this
    injection this with this
    injection this with this _
    rw [h3, this]
    rw [Nat.add_mul] at hfit
    omega
  refine ⟨right, h1, ?_⟩
  have hlba : lbaOf false v (numBlocks before + i) = .ok (wrong, e.len, e.num - i) := by
    unfold lbaOf
    rw [if_neg (by omega), hm, h2]
  have hc : clip false 0 e.len e.len = .ok e.len := by
    unfold clip
    simp only [Bool.false_and, Bool.false_eq_true, if_false]
    rw [Nat.mod_eq_of_lt (by omega), if_neg (by omega)]
  unfold blockRead blockSpan
  rw [h.eq]
  simp only [Bool.not_true, Bool.false_eq_true, if_false, Outcome.ok_bind, hlba, hc, startAt, Bool.false_and]
  rw [Nat.mod_eq_of_lt (by omega), if_neg (by omega), if_neg (by omega)]
  congr 2
  rw [← h3]
  rfl

end Verif.Fv
