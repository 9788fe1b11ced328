import Verif.Ffs.VolumeModel
/-!
C41: block lookup.
-/
namespace Verif.Ffs

/-- Specification: the blocks of a block map laid out one after the other, as (offset, size). -/
def layoutFrom (start : Nat) : List Blocks → List (Nat × Nat)
  | [] => []
  | e :: es => (List.range e.num).map (fun i => (start + i * e.len, e.len)) ++ layoutFrom (start + e.num * e.len) es

/-- The number of blocks of a block map. -/
def numBlocks (bm : List Blocks) : Nat := (bm.map Blocks.num).sum

/-- The number of bytes of a block map. -/
def numBytes (bm : List Blocks) : Nat := (bm.map fun e => e.num * e.len).sum

theorem numBlocks_cons (e : Blocks) (es : List Blocks) : numBlocks (e :: es) = e.num + numBlocks es := by
  simp [numBlocks]

theorem numBytes_cons (e : Blocks) (es : List Blocks) : numBytes (e :: es) = e.num * e.len + numBytes es := by
  simp [numBytes]

theorem layoutFrom_length (start : Nat) (bm : List Blocks) : (layoutFrom start bm).length = numBlocks bm := by
  induction bm generalizing start with
  | nil => rfl
  | cons e es ih => simp [layoutFrom, ih, numBlocks_cons]

theorem lbaLoop_split (dbg : Bool) (lba : Nat) (bm : List Blocks) :
    ∀ total offset size, total + numBlocks bm < 2 ^ 32 → offset + numBytes bm < 2 ^ 32 → total ≤ lba →
      (numBlocks bm + total ≤ lba → ∃ o s, lbaLoop dbg lba bm total offset size = .ok (total + numBlocks bm, o, s)) ∧
      (lba < numBlocks bm + total → ∃ before e after, bm = before ++ e :: after ∧
        total + numBlocks before ≤ lba ∧ lba < total + numBlocks before + e.num ∧
        lbaLoop dbg lba bm total offset size
          = .ok (total + numBlocks before + e.num, offset + numBytes before, e.len)) := by
  induction bm with
  | nil =>
    intro total offset size h1 h2 h3
    refine ⟨fun _ => ⟨offset, size, rfl⟩, fun h => ?_⟩
    simp [numBlocks] at h; omega
  | cons e es ih =>
    intro total offset size h1 h2 h3
    rw [numBlocks_cons] at h1
    rw [numBytes_cons] at h2
    have hm1 : (total + e.num) % 2 ^ 32 = total + e.num := Nat.mod_eq_of_lt (by omega)
    have hm2 : (offset + e.num * e.len) % 2 ^ 32 = offset + e.num * e.len := Nat.mod_eq_of_lt (by omega)
    have hd1 : (dbg && decide (2 ^ 32 ≤ total + e.num)) = false := by cases dbg <;> simp; omega
    have hd2 : (dbg && decide (2 ^ 32 ≤ offset + e.num * e.len)) = false := by cases dbg <;> simp; omega
    unfold lbaLoop
    rw [hd1, hd2, hm1, hm2]
    simp only [Bool.false_eq_true, if_false]
    by_cases hl : lba < total + e.num
    · rw [if_pos hl]
      refine ⟨fun h => by rw [numBlocks_cons] at h; omega, fun _ => ⟨[], e, es, rfl, ?_, ?_, ?_⟩⟩
      · simpa [numBlocks] using h3
      · simpa [numBlocks] using hl
      · simp [numBlocks, numBytes]
    · rw [if_neg hl]
      obtain ⟨i1, i2⟩ := ih (total + e.num) (offset + e.num * e.len) e.len (by omega) (by omega) (by omega)
      refine ⟨fun h => ?_, fun h => ?_⟩
      · rw [numBlocks_cons] at h
        obtain ⟨o, s, hh⟩ := i1 (by omega)
        refine ⟨o, s, ?_⟩
        rw [hh, numBlocks_cons]; congr 2; omega
      · rw [numBlocks_cons] at h
        obtain ⟨b, e', a, hb, h4, h5, h6⟩ := i2 (by omega)
        refine ⟨e :: b, e', a, by rw [hb]; rfl, ?_, ?_, ?_⟩
        · rw [numBlocks_cons]; omega
        · rw [numBlocks_cons]; omega
        · rw [h6, numBlocks_cons, numBytes_cons]
          congr 2
          · omega
          · congr 1; omega

theorem layoutFrom_get (bm : List Blocks) :
    ∀ start (before : List Blocks) e after i, bm = before ++ e :: after → i < e.num →
      (layoutFrom start bm)[numBlocks before + i]? = some (start + numBytes before + i * e.len, e.len) := by
  intro start before e after i hb hi
  subst hb
  induction before generalizing start with
  | nil =>
    simp only [List.nil_append, layoutFrom, numBlocks, numBytes, List.map_nil, List.sum_nil, Nat.zero_add,
      Nat.add_zero]
    rw [List.getElem?_append_left (by simpa using hi)]
    simp [hi]
  | cons x xs ih =>
    simp only [List.cons_append, layoutFrom]
    rw [List.getElem?_append_right (by simp [numBlocks_cons]; omega)]
    simp only [List.length_map, List.length_range, numBlocks_cons, numBytes_cons]
    have : x.num + numBlocks xs + i - x.num = numBlocks xs + i := by omega
    rw [this, ih]
    congr 2; omega

/-- C41 (partial: the offset is right only in the first region, see `lba_offset_wrong`). For a block map that
describes less than 4 GiB: the lookup fails exactly when there is no such block; otherwise it returns the size of
the block and how many blocks are left in its region, and if the block lies in the first region also its offset. In
general it returns `offset of the region + lba * size`. -/
theorem lba_info_partial (dbg : Bool) (bm : List Blocks) (lba : Nat)
    (hb : numBlocks bm < 2 ^ 32) (hB : numBytes bm < 2 ^ 32) :
    (numBlocks bm ≤ lba → lbaInfo dbg bm lba = .err .invalidParameter) ∧
    (lba < numBlocks bm → ∃ before e after, bm = before ++ e :: after ∧
      numBlocks before ≤ lba ∧ lba < numBlocks before + e.num ∧
      (layoutFrom 0 bm)[lba]? = some (numBytes before + (lba - numBlocks before) * e.len, e.len) ∧
      (numBytes before + lba * e.len < 2 ^ 32 → lbaInfo dbg bm lba
        = .ok (numBytes before + lba * e.len, e.len, numBlocks before + e.num - lba)) ∧
      (before = [] → ∃ offset, (layoutFrom 0 bm)[lba]? = some (offset, e.len) ∧
        lbaInfo dbg bm lba = .ok (offset, e.len, e.num - lba))) := by
  obtain ⟨h1, h2⟩ := lbaLoop_split dbg lba bm 0 0 0 (by omega) (by omega) (by omega)
  constructor
  · intro hl
    obtain ⟨o, s, h⟩ := h1 (by omega)
    unfold lbaInfo
    rw [h]
    simp only [Outcome.ok_bind, lbaResult]
    rw [if_pos (by omega)]
  · intro hl
    obtain ⟨before, e, after, hbm, h3, h4, h5⟩ := h2 (by omega)
    have hmain : numBytes before + lba * e.len < 2 ^ 32 → lbaInfo dbg bm lba
        = .ok (numBytes before + lba * e.len, e.len, numBlocks before + e.num - lba) := by
      intro hlt
      unfold lbaInfo
      rw [h5]
      simp only [Outcome.ok_bind, lbaResult, Nat.zero_add]
      rw [if_neg (by omega)]
      have hd : (dbg && decide (2 ^ 32 ≤ numBytes before + lba * e.len)) = false := by
        cases dbg <;> simp; omega
      rw [hd, Nat.mod_eq_of_lt hlt]
      rfl
    have hget := layoutFrom_get bm 0 before e after (lba - numBlocks before) hbm (by omega)
    have hidx : numBlocks before + (lba - numBlocks before) = lba := by omega
    rw [hidx, Nat.zero_add] at hget
    refine ⟨before, e, after, hbm, by omega, by omega, hget, hmain, ?_⟩
    intro hnil
    subst hnil
    have hz : numBytes [] = 0 := rfl
    have hz' : numBlocks [] = 0 := rfl
    simp only [hz, hz', Nat.zero_add, Nat.sub_zero] at hget hmain h3 h4
    refine ⟨lba * e.len, by simpa using hget, ?_⟩
    have hle : lba * e.len ≤ e.num * e.len := Nat.mul_le_mul_right _ (by omega)
    have hB' : e.num * e.len ≤ numBytes bm := by rw [hbm]; simp [numBytes_cons]
    have := hmain (by omega)
    simpa using this

/-- Blocks of two sizes: the hypotheses hold and the lookup in the first region is right. -/
example : numBlocks [⟨2, 8⟩, ⟨1, 4⟩] < 2 ^ 32 ∧ numBytes [⟨2, 8⟩, ⟨1, 4⟩] < 2 ^ 32 ∧
    lbaInfo false [⟨2, 8⟩, ⟨1, 4⟩] 1 = .ok (8, 8, 1) := by decide

/-- Finding: behind the first region the offset is wrong. The third block of this map starts at byte 16, the lookup
says 24, which is beyond the 20 bytes the map describes. -/
theorem lba_offset_wrong :
    (layoutFrom 0 [⟨2, 8⟩, ⟨1, 4⟩])[2]? = some (16, 4) ∧
    lbaInfo false [⟨2, 8⟩, ⟨1, 4⟩] 2 = .ok (24, 4, 1) ∧ numBytes [⟨2, 8⟩, ⟨1, 4⟩] = 20 := by decide

/-- Finding, in general: a block behind the first region gets an offset that is too large, by the number of blocks
before its region times its size. -/
theorem lba_offset_wrong_always (dbg : Bool) (before after : List Blocks) (e : Blocks) (i : Nat)
    (hi : i < e.num) (h0 : 0 < e.len) (hbef : 0 < numBlocks before)
    (hb : numBlocks (before ++ e :: after) < 2 ^ 32) (hB : numBytes (before ++ e :: after) < 2 ^ 32)
    (hfit : numBytes before + (numBlocks before + i) * e.len < 2 ^ 32) :
    ∃ right wrong, (layoutFrom 0 (before ++ e :: after))[numBlocks before + i]? = some (right, e.len) ∧
      lbaInfo dbg (before ++ e :: after) (numBlocks before + i) = .ok (wrong, e.len, e.num - i) ∧
      wrong = right + numBlocks before * e.len ∧ right < wrong := by
  have hget := layoutFrom_get (before ++ e :: after) 0 before e after i rfl hi
  refine ⟨numBytes before + i * e.len, numBytes before + (numBlocks before + i) * e.len, by simpa using hget, ?_,
    ?_, ?_⟩
  · have hdef : ∀ (bm : List Blocks) (t o s : Nat), t + numBlocks bm + numBlocks (e :: after) < 2 ^ 32 →
        o + numBytes bm + numBytes (e :: after) < 2 ^ 32 →
        lbaLoop dbg (t + numBlocks bm + i) (bm ++ e :: after) t o s
          = .ok (t + numBlocks bm + e.num, o + numBytes bm, e.len) := by
      intro bm
      induction bm with
      | nil =>
        intro t o s h1 h2
        rw [numBlocks_cons] at h1
        rw [numBytes_cons] at h2
        have z1 : numBlocks [] = 0 := rfl
        have z2 : numBytes [] = 0 := rfl
        rw [z1] at h1 ⊢
        rw [z2] at h2 ⊢
        simp only [List.nil_append, lbaLoop, Nat.add_zero] at *
        have hd1 : (dbg && decide (2 ^ 32 ≤ t + e.num)) = false := by cases dbg <;> simp; omega
        rw [hd1, Nat.mod_eq_of_lt (by omega)]
        simp only [Bool.false_eq_true, if_false]
        rw [if_pos (by omega)]
      | cons x xs ih =>
        intro t o s h1 h2
        rw [numBlocks_cons x] at h1 ⊢
        rw [numBytes_cons x] at h2 ⊢
        simp only [List.cons_append, lbaLoop]
        have hd1 : (dbg && decide (2 ^ 32 ≤ t + x.num)) = false := by cases dbg <;> simp; omega
        have hd2 : (dbg && decide (2 ^ 32 ≤ o + x.num * x.len)) = false := by cases dbg <;> simp; omega
        rw [hd1, hd2, Nat.mod_eq_of_lt (a := t + x.num) (by omega), Nat.mod_eq_of_lt (a := o + x.num * x.len) (by omega)]
        simp only [Bool.false_eq_true, if_false]
        rw [if_neg (by omega)]
        have := ih (t + x.num) (o + x.num * x.len) x.len (by omega) (by omega)
        have e1 : t + (x.num + numBlocks xs) + i = t + x.num + numBlocks xs + i := by omega
        rw [e1, this]
        congr 2
        · omega
        · congr 1; omega
    have hnb : ∀ xs ys : List Blocks, numBlocks (xs ++ ys) = numBlocks xs + numBlocks ys := by
      intro xs ys; simp [numBlocks]
    have hnB : ∀ xs ys : List Blocks, numBytes (xs ++ ys) = numBytes xs + numBytes ys := by
      intro xs ys; simp [numBytes]
    rw [hnb] at hb
    rw [hnB] at hB
    have := hdef before 0 0 0 (by omega) (by omega)
    simp only [Nat.zero_add] at this
    unfold lbaInfo
    rw [this]
    simp only [Outcome.ok_bind, lbaResult]
    rw [if_neg (by omega)]
    have hd : (dbg && decide (2 ^ 32 ≤ numBytes before + (numBlocks before + i) * e.len)) = false := by
      cases dbg <;> simp; omega
    rw [hd, Nat.mod_eq_of_lt hfit]
    simp only [Bool.false_eq_true, if_false]
    congr 3; omega
  · rw [Nat.add_mul]; omega
  · rw [Nat.add_mul]
    have := Nat.mul_pos hbef h0
    omega

end Verif.Ffs
