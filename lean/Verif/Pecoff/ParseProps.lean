import Verif.Pecoff.LoadProps
/-!
C61: what the relocation directory is read as.
-/
namespace Verif.Pecoff
open Verif

theorem readLe_iff {b : List UInt8} {i n v : Nat} :
    readLe b i n = some v ↔ i + n ≤ b.length ∧ v < 256 ^ n ∧ b.drop i = leBytes n v ++ b.drop (i + n) := by
  unfold readLe
  constructor
  · intro h
    cases hs : getRange b i n with
    | none => rw [hs] at h; cases h
    | some s =>
      rw [hs] at h
      obtain ⟨h1, h2⟩ := getRange_some.1 hs
      have hl : s.length = n := by rw [h2, List.length_take, List.length_drop]; omega
      have hv : leVal s = v := by simpa using h
      refine ⟨h1, ?_, ?_⟩
      · rw [← hv, ← hl]; exact leVal_lt s
      · rw [← hv, ← hl, leBytes_leVal, hl, h2, ← List.drop_drop, List.take_append_drop]
  · rintro ⟨h1, h2, h3⟩
    have e : (b.drop i).take n = leBytes n v := by
      rw [h3, List.take_append, leBytes_length, Nat.sub_self, List.take_zero, List.append_nil,
        List.take_of_length_le (by rw [leBytes_length]; exact Nat.le_refl _)]
    rw [getRange_some.2 ⟨h1, e.symm⟩, Option.map_some, leVal_leBytes_of_lt h2]

theorem readLe_none {b : List UInt8} {i n : Nat} : readLe b i n = none ↔ b.length < i + n := by
  unfold readLe
  rw [Option.map_eq_none_iff, getRange_none]

theorem readLe_of {b : List UInt8} {i n v : Nat} {rest : List UInt8} (hn : n ≠ 0) (hv : v < 256 ^ n)
    (h : b.drop i = leBytes n v ++ rest) : readLe b i n = some v ∧ b.drop (i + n) = rest := by
  have hl := congrArg List.length h
  rw [List.length_drop, List.length_append, leBytes_length] at hl
  have hr : b.drop (i + n) = rest := by
    rw [← List.drop_drop, h, List.drop_append, leBytes_length, Nat.sub_self, List.drop_zero,
      List.drop_of_length_le (by rw [leBytes_length]; exact Nat.le_refl _), List.nil_append]
  exact ⟨readLe_iff.2 ⟨by omega, hv, by rw [hr]; exact h⟩, hr⟩

/-! ### Specification: the format of the relocation directory -/

/-- The bytes of a block: page, size, and two bytes per entry. -/
def Block.enc (b : Block) : List UInt8 :=
  leBytes 4 b.pageRva ++ leBytes 4 b.blockSize ++ b.relocs.flatMap (fun r => leBytes 2 r.typeAndOffset)

/-- The fields fit their width, and there are as many entries as fit the size the block states. -/
structure Block.Wf (b : Block) : Prop where
  page : b.pageRva < 2 ^ 32
  size : b.blockSize < 2 ^ 32
  count : b.relocs.length = (b.blockSize - 8 + 1) / 2
  entries : ∀ r ∈ b.relocs, r.typeAndOffset < 2 ^ 16 ∧ r.value = 0

/-- Blocks start at multiples of four: the padding behind a block. -/
def Block.padding (b : Block) : Nat := 2 * (b.relocs.length % 2)

/-- `data` is the encoding of the blocks, one behind the other, each padded; the padding behind the
last one may be missing. -/
inductive Encodes : List UInt8 → List Block → Prop
  | nil : Encodes [] []
  | last (b : Block) (pad : List UInt8) : b.Wf → pad.length ≤ b.padding → Encodes (b.enc ++ pad) [b]
  | cons (b : Block) (pad rest : List UInt8) (bs : List Block) : b.Wf → pad.length = b.padding →
      Encodes rest bs → Encodes (b.enc ++ (pad ++ rest)) (b :: bs)

theorem parseEntries_sound (data : List UInt8) (off stop : Nat) : ∀ rs o,
    parseEntries data off stop = some (rs, o) →
    o = off + 2 * rs.length ∧ rs.length = (stop - off + 1) / 2 ∧
      (∀ r ∈ rs, r.typeAndOffset < 2 ^ 16 ∧ r.value = 0) ∧ (rs ≠ [] → o ≤ data.length) ∧
      data.drop off = rs.flatMap (fun r => leBytes 2 r.typeAndOffset) ++ data.drop o := by
  induction off using parseEntries.induct data stop with
  | case1 off h1 h2 =>
    intro rs o h; unfold parseEntries at h; rw [if_pos h1] at h; split at h
    · cases h
    · rename_i v hv; rw [h2] at hv; cases hv
  | case2 off h1 v h2 h3 ih =>
    intro rs o h; unfold parseEntries at h; rw [if_pos h1] at h; split at h
    · cases h
    · rw [h3] at h; cases h
  | case3 off h1 v h2 rs' o' h3 ih =>
    intro rs o h; unfold parseEntries at h; rw [if_pos h1] at h; split at h
    · cases h
    · rename_i w hw
      rw [h2] at hw
      rw [Option.some.injEq] at hw
      subst hw
      rw [h3] at h
      simp only [Option.some.injEq, Prod.mk.injEq] at h
      obtain ⟨rfl, rfl⟩ := h
      obtain ⟨a1, a2, a3, a4, a5⟩ := ih rs' o' h3
      obtain ⟨r1, r2, r3⟩ := readLe_iff.1 h2
      refine ⟨by rw [List.length_cons]; omega, by rw [List.length_cons]; omega, ?_, fun _ => ?_, ?_⟩
      · intro r hr
        rcases List.mem_cons.1 hr with rfl | hr
        · exact ⟨r2, rfl⟩
        · exact a3 r hr
      · by_cases e : rs' = []
        · subst e; rw [List.length_nil] at a1; omega
        · exact a4 e
      · rw [r3, List.flatMap_cons, a5, List.append_assoc]
  | case4 off h1 =>
    intro rs o h; unfold parseEntries at h; rw [if_neg h1] at h
    simp only [Option.some.injEq, Prod.mk.injEq] at h
    obtain ⟨rfl, rfl⟩ := h
    exact ⟨rfl, by rw [List.length_nil]; omega, fun r hr => (List.not_mem_nil hr).elim, fun c => absurd rfl c, rfl⟩

theorem parseEntries_complete (data : List UInt8) (stop : Nat) (rest : List UInt8) : ∀ (rs : List Reloc) (off : Nat),
    data.drop off = rs.flatMap (fun r => leBytes 2 r.typeAndOffset) ++ rest →
    (∀ r ∈ rs, r.typeAndOffset < 2 ^ 16 ∧ r.value = 0) → rs.length = (stop - off + 1) / 2 →
    parseEntries data off stop = some (rs, off + 2 * rs.length) := by
  intro rs
  induction rs with
  | nil =>
    intro off h1 h2 h3
    rw [List.length_nil] at h3
    unfold parseEntries
    rw [if_neg (by omega)]
    rfl
  | cons r rs ih =>
    intro off h1 h2 h3
    rw [List.length_cons] at h3
    unfold parseEntries
    rw [if_pos (by omega)]
    rw [List.flatMap_cons, List.append_assoc] at h1
    obtain ⟨k1, k2⟩ := readLe_of (by decide) (h2 r List.mem_cons_self).1 h1
    have i := ih (off + 2) k2 (fun x hx => h2 x (List.mem_cons_of_mem _ hx)) (by omega)
    split
    · rename_i e; rw [k1] at e; cases e
    · rename_i v e
      rw [k1, Option.some.injEq] at e
      subst e
      rw [i]
      obtain ⟨a, b⟩ := r
      have : b = 0 := (h2 ⟨a, b⟩ List.mem_cons_self).2
      subst this
      simp only [List.length_cons, Option.some.injEq, Prod.mk.injEq, true_and]
      omega

theorem Block.enc_length (b : Block) : b.enc.length = 8 + 2 * b.relocs.length := by
  unfold Block.enc
  have : ∀ l : List Reloc, (l.flatMap (fun r => leBytes 2 r.typeAndOffset)).length = 2 * l.length := by
    intro l
    induction l with
    | nil => rfl
    | cons a l ih => rw [List.flatMap_cons, List.length_append, ih, leBytes_length, List.length_cons]; omega
  rw [List.length_append, List.length_append, leBytes_length, leBytes_length, this]

theorem parseBlocks_sound (data : List UInt8) (off : Nat) : off % 4 = 0 → ∀ bs,
    parseBlocks data off = .ok bs → Encodes (data.drop off) bs := by
  induction off using parseBlocks.induct data with
  | case1 off h1 h2 =>
    intro _ bs h; unfold parseBlocks at h; rw [if_pos h1] at h; split at h
    · cases h
    · rename_i v hv; rw [h2] at hv; cases hv
  | case2 off h1 page h2 h3 =>
    intro _ bs h; unfold parseBlocks at h; rw [if_pos h1] at h; split at h
    · cases h
    · rw [h3] at h; cases h
  | case3 off h1 page h2 size h3 h4 =>
    intro _ bs h; unfold parseBlocks at h; rw [if_pos h1] at h; split at h
    · cases h
    · rw [h3] at h; simp only at h; split at h
      · cases h
      · rename_i e; rw [h4] at e; cases e
  | case4 off h1 page h2 size h3 rs o h4 tail h5 ih =>
    intro hm bs h; unfold parseBlocks at h; rw [if_pos h1] at h; split at h
    · cases h
    · rename_i pg hpg
      rw [h2, Option.some.injEq] at hpg
      subst hpg
      rw [h3] at h; simp only at h; split at h
      · cases h
      · rename_i rs' o' e
        rw [h4] at e
        simp only [Option.some.injEq, Prod.mk.injEq] at e
        obtain ⟨rfl, rfl⟩ := e
        rw [h5] at h
        simp only [Outcome.ok.injEq] at h
        subst h
        have tl := ih (by omega) tail h5
        obtain ⟨r1, r2, r3⟩ := readLe_iff.1 h2
        obtain ⟨s1, s2, s3⟩ := readLe_iff.1 h3
        obtain ⟨a1, a2, a3, a4, a5⟩ := parseEntries_sound data (off + 8) (off + size) rs o h4
        have wf : Block.Wf ⟨page, size, rs⟩ := ⟨r2, s2, by simp only; omega, a3⟩
        have e0 : data.drop off = Block.enc ⟨page, size, rs⟩ ++ data.drop o := by
          unfold Block.enc
          rw [r3, s3, a5, List.append_assoc, List.append_assoc]
        by_cases hle : (o + 3) / 4 * 4 ≤ data.length
        · have e1 : data.drop o = (data.drop o).take ((o + 3) / 4 * 4 - o) ++ data.drop ((o + 3) / 4 * 4) := by
            have : data.drop ((o + 3) / 4 * 4) = (data.drop o).drop ((o + 3) / 4 * 4 - o) := by
              rw [List.drop_drop]; congr 1; omega
            rw [this, List.take_append_drop]
          rw [e0, e1]
          refine Encodes.cons _ _ _ _ wf ?_ tl
          rw [List.length_take, List.length_drop]
          unfold Block.padding
          simp only
          omega
        · have e2 : tail = [] := by
            unfold parseBlocks at h5
            rw [if_neg (by omega), Outcome.ok.injEq] at h5
            exact h5.symm
          rw [e0, e2]
          refine Encodes.last _ _ wf ?_
          rw [List.length_drop]
          unfold Block.padding
          simp only
          omega
  | case5 off h1 page h2 size h3 rs o h4 e h5 ih =>
    intro hm bs h; unfold parseBlocks at h; rw [if_pos h1] at h; split at h
    · cases h
    · rw [h3] at h; simp only at h; split at h
      · cases h
      · rename_i rs' o' e'
        rw [h4] at e'
        simp only [Option.some.injEq, Prod.mk.injEq] at e'
        obtain ⟨rfl, rfl⟩ := e'
        rw [h5] at h
        cases h
  | case6 off h1 page h2 size h3 rs o h4 h5 ih =>
    intro hm bs h; unfold parseBlocks at h; rw [if_pos h1] at h; split at h
    · cases h
    · rw [h3] at h; simp only at h; split at h
      · cases h
      · rename_i rs' o' e'
        rw [h4] at e'
        simp only [Option.some.injEq, Prod.mk.injEq] at e'
        obtain ⟨rfl, rfl⟩ := e'
        rw [h5] at h
        cases h
  | case7 off h1 =>
    intro hm bs h; unfold parseBlocks at h; rw [if_neg h1, Outcome.ok.injEq] at h
    subst h
    rw [List.drop_of_length_le (by omega)]
    exact .nil

/-- One step of the block loop. -/
theorem parseBlocks_step (data : List UInt8) (off : Nat) (b : Block) (rest : List UInt8) (wf : b.Wf)
    (h : data.drop off = b.enc ++ rest) :
    parseBlocks data off = match parseBlocks data ((off + 8 + 2 * b.relocs.length + 3) / 4 * 4) with
      | .ok bs => .ok (b :: bs)
      | .err e => .err e
      | .panic => .panic := by
  have hl := congrArg List.length h
  rw [List.length_drop, List.length_append, b.enc_length] at hl
  unfold Block.enc at h
  rw [List.append_assoc, List.append_assoc] at h
  obtain ⟨k1, k2⟩ := readLe_of (by decide) wf.page h
  obtain ⟨k3, k4⟩ := readLe_of (by decide) wf.size k2
  have k5 := parseEntries_complete data (off + b.blockSize) rest b.relocs (off + 8) k4 wf.entries
    (by rw [wf.count]; omega)
  rw [parseBlocks, if_pos (by omega)]
  split
  · rename_i e; rw [k1] at e; cases e
  · rename_i v e
    rw [k1, Option.some.injEq] at e
    subst e
    rw [k3]
    simp only
    split
    · rename_i e; rw [k5] at e; cases e
    · rename_i rs o e
      rw [k5] at e
      simp only [Option.some.injEq, Prod.mk.injEq] at e
      obtain ⟨rfl, rfl⟩ := e
      rfl

theorem parseBlocks_complete {d : List UInt8} {bs : List Block} (h : Encodes d bs) :
    ∀ (data : List UInt8) (off : Nat), off % 4 = 0 → data.drop off = d → parseBlocks data off = .ok bs := by
  induction h with
  | nil =>
    intro data off hm h
    unfold parseBlocks
    rw [if_neg]
    intro c
    have := congrArg List.length h
    rw [List.length_drop, List.length_nil] at this
    omega
  | last b pad wf hp =>
    intro data off hm h
    rw [parseBlocks_step data off b pad wf h]
    have hl := congrArg List.length h
    rw [List.length_drop, List.length_append, b.enc_length] at hl
    unfold Block.padding at hp
    unfold parseBlocks
    rw [if_neg (by omega)]
  | cons b pad rest bs wf hp _ ih =>
    intro data off hm h
    rw [parseBlocks_step data off b (pad ++ rest) wf h]
    unfold Block.padding at hp
    have e : data.drop ((off + 8 + 2 * b.relocs.length + 3) / 4 * 4) = rest := by
      have : (off + 8 + 2 * b.relocs.length + 3) / 4 * 4 = off + (b.enc.length + pad.length) := by
        rw [b.enc_length, hp]; omega
      rw [this, ← List.drop_drop, h, ← List.append_assoc, List.drop_append, List.length_append, Nat.sub_self,
        List.drop_zero, List.drop_of_length_le (by rw [List.length_append]; exact Nat.le_refl _), List.nil_append]
    rw [ih data _ (by omega) e]

/-- **C61.** A relocation directory is read as the blocks it encodes, and nothing else is accepted. -/
theorem parse_iff (data : List UInt8) (bs : List Block) :
    parseRelocationBlocks data = .ok bs ↔ Encodes data bs :=
  ⟨fun h => by have := parseBlocks_sound data 0 rfl bs h; rwa [List.drop_zero] at this,
   fun h => parseBlocks_complete h data 0 rfl List.drop_zero⟩

theorem parseBlocks_total (data : List UInt8) (off : Nat) : parseBlocks data off ≠ .panic := by
  induction off using parseBlocks.induct data with
  | case1 off h1 h2 =>
    unfold parseBlocks; rw [if_pos h1]; split
    · intro c; cases c
    · rename_i v hv; rw [h2] at hv; cases hv
  | case2 off h1 page h2 h3 =>
    unfold parseBlocks; rw [if_pos h1]; split
    · intro c; cases c
    · rw [h3]; intro c; cases c
  | case3 off h1 page h2 size h3 h4 =>
    unfold parseBlocks; rw [if_pos h1]; split
    · intro c; cases c
    · rw [h3]; simp only; split
      · intro c; cases c
      · rename_i e; rw [h4] at e; cases e
  | case4 off h1 page h2 size h3 rs o h4 tail h5 ih =>
    unfold parseBlocks; rw [if_pos h1]; split
    · intro c; cases c
    · rw [h3]; simp only; split
      · intro c; cases c
      · rename_i rs' o' e
        rw [h4] at e
        simp only [Option.some.injEq, Prod.mk.injEq] at e
        obtain ⟨rfl, rfl⟩ := e
        rw [h5]
        intro c; cases c
  | case5 off h1 page h2 size h3 rs o h4 e h5 ih =>
    unfold parseBlocks; rw [if_pos h1]; split
    · intro c; cases c
    · rw [h3]; simp only; split
      · intro c; cases c
      · rename_i rs' o' e
        rw [h4] at e
        simp only [Option.some.injEq, Prod.mk.injEq] at e
        obtain ⟨rfl, rfl⟩ := e
        rw [h5]
        intro c; cases c
  | case6 off h1 page h2 size h3 rs o h4 h5 ih => exact absurd h5 ih
  | case7 off h1 => unfold parseBlocks; rw [if_neg h1]; intro c; cases c

/-- **C61.** Whatever the bytes, reading them returns: blocks or an error, never a panic. -/
theorem parse_total (data : List UInt8) : parseRelocationBlocks data ≠ .panic := parseBlocks_total data 0

/-- A directory of two blocks: one with three entries (and padding), one with two. -/
def demoBlocks : List Block :=
  [⟨0x1000, 14, [⟨0xA008, 0⟩, ⟨0x3010, 0⟩, ⟨0x0000, 0⟩]⟩, ⟨0x2000, 12, [⟨0xA000, 0⟩, ⟨0xA008, 0⟩]⟩]

def demoReloc : List UInt8 :=
  [0x00, 0x10, 0, 0, 14, 0, 0, 0, 0x08, 0xA0, 0x10, 0x30, 0, 0, 0, 0,
   0x00, 0x20, 0, 0, 12, 0, 0, 0, 0x00, 0xA0, 0x08, 0xA0]

theorem demo_encodes : Encodes demoReloc demoBlocks := by
  refine Encodes.cons ⟨0x1000, 14, [⟨0xA008, 0⟩, ⟨0x3010, 0⟩, ⟨0x0000, 0⟩]⟩ [0, 0] (demoReloc.drop 16)
    [⟨0x2000, 12, [⟨0xA000, 0⟩, ⟨0xA008, 0⟩]⟩] ⟨by decide, by decide, by decide, by decide⟩ (by decide) ?_
  exact Encodes.last ⟨0x2000, 12, [⟨0xA000, 0⟩, ⟨0xA008, 0⟩]⟩ [] ⟨by decide, by decide, by decide, by decide⟩ (by decide)

example : parseRelocationBlocks demoReloc = .ok demoBlocks := (parse_iff _ _).2 demo_encodes
example : parseRelocationBlocks (demoReloc.take 27) = .err .scroll := by decide +kernel

end Verif.Pecoff
