import Verif.Pecoff.RelocLemmas
/-!
C62: relocating an image moves every address it lists and nothing else.
-/
namespace Verif.Pecoff
open Verif

/-- The place of the relocation directory, empty if the header names none. -/
def PeInfo.dirField (info : PeInfo) : Field :=
  match info.relocDir with
  | none => ⟨0, 0⟩
  | some d => ⟨d.virtualAddress, d.size⟩

/-- The image base field of the header. -/
def PeInfo.baseField (info : PeInfo) : Field := ⟨info.imageBaseFieldOffset, 8⟩

/-- The image lists its addresses in the way linkers do: the directory is the encoding of the blocks,
and the fields the blocks name overlap neither one another, nor the directory, nor the image base field
of the header. -/
structure Layout (info : PeInfo) (img : List UInt8) (bs : List Block) : Prop where
  inside : info.dirField.pos + info.dirField.width ≤ img.length
  encodes : Encodes ((img.drop info.dirField.pos).take info.dirField.width) bs
  base_dir : info.baseField.Apart info.dirField
  apart : (fieldsOf info.rvaOffset bs).Pairwise Field.Apart
  base_apart : ∀ x ∈ fieldsOf info.rvaOffset bs, x.Apart info.baseField
  dir_apart : ∀ x ∈ fieldsOf info.rvaOffset bs, x.Apart info.dirField

theorem encodes_nil {bs : List Block} (h : Encodes [] bs) : bs = [] := by
  have := (parse_iff [] bs).2 h
  unfold parseRelocationBlocks parseBlocks at this
  rw [if_neg (by simp)] at this
  rw [Outcome.ok.injEq] at this
  exact this.symm

theorem encodes_unique {d : List UInt8} {bs bs' : List Block} (h : Encodes d bs) (h' : Encodes d bs') : bs = bs' := by
  have a := (parse_iff d bs).2 h
  rw [(parse_iff d bs').2 h', Outcome.ok.injEq] at a
  exact a.symm

/-- What the fixup phase does, for an image whose directory encodes `bs`. -/
theorem applyFixups_ok {dbg : Bool} {info : PeInfo} {adj : Nat} {prev r : List Block} {img out : List UInt8}
    {bs : List Block} (hadj : adj < W) (hi : info.dirField.pos + info.dirField.width ≤ img.length)
    (he : Encodes ((img.drop info.dirField.pos).take info.dirField.width) bs)
    (h : applyFixups dbg info adj prev img = (.ok r, out)) (hl : img.length + info.rvaOffset ≤ W) :
    (adj = 0 ∧ out = img) ∨
    ((∀ b ∈ bs, ∀ r ∈ b.relocs, EntryOk info.rvaOffset img.length b.pageRva r) ∧
      out = (fieldsOf info.rvaOffset bs).foldl (fix adj) img) := by
  unfold applyFixups at h
  unfold PeInfo.dirField at hi he
  cases hd : info.relocDir with
  | none =>
    rw [hd] at h he
    simp only [List.take_zero] at he
    cases h
    have := encodes_nil he
    subst this
    exact Or.inr ⟨fun b hb => (List.not_mem_nil hb).elim, rfl⟩
  | some d =>
    rw [hd] at h he hi
    simp only at h he hi
    by_cases h0 : adj = 0
    · rw [if_pos h0] at h
      cases h
      exact Or.inl ⟨h0, rfl⟩
    · rw [if_neg h0, getRange_some.2 ⟨hi, rfl⟩] at h
      simp only at h
      rw [(parse_iff _ _).2 he] at h
      simp only at h
      split at h
      · cases h
      · obtain ⟨a, b, _⟩ := relocBlocks_ok _ _ _ _ _ h hl
        exact Or.inr ⟨a, b⟩

theorem adjustment_lt (dest base rva : Nat) : adjustment dest base rva < W := Nat.mod_lt _ (by decide)

theorem relocateImage_cases {dbg : Bool} {info : PeInfo} {dest : Nat} {img out : List UInt8} {prev r : List Block}
    (h : relocateImage dbg info dest img prev = (.ok r, out)) :
    info.imageBaseFieldOffset + 8 ≤ img.length ∧
    applyFixups dbg info (adjustment dest (valueAt img info.imageBaseFieldOffset 8) info.rvaOffset) prev
        (put img info.imageBaseFieldOffset (leBytes 8 (dest + W - info.rvaOffset))) = (.ok r, out) := by
  unfold relocateImage at h
  cases hb : readLe img info.imageBaseFieldOffset 8 with
  | none => rw [hb] at h; cases h
  | some base =>
    rw [hb] at h
    simp only at h
    split at h
    · cases h
    · split at h
      · cases h
      · rw [← readLe_value hb]
        exact ⟨readLe_some hb, h⟩

theorem base_put {info : PeInfo} {img : List UInt8} {v : Nat} (h : info.imageBaseFieldOffset + 8 ≤ img.length) :
    (put img info.imageBaseFieldOffset (leBytes 8 v)).length = img.length ∧
    (∀ j, ¬ info.baseField.Holds j → (put img info.imageBaseFieldOffset (leBytes 8 v))[j]? = img[j]?) ∧
    valueAt (put img info.imageBaseFieldOffset (leBytes 8 v)) info.baseField.pos info.baseField.width = v % W := by
  have hb : info.imageBaseFieldOffset + (leBytes 8 v).length ≤ img.length := by rw [leBytes_length]; exact h
  refine ⟨put_length hb, fun j hj => ?_, ?_⟩
  · rw [put_get hb, if_neg]
    rw [leBytes_length]
    exact hj
  · have := put_slice hb
    rw [leBytes_length] at this
    unfold PeInfo.baseField valueAt
    rw [this, leVal_leBytes]
    rfl

/-- **C62.** A relocation that succeeds sets the base field to the destination (less the bytes a TE
header's stripping took away), moves every listed address by the distance from the old base, and leaves
every other byte of the image as it was. -/
theorem relocate_moves (dbg : Bool) (info : PeInfo) (dest : Nat) (img out : List UInt8) (prev r : List Block)
    (bs : List Block) (lay : Layout info img bs) (hl : img.length + info.rvaOffset ≤ W)
    (h : relocateImage dbg info dest img prev = (.ok r, out)) :
    Relocated info.baseField ((dest + W - info.rvaOffset) % W) (fieldsOf info.rvaOffset bs)
      (adjustment dest (valueAt img info.baseField.pos 8) info.rvaOffset) img out := by
  obtain ⟨hb, ha⟩ := relocateImage_cases h
  obtain ⟨p1, p2, p3⟩ := base_put (v := dest + W - info.rvaOffset) hb
  have hd : ((put img info.imageBaseFieldOffset (leBytes 8 (dest + W - info.rvaOffset))).drop info.dirField.pos).take
      info.dirField.width = (img.drop info.dirField.pos).take info.dirField.width :=
    slice_congr fun j j1 j2 => p2 j (lay.base_dir.symm.not_holds ⟨j1, j2⟩)
  have fv : ∀ x ∈ fieldsOf info.rvaOffset bs,
      valueAt (put img info.imageBaseFieldOffset (leBytes 8 (dest + W - info.rvaOffset))) x.pos x.width =
        valueAt img x.pos x.width := fun x hx =>
    valueAt_congr fun j j1 j2 => p2 j ((lay.base_apart x hx).not_holds ⟨j1, j2⟩)
  rcases applyFixups_ok (adjustment_lt _ _ _) (by rw [p1]; exact lay.inside) (by rw [hd]; exact lay.encodes) ha
    (by rw [p1]; exact hl) with ⟨z, e⟩ | ⟨eo, e⟩
  · subst e
    refine ⟨p1, p3, fun x hx => ?_, fun j hj _ => p2 j hj⟩
    show _ = (_ + adjustment dest (valueAt img info.imageBaseFieldOffset 8) info.rvaOffset) % _
    rw [z, fv x hx, Nat.add_zero, Nat.mod_eq_of_lt]
    unfold valueAt
    refine Nat.lt_of_lt_of_le (leVal_lt _) (Nat.pow_le_pow_right (by decide) ?_)
    rw [List.length_take]
    exact Nat.min_le_left _ _
  · obtain ⟨f1, f2, f3⟩ := foldl_fix (adjustment dest (valueAt img info.imageBaseFieldOffset 8) info.rvaOffset)
      (fieldsOf info.rvaOffset bs) _ (fields_inside eo) lay.apart
    rw [← e] at f1 f2 f3
    refine ⟨by rw [f1, p1], ?_, fun x hx => by rw [f2 x hx, fv x hx]; rfl, fun j hj hx => ?_⟩
    · rw [← p3]
      exact valueAt_congr fun j j1 j2 => f3 j fun x hx => (lay.base_apart x hx).symm.not_holds ⟨j1, j2⟩
    · rw [f3 j hx, p2 j hj]

/-- **C62.** A 64-bit address that pointed `t` bytes behind the place the image was linked for points
`t` bytes behind the place it now is. -/
theorem relocate_pointer (dbg : Bool) (info : PeInfo) (dest : Nat) (img out : List UInt8) (prev r : List Block)
    (bs : List Block) (lay : Layout info img bs) (hl : img.length + info.rvaOffset ≤ W)
    (h : relocateImage dbg info dest img prev = (.ok r, out)) (x : Field)
    (hx : x ∈ fieldsOf info.rvaOffset bs) (hw : x.width = 8) (t : Nat)
    (ht : valueAt img x.pos 8 = (valueAt img info.baseField.pos 8 + info.rvaOffset + t) % W) :
    valueAt out x.pos 8 = (dest + t) % W := by
  have m := (relocate_moves dbg info dest img out prev r bs lay hl h).moved x hx
  rw [hw, ht] at m
  rw [m]
  unfold adjustment
  show (_ % W + _ % W) % W = _
  rw [← Nat.add_mod]
  generalize valueAt img info.baseField.pos 8 + info.rvaOffset = a
  unfold W
  omega

/-- Two results with the same specification are the same image. -/
theorem Relocated.unique {b : Field} {n : Nat} {fs : List Field} {adj : Nat} {img o1 o2 : List UInt8}
    (h1 : Relocated b n fs adj img o1) (h2 : Relocated b n fs adj img o2) : o1 = o2 := by
  have hlen : o1.length = o2.length := by rw [h1.length, h2.length]
  have key : ∀ x : Field, valueAt o1 x.pos x.width = valueAt o2 x.pos x.width → ∀ j, x.Holds j → o1[j]? = o2[j]? := by
    intro x hx j hj
    unfold valueAt at hx
    have e := leVal_inj (by rw [List.length_take, List.length_take, List.length_drop, List.length_drop, hlen]) hx
    have := congrArg (fun l => l[j - x.pos]?) e
    simp only [List.getElem?_take, List.getElem?_drop] at this
    obtain ⟨j1, j2⟩ := hj
    rw [if_pos (by omega), if_pos (by omega)] at this
    have q : x.pos + (j - x.pos) = j := by omega
    rwa [q] at this
  apply List.ext_getElem?
  intro j
  by_cases c1 : b.Holds j
  · exact key b (by rw [h1.base, h2.base]) j c1
  · by_cases c2 : ∃ x ∈ fs, x.Holds j
    · obtain ⟨x, hx, hj⟩ := c2
      exact key x (by rw [h1.moved x hx, h2.moved x hx]) j hj
    · have c3 : ∀ x ∈ fs, ¬ x.Holds j := fun x hx c => c2 ⟨x, hx, c⟩
      rw [h1.rest j c1 c3, h2.rest j c1 c3]

/-- The directory of a relocated image is the one it had. -/
theorem Layout.kept {info : PeInfo} {img out : List UInt8} {bs : List Block} (lay : Layout info img bs) {n adj : Nat}
    (h : Relocated info.baseField n (fieldsOf info.rvaOffset bs) adj img out) : Layout info out bs := by
  have hd : (out.drop info.dirField.pos).take info.dirField.width =
      (img.drop info.dirField.pos).take info.dirField.width :=
    slice_congr fun j j1 j2 => h.rest j (lay.base_dir.symm.not_holds ⟨j1, j2⟩)
      fun x hx => (lay.dir_apart x hx).symm.not_holds ⟨j1, j2⟩
  exact { inside := by rw [h.length]; exact lay.inside
          encodes := by rw [hd]; exact lay.encodes
          base_dir := lay.base_dir
          apart := lay.apart
          base_apart := lay.base_apart
          dir_apart := lay.dir_apart }

theorem adjustment_trans {a b base rva w : Nat} (ha : a < W) (hr : rva ≤ W) (hw : w = 4 ∨ w = 8) (v : Nat) :
    ((v + adjustment a base rva) % 256 ^ w + adjustment b ((a + W - rva) % W) rva) % 256 ^ w =
      (v + adjustment b base rva) % 256 ^ w := by
  have e : ((a + W - rva) % W + rva) % W = a := by
    rw [Nat.add_comm, Nat.add_mod_mod]
    have : rva + (a + W - rva) = a + W := by omega
    rw [this, Nat.add_mod_right, Nat.mod_eq_of_lt ha]
  unfold adjustment
  rw [e]
  have hd : ∀ n, n % W % 256 ^ w = n % 256 ^ w := by
    intro n
    apply Nat.mod_mod_of_dvd
    rcases hw with rfl | rfl
    · exact ⟨256 ^ 4, by decide⟩
    · exact ⟨1, by decide⟩
  have dm : W % 256 ^ w = 0 := by rcases hw with rfl | rfl <;> decide
  have aw : a ≤ W := Nat.le_of_lt ha
  generalize hB : (W - (base + rva) % W) = B
  have l : ∀ x y z : Nat, ((v + x % W) % 256 ^ w + y % W) % 256 ^ w = (v + x + y) % 256 ^ w := by
    intro x y z
    rw [Nat.mod_add_mod, Nat.add_mod, hd, ← Nat.add_mod]
    rw [Nat.add_right_comm, Nat.add_mod, hd, ← Nat.add_mod, Nat.add_right_comm]
  rw [l _ _ 0]
  have : v + (a + B) + (b + (W - a)) = (v + (b + B)) + W := by omega
  rw [this, Nat.add_mod, dm, Nat.add_zero, Nat.mod_mod]
  have r : (v + (b + B) % W) % 256 ^ w = (v + (b + B)) % 256 ^ w := by
    rw [Nat.add_mod, hd, ← Nat.add_mod]
  rw [r]

/-- **C62.** Relocating an image once more gives what relocating it there at once gives: where an image
has been before leaves no trace in it. -/
theorem relocate_again (dbg : Bool) (info : PeInfo) (a b : Nat) (img o1 o2 o3 : List UInt8)
    (prev1 prev2 prev3 r1 r2 r3 : List Block) (bs : List Block) (lay : Layout info img bs)
    (hl : img.length + info.rvaOffset ≤ W) (ha : a < W)
    (h1 : relocateImage dbg info a img prev1 = (.ok r1, o1))
    (h2 : relocateImage dbg info b o1 prev2 = (.ok r2, o2))
    (h3 : relocateImage dbg info b img prev3 = (.ok r3, o3)) : o2 = o3 := by
  have m1 := relocate_moves dbg info a img o1 prev1 r1 bs lay hl h1
  have lay1 := lay.kept m1
  have m2 := relocate_moves dbg info b o1 o2 prev2 r2 bs lay1 (by rw [m1.length]; exact hl) h2
  have m3 := relocate_moves dbg info b img o3 prev3 r3 bs lay hl h3
  have ww : ∀ x ∈ fieldsOf info.rvaOffset bs, x.width = 4 ∨ x.width = 8 := by
    intro x hx
    obtain ⟨c, _, hx⟩ := List.mem_flatMap.1 hx
    rw [List.mem_filter] at hx
    obtain ⟨q, _, rfl⟩ := List.mem_map.1 hx.1
    have := hx.2
    unfold fieldOf kindWidth at *
    simp only at *
    split
    · exact Or.inl rfl
    · split
      · exact Or.inr rfl
      · rename_i c1 c2
        rw [if_neg c1, if_neg c2] at this
        simp at this
  have m12 : Relocated info.baseField ((b + W - info.rvaOffset) % W) (fieldsOf info.rvaOffset bs)
      (adjustment b (valueAt img info.baseField.pos 8) info.rvaOffset) img o2 := by
    refine ⟨by rw [m2.length, m1.length], m2.base, fun x hx => ?_, fun j hj hx => by rw [m2.rest j hj hx, m1.rest j hj hx]⟩
    rw [m2.moved x hx, m1.moved x hx]
    have hb : valueAt o1 info.baseField.pos 8 = (a + W - info.rvaOffset) % W := m1.base
    rw [hb]
    exact adjustment_trans ha (by omega) (ww x hx) _
  exact m12.unique m3

/-- **C62.** Whether the image can be relocated: the base field lies in the image, and — unless the
image is where it was linked for — so do the directory and every address it lists, of a known kind.
(Debug builds also refuse, by a panic, images whose base and destination overflow; see the model.) -/
theorem relocate_accepts (info : PeInfo) (dest : Nat) (img : List UInt8) (hl : img.length + info.rvaOffset ≤ W) :
    (∃ r out, relocateImage false info dest img [] = (.ok r, out)) ↔
    info.imageBaseFieldOffset + 8 ≤ img.length ∧
      (info.relocDir = none ∨ adjustment dest (valueAt img info.imageBaseFieldOffset 8) info.rvaOffset = 0 ∨
       ∃ d bs, info.relocDir = some d ∧ d.virtualAddress + d.size ≤ img.length ∧
        Encodes (((put img info.imageBaseFieldOffset (leBytes 8 (dest + W - info.rvaOffset))).drop
          d.virtualAddress).take d.size) bs ∧
        ∀ b ∈ bs, ∀ r ∈ b.relocs, EntryOk info.rvaOffset img.length b.pageRva r) := by
  constructor
  · rintro ⟨r, out, h⟩
    obtain ⟨hb, ha⟩ := relocateImage_cases h
    refine ⟨hb, ?_⟩
    unfold applyFixups at ha
    cases hd : info.relocDir with
    | none => exact Or.inl rfl
    | some d =>
      rw [hd] at ha
      simp only at ha
      split at ha
      · rename_i z; exact Or.inr (Or.inl z)
      · obtain ⟨p1, _, _⟩ := base_put (v := dest + W - info.rvaOffset) hb
        split at ha
        · cases ha
        · rename_i data hdata
          obtain ⟨g1, rfl⟩ := getRange_some.1 hdata
          split at ha
          · cases ha
          · cases ha
          · rename_i bs hbs
            split at ha
            · cases ha
            · have k := (relocBlocks_ok _ _ _ _ _ ha (by rw [p1]; exact hl)).1
              rw [p1] at k g1
              exact Or.inr (Or.inr ⟨d, bs, rfl, g1, (parse_iff _ _).1 hbs, k⟩)
  · rintro ⟨hb, h⟩
    have goal : ∃ r out, applyFixups false info (adjustment dest (valueAt img info.imageBaseFieldOffset 8) info.rvaOffset) []
        (put img info.imageBaseFieldOffset (leBytes 8 (dest + W - info.rvaOffset))) = (.ok r, out) := by
      unfold applyFixups
      obtain ⟨p1, _, _⟩ := base_put (v := dest + W - info.rvaOffset) hb
      rcases h with hn | h0 | ⟨d, bs, hd, hi, he, hk⟩
      · rw [hn]; exact ⟨_, _, rfl⟩
      · cases hd : info.relocDir with
        | none => exact ⟨_, _, rfl⟩
        | some d => simp only [if_pos h0]; exact ⟨_, _, rfl⟩
      · rw [hd]
        simp only
        split
        · exact ⟨_, _, rfl⟩
        · rw [getRange_some.2 ⟨by rw [p1]; exact hi, rfl⟩]
          simp only
          rw [(parse_iff _ _).2 he]
          simp only
          rw [if_neg (fun c => c.1 rfl)]
          exact relocBlocks_of bs 0 _ (by rw [p1]; exact hk) (by rw [p1]; exact hl) (fun _ _ _ _ _ => Or.inl rfl)
    obtain ⟨r, out, g⟩ := goal
    refine ⟨r, out, ?_⟩
    unfold relocateImage
    rw [readLe_inside hb]
    simp only [Bool.false_eq_true, false_and, if_false]
    exact g

/-- **C62, finding.** The values recorded by an earlier relocation make no difference to the image: an
address the image changed itself since then is moved like the others (L293-300 writes before it
compares). -/
theorem relocate_ignores_recorded (dbg : Bool) (info : PeInfo) (dest : Nat) (img o1 o2 : List UInt8)
    (prev r1 r2 : List Block) (bs : List Block) (lay : Layout info img bs) (hl : img.length + info.rvaOffset ≤ W)
    (h1 : relocateImage dbg info dest img [] = (.ok r1, o1))
    (h2 : relocateImage dbg info dest img prev = (.ok r2, o2)) : o1 = o2 :=
  (relocate_moves dbg info dest img o1 [] r1 bs lay hl h1).unique (relocate_moves dbg info dest img o2 prev r2 bs lay hl h2)

end Verif.Pecoff
