import Verif.Pecoff.ParseProps
/-!
C62: specification of relocation and lemmas about the fixup loop.
-/
namespace Verif.Pecoff
open Verif

/-- The little-endian number in the `w` bytes from `p` on. -/
def valueAt (b : List UInt8) (p w : Nat) : Nat := leVal ((b.drop p).take w)

/-- A field of the image that holds an address. -/
structure Field where
  pos : Nat
  width : Nat
deriving DecidableEq, Repr

/-- The byte number `j` belongs to the field. -/
def Field.Holds (x : Field) (j : Nat) : Prop := x.pos ≤ j ∧ j < x.pos + x.width

/-- The fields share no byte. -/
def Field.Apart (x y : Field) : Prop := x.pos + x.width ≤ y.pos ∨ y.pos + y.width ≤ x.pos

/-- How wide a field each kind of fixup names: nothing (0, padding), 32 bits (3, HIGHLOW), 64 bits
(10, DIR64). -/
def kindWidth (kind : Nat) : Nat := if kind = 3 then 4 else if kind = 10 then 8 else 0

/-- The field an entry of a block names; `rva` is what the header's stripping shifted the image by. -/
def fieldOf (rva page : Nat) (r : Reloc) : Field :=
  ⟨page + r.typeAndOffset % 4096 - rva, kindWidth (r.typeAndOffset / 4096)⟩

/-- The address fields the blocks name. -/
def fieldsOf (rva : Nat) (bs : List Block) : List Field :=
  bs.flatMap fun b => (b.relocs.map (fieldOf rva b.pageRva)).filter (·.width ≠ 0)

/-- An entry that can be applied: a known kind, in an image of `len` bytes. -/
structure EntryOk (rva len page : Nat) (r : Reloc) : Prop where
  kind : r.typeAndOffset / 4096 = 0 ∨ r.typeAndOffset / 4096 = 3 ∨ r.typeAndOffset / 4096 = 10
  inside : r.typeAndOffset / 4096 ≠ 0 → rva ≤ page + r.typeAndOffset % 4096 ∧
    page + r.typeAndOffset % 4096 - rva + kindWidth (r.typeAndOffset / 4096) ≤ len

/-- `out` is `img` with the base field set, every address field moved by `adj`, and nothing else
changed. -/
structure Relocated (baseField : Field) (newBase : Nat) (fields : List Field) (adj : Nat) (img out : List UInt8) : Prop where
  length : out.length = img.length
  base : valueAt out baseField.pos baseField.width = newBase
  moved : ∀ x ∈ fields, valueAt out x.pos x.width = (valueAt img x.pos x.width + adj) % 256 ^ x.width
  rest : ∀ j, ¬ baseField.Holds j → (∀ x ∈ fields, ¬ x.Holds j) → out[j]? = img[j]?

/-! ### Lemmas -/

/-- Moving one field. -/
def fix (adj : Nat) (img : List UInt8) (x : Field) : List UInt8 :=
  put img x.pos (leBytes x.width (valueAt img x.pos x.width + adj))

theorem fix_length {adj : Nat} {img : List UInt8} {x : Field} (h : x.pos + x.width ≤ img.length) :
    (fix adj img x).length = img.length := by
  unfold fix
  exact put_length (by rw [leBytes_length]; exact h)

theorem fix_rest {adj : Nat} {img : List UInt8} {x : Field} (h : x.pos + x.width ≤ img.length) (j : Nat)
    (hj : ¬ x.Holds j) : (fix adj img x)[j]? = img[j]? := by
  unfold fix
  rw [put_get (by rw [leBytes_length]; exact h), if_neg]
  rw [leBytes_length]
  exact hj

theorem slice_congr {a b : List UInt8} {p w : Nat} (h : ∀ j, p ≤ j → j < p + w → a[j]? = b[j]?) :
    (a.drop p).take w = (b.drop p).take w := by
  apply List.ext_getElem?
  intro i
  rw [List.getElem?_take, List.getElem?_take]
  split
  · rw [List.getElem?_drop, List.getElem?_drop]
    exact h _ (by omega) (by omega)
  · rfl

theorem valueAt_congr {a b : List UInt8} {p w : Nat} (h : ∀ j, p ≤ j → j < p + w → a[j]? = b[j]?) :
    valueAt a p w = valueAt b p w := by
  unfold valueAt
  rw [slice_congr h]

theorem put_slice {b : List UInt8} {i : Nat} {bs : List UInt8} (h : i + bs.length ≤ b.length) :
    ((put b i bs).drop i).take bs.length = bs := by
  apply List.ext_getElem?
  intro j
  rw [List.getElem?_take]
  split
  · rename_i hj
    rw [List.getElem?_drop, put_get h, if_pos (by omega)]
    congr 1
    omega
  · rw [List.getElem?_eq_none (by omega)]

theorem fix_value {adj : Nat} {img : List UInt8} {x : Field} (h : x.pos + x.width ≤ img.length) :
    valueAt (fix adj img x) x.pos x.width = (valueAt img x.pos x.width + adj) % 256 ^ x.width := by
  have := put_slice (b := img) (i := x.pos) (bs := leBytes x.width (valueAt img x.pos x.width + adj))
    (by rw [leBytes_length]; exact h)
  rw [leBytes_length] at this
  unfold fix valueAt
  unfold valueAt at this
  rw [this, leVal_leBytes]

theorem Field.Apart.symm {x y : Field} (h : x.Apart y) : y.Apart x := Or.symm h

theorem Field.Apart.not_holds {x y : Field} (h : x.Apart y) {j : Nat} (hj : x.Holds j) : ¬ y.Holds j := by
  unfold Field.Holds at *
  rcases h with h | h <;> omega

/-- Moving pairwise disjoint fields one after the other. -/
theorem foldl_fix (adj : Nat) : ∀ (xs : List Field) (img : List UInt8),
    (∀ x ∈ xs, x.pos + x.width ≤ img.length) → xs.Pairwise Field.Apart →
    (xs.foldl (fix adj) img).length = img.length ∧
    (∀ x ∈ xs, valueAt (xs.foldl (fix adj) img) x.pos x.width = (valueAt img x.pos x.width + adj) % 256 ^ x.width) ∧
    (∀ j, (∀ x ∈ xs, ¬ x.Holds j) → (xs.foldl (fix adj) img)[j]? = img[j]?) := by
  intro xs
  induction xs with
  | nil => intro img _ _; exact ⟨rfl, fun x hx => (List.not_mem_nil hx).elim, fun _ _ => rfl⟩
  | cons y ys ih =>
    intro img hb hp
    have hy := hb y List.mem_cons_self
    have hl := fix_length (adj := adj) hy
    rw [List.pairwise_cons] at hp
    obtain ⟨i1, i2, i3⟩ := ih (fix adj img y) (fun x hx => by rw [hl]; exact hb x (List.mem_cons_of_mem _ hx)) hp.2
    rw [List.foldl_cons]
    refine ⟨by rw [i1, hl], ?_, ?_⟩
    · intro x hx
      rcases List.mem_cons.1 hx with rfl | hx
      · rw [← fix_value hy]
        exact valueAt_congr fun j j1 j2 => i3 j fun z hz => (hp.1 z hz).not_holds ⟨j1, j2⟩
      · rw [i2 x hx, valueAt_congr (b := img)]
        intro j j1 j2
        exact fix_rest hy j ((hp.1 x hx).symm.not_holds ⟨j1, j2⟩)
    · intro j hj
      rw [i3 j fun x hx => hj x (List.mem_cons_of_mem _ hx)]
      exact fix_rest hy j (hj y List.mem_cons_self)

theorem readLe_value {b : List UInt8} {p w v : Nat} (h : readLe b p w = some v) : v = valueAt b p w := by
  unfold readLe at h
  cases hs : getRange b p w with
  | none => rw [hs] at h; cases h
  | some s =>
    rw [hs] at h
    rw [(getRange_some.1 hs).2] at h
    exact (by simpa using h.symm : v = leVal ((b.drop p).take w))

theorem readLe_inside {b : List UInt8} {p w : Nat} (h : p + w ≤ b.length) : readLe b p w = some (valueAt b p w) := by
  unfold readLe
  rw [getRange_some.2 ⟨h, rfl⟩]
  rfl

theorem put_put {b : List UInt8} {i : Nat} {bs : List UInt8} (h : i + bs.length ≤ b.length) :
    put (put b i bs) i bs = put b i bs := by
  apply List.ext_getElem?
  intro j
  rw [put_get (by rw [put_length h]; exact h), put_get h]
  split <;> rfl

/-- A fixup that succeeds moves its field, whatever was recorded for it before. -/
theorem relocOne_ok {dbg : Bool} {rva adj page : Nat} {prev : Option (Option Nat)} {r r' : Reloc}
    {img out : List UInt8} (h : relocOne dbg rva adj page prev r img = (.ok r', out)) (hl : img.length + rva ≤ W) :
    EntryOk rva img.length page r ∧
    out = ((([r].map (fieldOf rva page)).filter (·.width ≠ 0)).foldl (fix adj) img) ∧
    r'.typeAndOffset = r.typeAndOffset ∧
    (r.typeAndOffset / 4096 = 10 → prev = none → r'.value = (valueAt img (fieldOf rva page r).pos 8 + adj) % W) ∧
    (r.typeAndOffset / 4096 ≠ 10 → r'.value = r.value) := by
  unfold relocOne at h
  have key : ∀ p, fixupOffset dbg rva page r.typeAndOffset = some p → ∀ w, p + w ≤ img.length → w ≠ 0 →
      rva ≤ page + r.typeAndOffset % 4096 ∧ p = page + r.typeAndOffset % 4096 - rva := by
    intro p hp w hw w0
    unfold fixupOffset at hp
    split at hp
    · rename_i c
      rw [Option.some.injEq] at hp
      exact ⟨c, hp.symm⟩
    · split at hp
      · cases hp
      · rw [Option.some.injEq] at hp
        exact absurd hw (by omega)
  cases hp : fixupOffset dbg rva page r.typeAndOffset with
  | none => rw [hp] at h; cases h
  | some p =>
    rw [hp] at h
    simp only at h
    by_cases k0 : r.typeAndOffset / 4096 = 0
    · rw [if_pos k0] at h
      cases h
      refine ⟨⟨Or.inl k0, fun c => absurd k0 c⟩, ?_, rfl, fun c => by omega, fun _ => rfl⟩
      simp [fieldOf, kindWidth, k0]
    · rw [if_neg k0] at h
      by_cases k3 : r.typeAndOffset / 4096 = 3
      · rw [if_pos k3] at h
        cases hr : readLe img p 4 with
        | none => rw [hr] at h; cases h
        | some v =>
          rw [hr] at h
          cases h
          obtain ⟨a1, a2⟩ := key p hp 4 (readLe_some hr) (by decide)
          have a3 := readLe_some hr
          have a4 := readLe_value hr
          refine ⟨⟨Or.inr (Or.inl k3), fun _ => ⟨a1, ?_⟩⟩, ?_, rfl, fun c => by omega, fun _ => rfl⟩
          · rw [← a2]; simp only [kindWidth, k3, if_true]; exact a3
          · simp only [fieldOf, kindWidth, k3, if_true, List.map_cons, List.map_nil, ← a2]
            rw [List.filter_cons_of_pos rfl, List.filter_nil, List.foldl_cons, List.foldl_nil, a4]
            rfl
      · rw [if_neg k3] at h
        by_cases k10 : r.typeAndOffset / 4096 = 10
        · rw [if_pos k10] at h
          cases hr : readLe img p 8 with
          | none => rw [hr] at h; cases h
          | some v =>
            rw [hr] at h
            simp only at h
            obtain ⟨a1, a2⟩ := key p hp 8 (readLe_some hr) (by decide)
            have a3 := readLe_some hr
            have a4 := readLe_value hr
            have hput : put (put img p (leBytes 8 (v + adj))) p (leBytes 8 (v + adj)) = put img p (leBytes 8 (v + adj)) :=
              put_put (by rw [leBytes_length]; exact a3)
            rw [hput] at h
            have ee : EntryOk rva img.length page r :=
              ⟨Or.inr (Or.inr k10), fun _ => ⟨a1, by rw [← a2]; simp only [kindWidth, k10]; exact a3⟩⟩
            have ef : put img p (leBytes 8 (v + adj)) =
                ((([r].map (fieldOf rva page)).filter (·.width ≠ 0)).foldl (fix adj) img) := by
              simp only [fieldOf, kindWidth, k10, List.map_cons, List.map_nil, ← a2]
              rw [List.filter_cons_of_pos rfl, List.filter_nil, List.foldl_cons, List.foldl_nil, a4]
              rfl
            have ep : (fieldOf rva page r).pos = p := by unfold fieldOf; exact a2.symm
            cases prev with
            | none =>
              cases h
              exact ⟨ee, ef, rfl, fun _ _ => by rw [ep, ← a4], fun c => absurd k10 c⟩
            | some q =>
              cases q with
              | none => cases h
              | some pv =>
                simp only at h
                split at h
                · cases h
                  exact ⟨ee, ef, rfl, (fun _ c => by cases c), fun _ => rfl⟩
                · cases h
                  exact ⟨ee, ef, rfl, (fun _ c => by cases c), fun c => absurd k10 c⟩
        · rw [if_neg k10] at h; cases h

theorem relocOne_of {dbg : Bool} {rva adj page : Nat} {r : Reloc} {img : List UInt8}
    (h : EntryOk rva img.length page r) (hr : r.typeAndOffset / 4096 = 0 → dbg = false ∨ rva ≤ page + r.typeAndOffset % 4096) :
    ∃ r' out, relocOne dbg rva adj page none r img = (.ok r', out) := by
  unfold relocOne
  obtain ⟨k, hi⟩ := h
  by_cases k0 : r.typeAndOffset / 4096 = 0
  · have : ∃ p, fixupOffset dbg rva page r.typeAndOffset = some p := by
      unfold fixupOffset
      split
      · exact ⟨_, rfl⟩
      · rename_i c
        rcases hr k0 with e | e
        · rw [e]; exact ⟨_, rfl⟩
        · exact absurd e c
    obtain ⟨p, hp⟩ := this
    rw [hp]
    simp only [if_pos k0]
    exact ⟨_, _, rfl⟩
  · obtain ⟨i1, i2⟩ := hi k0
    have hp : fixupOffset dbg rva page r.typeAndOffset = some (page + r.typeAndOffset % 4096 - rva) := by
      unfold fixupOffset; rw [if_pos i1]
    rw [hp]
    simp only [if_neg k0]
    by_cases k3 : r.typeAndOffset / 4096 = 3
    · simp only [kindWidth, k3, if_true] at i2
      rw [if_pos k3, readLe_inside i2]
      exact ⟨_, _, rfl⟩
    · have k10 : r.typeAndOffset / 4096 = 10 := by omega
      have kw : kindWidth (r.typeAndOffset / 4096) = 8 := by rw [k10]; rfl
      rw [kw] at i2
      rw [if_neg k3, if_pos k10, readLe_inside i2]
      exact ⟨_, _, rfl⟩

theorem fold_length (adj : Nat) (xs : List Field) (img : List UInt8) (h : ∀ x ∈ xs, x.pos + x.width ≤ img.length) :
    (xs.foldl (fix adj) img).length = img.length := by
  induction xs generalizing img with
  | nil => rfl
  | cons x xs ih =>
    have hx := fix_length (adj := adj) (h x List.mem_cons_self)
    rw [List.foldl_cons, ih _ (fun y hy => by rw [hx]; exact h y (List.mem_cons_of_mem _ hy)), hx]

theorem EntryOk.inside' {rva len page : Nat} {r : Reloc} (h : EntryOk rva len page r)
    (hw : (fieldOf rva page r).width ≠ 0) : (fieldOf rva page r).pos + (fieldOf rva page r).width ≤ len := by
  unfold fieldOf at *
  simp only at *
  refine (h.inside ?_).2
  intro c
  rw [c] at hw
  exact hw rfl

theorem entries_inside {rva len page : Nat} {rs : List Reloc} (h : ∀ r ∈ rs, EntryOk rva len page r) :
    ∀ x ∈ (rs.map (fieldOf rva page)).filter (·.width ≠ 0), x.pos + x.width ≤ len := by
  intro x hx
  rw [List.mem_filter] at hx
  obtain ⟨r, hr, rfl⟩ := List.mem_map.1 hx.1
  exact (h r hr).inside' (by simpa using hx.2)

theorem relocEntries_ok {dbg : Bool} {rva adj page : Nat} {prev : List Block} {bi : Nat} : ∀ (rs : List Reloc) (ri : Nat)
    (rs' : List Reloc) (img out : List UInt8), relocEntries dbg rva adj page prev bi ri rs img = (.ok rs', out) →
    img.length + rva ≤ W →
    (∀ r ∈ rs, EntryOk rva img.length page r) ∧
    out = ((rs.map (fieldOf rva page)).filter (·.width ≠ 0)).foldl (fix adj) img ∧
    rs'.map (·.typeAndOffset) = rs.map (·.typeAndOffset) := by
  intro rs
  induction rs with
  | nil =>
    intro ri rs' img out h _
    simp only [relocEntries] at h
    cases h
    exact ⟨fun r hr => (List.not_mem_nil hr).elim, rfl, rfl⟩
  | cons r rs ih =>
    intro ri rs' img out h hl
    simp only [relocEntries] at h
    rcases h1 : relocOne dbg rva adj page (prevValue prev bi ri) r img with ⟨x, img1⟩
    rw [h1] at h
    cases x with
    | err e => cases h
    | panic => cases h
    | ok r1 =>
      simp only at h
      rcases h2 : relocEntries dbg rva adj page prev bi (ri + 1) rs img1 with ⟨y, img2⟩
      rw [h2] at h
      cases y with
      | err e => cases h
      | panic => cases h
      | ok rs1 =>
        cases h
        obtain ⟨a1, a2, a3, _⟩ := relocOne_ok h1 hl
        have hl1 : img1.length = img.length := by
          rw [a2]
          exact fold_length adj _ _ (entries_inside fun x hx => by
            rw [List.mem_singleton] at hx; subst hx; exact a1)
        obtain ⟨b1, b2, b3⟩ := ih (ri + 1) rs1 img1 _ h2 (by rw [hl1]; exact hl)
        refine ⟨?_, ?_, by rw [List.map_cons, List.map_cons, a3, b3]⟩
        · intro x hx
          rcases List.mem_cons.1 hx with rfl | hx
          · exact a1
          · have := b1 x hx; rw [hl1] at this; exact this
        · rw [b2, a2]
          have : (r :: rs) = [r] ++ rs := rfl
          rw [this, List.map_append, List.filter_append, List.foldl_append]

theorem fields_inside {rva len : Nat} {bs : List Block} (h : ∀ b ∈ bs, ∀ r ∈ b.relocs, EntryOk rva len b.pageRva r) :
    ∀ x ∈ fieldsOf rva bs, x.pos + x.width ≤ len := by
  intro x hx
  obtain ⟨b, hb, hx⟩ := List.mem_flatMap.1 hx
  exact entries_inside (h b hb) x hx

theorem relocBlocks_ok {dbg : Bool} {rva adj : Nat} {prev : List Block} : ∀ (bs : List Block) (bi : Nat)
    (bs' : List Block) (img out : List UInt8), relocBlocks dbg rva adj prev bi bs img = (.ok bs', out) →
    img.length + rva ≤ W →
    (∀ b ∈ bs, ∀ r ∈ b.relocs, EntryOk rva img.length b.pageRva r) ∧
    out = (fieldsOf rva bs).foldl (fix adj) img ∧
    bs'.map (fun b => (b.pageRva, b.blockSize, b.relocs.map (·.typeAndOffset))) =
      bs.map (fun b => (b.pageRva, b.blockSize, b.relocs.map (·.typeAndOffset))) := by
  intro bs
  induction bs with
  | nil =>
    intro bi bs' img out h _
    simp only [relocBlocks] at h
    cases h
    exact ⟨fun r hr => (List.not_mem_nil hr).elim, rfl, rfl⟩
  | cons b bs ih =>
    intro bi bs' img out h hl
    simp only [relocBlocks] at h
    rcases h1 : relocEntries dbg rva adj b.pageRva prev bi 0 b.relocs img with ⟨x, img1⟩
    rw [h1] at h
    cases x with
    | err e => cases h
    | panic => cases h
    | ok rs1 =>
      simp only at h
      rcases h2 : relocBlocks dbg rva adj prev (bi + 1) bs img1 with ⟨y, img2⟩
      rw [h2] at h
      cases y with
      | err e => cases h
      | panic => cases h
      | ok bs1 =>
        cases h
        obtain ⟨a1, a2, a3⟩ := relocEntries_ok _ _ _ _ _ h1 hl
        have hl1 : img1.length = img.length := by
          rw [a2]
          exact fold_length adj _ _ (entries_inside a1)
        obtain ⟨b1, b2, b3⟩ := ih (bi + 1) bs1 img1 _ h2 (by rw [hl1]; exact hl)
        refine ⟨?_, ?_, by rw [List.map_cons, List.map_cons, b3, a3]⟩
        · intro x hx
          rcases List.mem_cons.1 hx with rfl | hx
          · exact a1
          · have := b1 x hx; rw [hl1] at this; exact this
        · rw [b2, a2]
          unfold fieldsOf
          rw [List.flatMap_cons, List.foldl_append]

/-- Fixups that can be applied are applied. -/
theorem relocEntries_of {dbg : Bool} {rva adj page : Nat} {bi : Nat} : ∀ (rs : List Reloc) (ri : Nat)
    (img : List UInt8), (∀ r ∈ rs, EntryOk rva img.length page r) → img.length + rva ≤ W →
    (∀ r ∈ rs, r.typeAndOffset / 4096 = 0 → dbg = false ∨ rva ≤ page + r.typeAndOffset % 4096) →
    ∃ rs' out, relocEntries dbg rva adj page [] bi ri rs img = (.ok rs', out) := by
  intro rs
  induction rs with
  | nil => intro ri img _ _ _; exact ⟨_, _, rfl⟩
  | cons r rs ih =>
    intro ri img h hl hz
    obtain ⟨r1, img1, h1⟩ := relocOne_of (dbg := dbg) (adj := adj) (h r List.mem_cons_self) (hz r List.mem_cons_self)
    obtain ⟨a1, a2, a3, _⟩ := relocOne_ok h1 hl
    have hl1 : img1.length = img.length := by
      rw [a2]
      exact fold_length adj _ _ (entries_inside fun x hx => by
        rw [List.mem_singleton] at hx; subst hx; exact a1)
    obtain ⟨rs1, out, h2⟩ := ih (ri + 1) img1 (fun x hx => by rw [hl1]; exact h x (List.mem_cons_of_mem _ hx))
      (by rw [hl1]; exact hl) (fun x hx => hz x (List.mem_cons_of_mem _ hx))
    refine ⟨r1 :: rs1, out, ?_⟩
    simp only [relocEntries]
    have : prevValue [] bi ri = none := rfl
    rw [this, h1]
    simp only
    rw [h2]

theorem relocBlocks_of {dbg : Bool} {rva adj : Nat} : ∀ (bs : List Block) (bi : Nat)
    (img : List UInt8), (∀ b ∈ bs, ∀ r ∈ b.relocs, EntryOk rva img.length b.pageRva r) → img.length + rva ≤ W →
    (∀ b ∈ bs, ∀ r ∈ b.relocs, r.typeAndOffset / 4096 = 0 → dbg = false ∨ rva ≤ b.pageRva + r.typeAndOffset % 4096) →
    ∃ bs' out, relocBlocks dbg rva adj [] bi bs img = (.ok bs', out) := by
  intro bs
  induction bs with
  | nil => intro bi img _ _ _; exact ⟨_, _, rfl⟩
  | cons b bs ih =>
    intro bi img h hl hz
    obtain ⟨rs1, img1, h1⟩ := relocEntries_of (dbg := dbg) (adj := adj) (bi := bi) b.relocs 0 img
      (h b List.mem_cons_self) hl (hz b List.mem_cons_self)
    obtain ⟨a1, a2, a3⟩ := relocEntries_ok _ _ _ _ _ h1 hl
    have hl1 : img1.length = img.length := by
      rw [a2]
      exact fold_length adj _ _ (entries_inside a1)
    obtain ⟨bs1, out, h2⟩ := ih (bi + 1) img1 (fun x hx => by rw [hl1]; exact h x (List.mem_cons_of_mem _ hx))
      (by rw [hl1]; exact hl) (fun x hx => hz x (List.mem_cons_of_mem _ hx))
    refine ⟨{ b with relocs := rs1 } :: bs1, out, ?_⟩
    simp only [relocBlocks]
    rw [h1]
    simp only
    rw [h2]

end Verif.Pecoff
