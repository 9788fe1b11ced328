import Verif.Pecoff.Resource
import Verif.Pecoff.ResourceSpec
/-!
The HII package list of an image: found where it is, copied from the loaded image, and what is missed.
-/
namespace Verif.Pecoff

open Verif

theorem at_inside {s b : List UInt8} {o : Nat} (h : At s o b) (hb : 0 < b.length) : o + b.length ≤ s.length := by
  have := congrArg List.length h
  rw [List.length_take, List.length_drop] at this
  omega

theorem at_range {s b : List UInt8} {o : Nat} (h : At s o b) (hb : 0 < b.length) : getRange s o b.length = some b := by
  unfold getRange
  rw [if_pos (at_inside h hb), h]

theorem at_left {s a b : List UInt8} {o : Nat} (h : At s o (a ++ b)) : At s o a := by
  unfold At at h ⊢
  have := congrArg (List.take a.length) h
  rw [List.take_take, List.length_append, Nat.min_eq_left (Nat.le_add_right _ _), List.take_left] at this
  exact this

theorem at_right {s a b : List UInt8} {o : Nat} (h : At s o (a ++ b)) : At s (o + a.length) b := by
  unfold At at h ⊢
  have := congrArg (List.drop a.length) h
  rw [List.drop_take, List.length_append, Nat.add_sub_cancel_left, List.drop_drop, List.drop_left] at this
  exact this

theorem val_at {s : List UInt8} {o k v : Nat} (h : At s o (leBytes k v)) (hv : v < 256 ^ k) : leVal ((s.drop o).take k) = v := by
  unfold At at h
  rw [leBytes_length] at h
  rw [h, leVal_leBytes_of_lt hv]

theorem inner_take (s : List UInt8) (o n i k : Nat) (h : i + k ≤ n) : ((((s.drop o).take n).drop i).take k) = (s.drop (o + i)).take k := by
  rw [List.drop_take, List.take_take, Nat.min_eq_left (by omega), List.drop_drop]

theorem readDir_at {s : List UInt8} {o named ids : Nat} (h : IsDir s o named ids) : readDir s o = some ⟨named, ids⟩ := by
  have hs := h.small
  have hi := h.inside
  unfold readDir getRange
  rw [if_pos (by omega), Option.map_some, inner_take _ _ _ _ _ (by omega), inner_take _ _ _ _ _ (by omega), val_at (at_left h.counts) (by omega), val_at (k := 2) (v := ids) ?_ (by omega)]
  have := at_right h.counts
  rw [leBytes_length] at this
  exact this

theorem readEntry_at {s : List UInt8} {o i id data : Nat} (h : IsEntry s o i id data) (h1 : id < 2 ^ 32) (h2 : data < 2 ^ 32) : readDirEntry s (o + 16 + 8 * i) = some ⟨id, data⟩ := by
  have hin := at_inside h (by rw [List.length_append, leBytes_length]; omega)
  rw [List.length_append, leBytes_length, leBytes_length] at hin
  unfold readDirEntry getRange
  rw [if_pos (by omega), Option.map_some, inner_take _ _ _ _ _ (by omega), List.take_take, Nat.min_eq_left (by omega), val_at (at_left h) (by exact h1), val_at (k := 4) (v := data) ?_ (by exact h2)]
  have := at_right h
  rw [leBytes_length] at this
  exact this

theorem readData_at {s : List UInt8} {o off len : Nat} (h : At s o (leBytes 4 off ++ leBytes 4 len)) (hi : o + 16 ≤ s.length) (h1 : off < 2 ^ 32) (h2 : len < 2 ^ 32) : readData s o = some (off, len) := by
  unfold readData getRange
  rw [if_pos hi, Option.map_some, inner_take _ _ _ _ _ (by omega), List.take_take, Nat.min_eq_left (by omega), val_at (at_left h) (by exact h1), val_at (k := 4) (v := len) ?_ (by exact h2)]
  have := at_right h
  rw [leBytes_length] at this
  exact this

theorem high_bit {x : Nat} (h : x < 2 ^ 31) : (2 ^ 31 + x) &&& 0x80000000 ≠ 0 ∧ (2 ^ 31 + x) &&& 0x7fffffff = x ∧ x &&& 0x80000000 = 0 := by
  have e : (0x80000000 : Nat) = 2 ^ 31 := by decide
  have e2 : (0x7fffffff : Nat) = 2 ^ 31 - 1 := by decide
  have ht : x.testBit 31 = false := Nat.testBit_lt_two_pow h
  refine ⟨?_, ?_, ?_⟩
  · intro h0
    have := congrArg (Nat.testBit · 31) h0
    rw [e, Nat.testBit_and, Nat.testBit_two_pow_add_eq, ht, Nat.testBit_two_pow_self, Nat.zero_testBit] at this
    cases this
  · rw [e2, Nat.and_two_pow_sub_one_eq_mod, Nat.add_mod_left, Nat.mod_eq_of_lt h]
  · apply Nat.eq_of_testBit_eq
    intro i
    rw [e, Nat.testBit_and, Nat.testBit_two_pow, Nat.zero_testBit]
    by_cases hi : 31 = i
    · subst hi; rw [ht]; rfl
    · rw [decide_eq_false hi, Bool.and_false]

theorem firstEntry_at {dbg : Bool} {s : List UInt8} {o named ids id data : Nat} (hd : IsDir s o named ids) (he : IsEntry s o 0 id data) (h1 : id < 2 ^ 32) (h2 : data < 2 ^ 32) :
    firstEntry dbg s s.length o = .ok (⟨named, ids⟩, ⟨id, data⟩) := by
  have hs := hd.small
  have hi := hd.inside
  unfold firstEntry
  rw [if_neg (by omega), readDir_at hd]
  have hb : Dir.bytes dbg ⟨named, ids⟩ = some (16 + (named + ids) * 8) := by unfold Dir.bytes u16; rw [if_pos hs]; rfl
  dsimp only
  rw [hb]
  dsimp only
  rw [if_neg (by omega), show o + 16 = o + 16 + 8 * 0 from rfl, readEntry_at he h1 h2]

theorem below_at {dbg : Bool} {s : List UInt8} {e : DirEntry} {o named ids id data : Nat} (ho : o < 2 ^ 31) (hdata : e.data = 2 ^ 31 + o) (hd : IsDir s o named ids) (he : IsEntry s o 0 id data)
    (h1 : id < 2 ^ 32) (h2 : data < 2 ^ 32) : below dbg s s.length e = .ok ⟨id, data⟩ := by
  obtain ⟨b1, b2, -⟩ := high_bit ho
  unfold below DirEntry.isDir DirEntry.dirOffset
  rw [hdata, b2, firstEntry_at hd he h1 h2, if_pos (by simpa using b1)]

/-- The HII package list is found when its entry is the first of the root. -/
theorem first_found_partial {dbg : Bool} {s : List UInt8} {off len : Nat} (h : HiiAt s 0 off len) {image : List UInt8} {x : Section} (hp : x.pointerToRawData + x.copied < 2 ^ 32)
    (hx : getRange image x.pointerToRawData x.copied = some s) : resourceOf dbg image x = .ok (some (off, len)) := by
  obtain ⟨⟨named, ids, hr, hn⟩, ⟨name, d1, d2, leaf, id1, id2, k1, k2, k3, k4, k5, k6, e0, hname, ⟨a1, b1, hd1, -⟩, e1, ⟨a2, b2, hd2, -⟩, e2, hl, hli⟩, ho, hln⟩ := h
  have hlen : s.length = x.copied := by
    unfold getRange at hx
    split at hx
    · cases hx; rw [List.length_take, List.length_drop]; omega
    · cases hx
  have hN : NAME_BIT = 2 ^ 31 := rfl
  have hD : DIR_BIT = 2 ^ 31 := rfl
  rw [hN, hD] at e0
  rw [hD] at e1
  unfold resourceOf
  rw [if_neg (by omega), hx]
  dsimp only
  rw [← hlen, firstEntry_at hr e0 (by omega) (by omega)]
  dsimp only
  obtain ⟨m, rfl⟩ : ∃ m, named = m + 1 := ⟨named - 1, by omega⟩
  have hni := at_inside hname (by decide)
  have h8 : HII.length = 8 := rfl
  obtain ⟨n1, n2, -⟩ := high_bit k1
  have hit : iterate dbg s s.length ⟨2 ^ 31 + name, 2 ^ 31 + d1⟩ = .ok (.found off len) := by
    unfold iterate DirEntry.isString DirEntry.nameOffset
    rw [if_neg (by simpa using n1), n2, if_neg (by omega)]
    have hrl : readLe s name 2 = some 3 := by
      unfold readLe
      have := at_range (at_left (a := [3, 0]) (b := [0x48, 0, 0x49, 0, 0x49, 0]) hname) (by decide)
      rw [show ([3, 0] : List UInt8).length = 2 from rfl] at this
      rw [this]; rfl
    rw [hrl]
    dsimp only
    have hu : u16 dbg (3 * 2) = some 6 := by unfold u16; rw [if_pos (by omega)]
    rw [hu]
    dsimp only
    have hrg : getRange s (name + 1) 6 = some HII_NAME := by
      have h1 := at_right (a := [3]) (b := [0, 0x48, 0, 0x49, 0, 0x49, 0]) hname
      exact at_range (at_left (a := HII_NAME) (b := [0]) h1) (by decide)
    rw [hrg]
    dsimp only
    rw [if_pos ⟨rfl, rfl⟩]
    unfold follow
    rw [below_at k2 rfl hd1 e1 k5 (by omega)]
    dsimp only
    rw [below_at k3 rfl hd2 e2 k6 (by omega)]
    dsimp only
    have hlb := (high_bit k4).2.2
    unfold DirEntry.isDir
    rw [if_neg (by simpa using hlb), if_neg (by omega), readData_at hl hli ho hln]
  unfold search
  rw [hit]

/-- Sections that are no resource sections are not looked at. -/
theorem other_sections {dbg : Bool} {image : List UInt8} {xs ys : List Section} (h : ∀ x ∈ xs, x.isResource = false) : loadResource dbg image (xs ++ ys) = loadResource dbg image ys := by
  induction xs with
  | nil => rfl
  | cons x xs ih =>
    show (if x.isResource then _ else loadResource dbg image (xs ++ ys)) = _
    rw [h x List.mem_cons_self, if_neg (by decide)]
    exact ih fun y hy => h y (List.mem_cons_of_mem _ hy)

/-- An image without a resource section has no package list. -/
theorem no_section_none {dbg : Bool} {image loaded : List UInt8} {alloc : Nat → Option (List UInt8)} {xs : List Section} (h : ∀ x ∈ xs, x.isResource = false) :
    packageList dbg image loaded alloc xs = .ok none := by
  have := other_sections (dbg := dbg) (image := image) (ys := []) h
  rw [List.append_nil] at this
  unfold packageList
  rw [this]
  rfl

/-- What is a resource section: the name is `.rsrc`, filled up with zeros. -/
theorem resource_name {x : Section} : x.isResource = true ↔ ∃ n, x.name = [0x2e, 0x72, 0x73, 0x72, 0x63] ++ List.replicate n 0 := by
  unfold Section.isResource
  rw [beq_iff_eq]
  constructor
  · intro h
    refine ⟨(x.name.reverse.takeWhile (· == 0)).length, ?_⟩
    have h1 : x.name = (x.name.reverse.dropWhile (· == 0)).reverse ++ (x.name.reverse.takeWhile (· == 0)).reverse := by
      rw [← List.reverse_append, List.takeWhile_append_dropWhile, List.reverse_reverse]
    have h2 : (x.name.reverse.takeWhile (· == 0)).reverse = List.replicate (x.name.reverse.takeWhile (· == 0)).length 0 := by
      rw [List.eq_replicate_iff]
      refine ⟨by rw [List.length_reverse], fun b hb => ?_⟩
      rw [List.mem_reverse] at hb
      have : ∀ (l : List UInt8), b ∈ l.takeWhile (· == 0) → b = 0 := by
        intro l
        induction l with
        | nil => intro hb; cases hb
        | cons a l ih =>
          intro hb
          rw [List.takeWhile_cons] at hb
          split at hb
          · next ha =>
            rcases List.mem_cons.1 hb with rfl | hb
            · simpa using ha
            · exact ih hb
          · cases hb
      exact this _ hb
    rw [h, h2] at h1
    exact h1
  · rintro ⟨n, h⟩
    rw [h, List.reverse_append, List.reverse_replicate]
    have : ∀ n (l : List UInt8), (List.replicate n (0 : UInt8) ++ l).dropWhile (· == 0) = l.dropWhile (· == 0) := by
      intro n l
      induction n with
      | zero => rfl
      | succ n ih => rw [List.replicate_succ, List.cons_append, List.dropWhile_cons_of_pos (by rfl)]; exact ih
    rw [this]
    rfl

/-- The package list that is installed is the part of the loaded image that the resource names. -/
theorem package_list_partial {dbg : Bool} {s : List UInt8} {off len : Nat} (h : HiiAt s 0 off len) {image loaded : List UInt8} {alloc : Nat → Option (List UInt8)} {xs ys : List Section} {x : Section}
    (hxs : ∀ y ∈ xs, y.isResource = false) (hn : x.isResource = true) (hp : x.pointerToRawData + x.copied < 2 ^ 32) (hx : getRange image x.pointerToRawData x.copied = some s)
    (ha : (alloc len).isSome) (hl : off + len ≤ loaded.length) :
    packageList dbg image loaded alloc (xs ++ x :: ys) = .ok (some ((loaded.drop off).take len)) := by
  unfold packageList
  rw [other_sections hxs]
  unfold loadResource
  rw [if_pos hn, first_found_partial h hp hx]
  dsimp only
  obtain ⟨m, hm⟩ := Option.isSome_iff_exists.1 ha
  rw [hm]
  dsimp only
  unfold getRange
  rw [if_pos hl]

/-! ### What is found is there -/

theorem range_at {s b : List UInt8} {o n : Nat} (h : getRange s o n = some b) : At s o b ∧ b.length = n ∧ o + n ≤ s.length := by
  unfold getRange at h
  split at h
  · next hl =>
    cases h
    have : ((s.drop o).take n).length = n := by rw [List.length_take, List.length_drop]; omega
    exact ⟨by unfold At; rw [this], this, hl⟩
  · cases h

theorem follow_there {dbg : Bool} {s : List UInt8} {size : Nat} {e : DirEntry} {o n : Nat} (h : follow dbg s size e = .ok (.found o n)) : ∃ leaf, readData s leaf = some (o, n) ∧ leaf < size := by
  unfold follow at h
  split at h
  · cases h
  · cases h
  · split at h
    · cases h
    · cases h
    · next e2 _ =>
      split at h
      · cases h
      · split at h
        · cases h
        · next hsz =>
          split at h
          · cases h
          · next hd => cases h; exact ⟨e2.data, hd, by omega⟩

theorem iterate_there {dbg : Bool} {s : List UInt8} {size : Nat} {e : DirEntry} {o n : Nat} (h : iterate dbg s size e = .ok (.found o n)) :
    (∃ leaf, readData s leaf = some (o, n) ∧ leaf < size) ∧ ∃ name, name < size ∧ readLe s name 2 = some 3 ∧ getRange s (name + 1) 6 = some HII_NAME := by
  unfold iterate at h
  split at h
  · cases h
  · split at h
    · cases h
    · next hsz =>
      split at h
      · cases h
      · next len hl =>
        split at h
        · cases h
        · next m hm =>
          split at h
          · cases h
          · next nm hg =>
            split at h
            · next hc =>
              obtain ⟨rfl, rfl⟩ := hc
              refine ⟨follow_there h, e.nameOffset, by omega, hl, ?_⟩
              have : u16 dbg (3 * 2) = some 6 := by unfold u16; rw [if_pos (by omega)]
              rw [this] at hm
              cases hm
              exact hg
            · cases h

/-- A resource that is found is what a data entry inside a resource section of the image says, and the section has the name `HII`, up to its last byte. -/
theorem found_there {dbg : Bool} {image : List UInt8} {xs : List Section} {o n : Nat} (h : loadResource dbg image xs = .ok (some (o, n))) :
    ∃ x ∈ xs, x.isResource = true ∧ ∃ s, getRange image x.pointerToRawData x.copied = some s ∧ (∃ leaf, readData s leaf = some (o, n)) ∧ ∃ name, At s name [3, 0, 0x48, 0, 0x49, 0, 0x49] := by
  have hsearch : ∀ (k : Nat) (s : List UInt8) (size : Nat) (e : DirEntry), search dbg s size k e = .ok (some (o, n)) → ∃ e', iterate dbg s size e' = .ok (.found o n) := by
    intro k
    induction k with
    | zero => intro s size e h; cases h
    | succ k ih =>
      intro s size e h
      unfold search at h
      split at h
      · cases h
      · cases h
      · next hi => cases h; exact ⟨e, hi⟩
      · exact ih _ _ _ h
  induction xs with
  | nil => cases h
  | cons x xs ih =>
    have tail : loadResource dbg image xs = .ok (some (o, n)) → ∃ y ∈ x :: xs, y.isResource = true ∧ ∃ s, getRange image y.pointerToRawData y.copied = some s ∧ (∃ leaf, readData s leaf = some (o, n)) ∧ ∃ name, At s name [3, 0, 0x48, 0, 0x49, 0, 0x49] := by
      intro h
      obtain ⟨y, hy, r⟩ := ih h
      exact ⟨y, List.mem_cons_of_mem _ hy, r⟩
    unfold loadResource at h
    by_cases hx : x.isResource = true
    · rw [if_pos hx] at h
      cases hr : resourceOf dbg image x with
      | err e => rw [hr] at h; cases h
      | panic => rw [hr] at h; cases h
      | ok r =>
        rw [hr] at h
        cases r with
        | none => exact tail h
        | some r =>
          cases h
          refine ⟨x, List.mem_cons_self, hx, ?_⟩
          unfold resourceOf at hr
          split at hr
          · cases hr
          · split at hr
            · cases hr
            · next s hg =>
              split at hr
              · cases hr
              · cases hr
              · obtain ⟨e', hit⟩ := hsearch _ _ _ _ hr
                obtain ⟨⟨leaf, hl, -⟩, name, -, hn, hnm⟩ := iterate_there hit
                refine ⟨s, hg, ⟨leaf, hl⟩, name, ?_⟩
                unfold readLe at hn
                cases hgn : getRange s name 2 with
                | none => rw [hgn] at hn; cases hn
                | some b =>
                  rw [hgn] at hn
                  obtain ⟨g1, g2, g3⟩ := range_at hgn
                  obtain ⟨f1, -, -⟩ := range_at hnm
                  match b, g2, hn, g1 with
                  | [p, q], _, hn, g1 =>
                    have hv : leVal [p, q] = 3 := by simpa using hn
                    have hq : p.toNat + 256 * q.toNat = 3 := by simpa [leVal] using hv
                    have hp : p = 3 := by apply UInt8.toNat_inj.1; have : (3 : UInt8).toNat = 3 := rfl; have := p.toNat_lt; omega
                    subst hp
                    have g0 : (s.drop name).take 1 = [3] := at_left (a := [3]) (b := [q]) g1
                    unfold At at f1 ⊢
                    show (s.drop name).take 7 = _
                    rw [List.take_add (i := 1) (j := 6), g0, List.drop_drop]
                    show [3] ++ (s.drop (name + 1)).take HII_NAME.length = _
                    rw [f1]
                    rfl
    · rw [if_neg hx] at h
      exact tail h

/-- Without checks of the arithmetic no image makes it panic. -/
theorem never_panics_partial {image : List UInt8} (xs : List Section) : loadResource false image xs ≠ .panic := by
  have hu : ∀ n, ∃ m, u16 false n = some m := fun n => by
    unfold u16
    split
    · exact ⟨_, rfl⟩
    · exact ⟨_, rfl⟩
  have hf : ∀ s size o, firstEntry false s size o ≠ .panic := by
    intro s size o h
    unfold firstEntry Dir.bytes at h
    split at h
    · cases h
    · split at h
      · cases h
      · next d _ =>
        obtain ⟨m, hm⟩ := hu (d.named + d.ids)
        rw [hm] at h
        dsimp only [Option.map_some] at h
        split at h
        · cases h
        · split at h <;> cases h
  have hb : ∀ s size e, below false s size e ≠ .panic := by
    intro s size e h
    unfold below at h
    split at h
    · split at h
      · cases h
      · cases h
      · next hh => exact hf _ _ _ hh
    · cases h
  have hfo : ∀ s size e, follow false s size e ≠ .panic := by
    intro s size e h
    unfold follow at h
    split at h
    · cases h
    · next hh => exact hb _ _ _ hh
    · split at h
      · cases h
      · next hh => exact hb _ _ _ hh
      · split at h
        · cases h
        · split at h
          · cases h
          · split at h <;> cases h
  have hi : ∀ s size e, iterate false s size e ≠ .panic := by
    intro s size e h
    unfold iterate at h
    split at h
    · cases h
    · split at h
      · cases h
      · split at h
        · cases h
        · next len _ =>
          obtain ⟨m, hm⟩ := hu (len * 2)
          rw [hm] at h
          dsimp only at h
          split at h
          · cases h
          · split at h
            · exact hfo _ _ _ h
            · cases h
  have hs : ∀ n s size e, search false s size n e ≠ .panic := by
    intro n
    induction n with
    | zero => intro s size e h; cases h
    | succ n ih =>
      intro s size e h
      unfold search at h
      split at h
      · cases h
      · next hh => exact hi _ _ _ hh
      · cases h
      · exact ih _ _ _ h
  induction xs with
  | nil => intro h; cases h
  | cons x xs ih =>
    intro h
    unfold loadResource at h
    split at h
    · split at h
      · exact ih h
      · unfold resourceOf at h
        split at h
        · cases h
        · split at h
          · cases h
          · split at h
            · cases h
            · next hh => exact hf _ _ _ hh
            · exact hs _ _ _ _ h
    · exact ih h

/-! ### What is not as the format says -/

/-- Only the first entry of the root is looked at. A root whose first entry is not a name, or a name that is not `HII`, has no package list, whatever the other entries are. -/
theorem later_missed {dbg : Bool} {s image : List UInt8} {x : Section} {e : DirEntry} {d : Dir} (hp : x.pointerToRawData + x.copied < 2 ^ 32)
    (hx : getRange image x.pointerToRawData x.copied = some s) (hf : firstEntry dbg s x.copied 0 = .ok (d, e))
    (hn : e.isString = false ∨ (e.nameOffset < x.copied ∧ ∃ len nm, readLe s e.nameOffset 2 = some len ∧ len < 32768 ∧ len ≠ 3 ∧ getRange s (e.nameOffset + 1) (len * 2) = some nm)) :
    resourceOf dbg image x = .ok none := by
  have hi : iterate dbg s x.copied e = .ok (.next e) := by
    unfold iterate
    rcases hn with hn | ⟨h1, len, nm, h2, h3, h4, h5⟩
    · rw [if_pos (by rw [hn]; decide)]
    · by_cases hs : e.isString = true
      · have hu : u16 dbg (len * 2) = some (len * 2) := by unfold u16; rw [if_pos (by omega)]
        rw [if_neg (by rw [hs]; decide), if_neg (by omega), h2]
        dsimp only
        rw [hu]
        dsimp only
        rw [h5]
        dsimp only
        rw [if_neg fun h => h4 h.1]
      · rw [if_pos hs]
  have hs : ∀ n, search dbg s x.copied n e = .ok none := by
    intro n
    induction n with
    | zero => rfl
    | succ n ih => unfold search; rw [hi]; exact ih
  unfold resourceOf
  rw [if_neg (by omega), hx]
  dsimp only
  rw [hf]
  exact hs _

/-- A resource section: directory, an entry, its name, directory, entry, directory, entry, data. The two arguments are the root entries and the bytes of the names at 32. -/
def sample (root : List (Nat × Nat)) (names : List UInt8) : List UInt8 :=
  List.replicate 12 0 ++ leBytes 2 root.length ++ leBytes 2 0 ++ (root.map fun e => leBytes 4 e.1 ++ leBytes 4 e.2).flatten ++ List.replicate (16 - 8 * root.length) 0 ++ names ++
    (List.replicate 14 0 ++ [1, 0]) ++ (leBytes 4 5 ++ leBytes 4 (2 ^ 31 + 72)) ++ (List.replicate 14 0 ++ [1, 0]) ++ (leBytes 4 9 ++ leBytes 4 96) ++
    (leBytes 4 0x1000 ++ leBytes 4 24 ++ List.replicate 8 0)

/-- `HII` first: the specification has it. -/
def one : List UInt8 := sample [(2 ^ 31 + 32, 2 ^ 31 + 48)] (HII ++ List.replicate 8 0)

theorem one_hii : HiiAt one 0 0x1000 24 :=
  ⟨⟨1, 0, ⟨by decide +kernel, by decide, by decide +kernel⟩, by decide⟩,
   ⟨32, 48, 72, 96, 5, 9, by decide, by decide, by decide, by decide, by decide, by decide, by decide +kernel, by decide +kernel,
    ⟨0, 1, ⟨by decide +kernel, by decide, by decide +kernel⟩, by decide⟩, by decide +kernel, ⟨0, 1, ⟨by decide +kernel, by decide, by decide +kernel⟩, by decide⟩, by decide +kernel, by decide +kernel, by decide +kernel⟩,
   by decide, by decide⟩

/-- The section that is the whole of an image of `n` bytes. -/
def whole (n : Nat) : Section := { name := [0x2e, 0x72, 0x73, 0x72, 0x63, 0, 0, 0], virtualSize := n, virtualAddress := 0, sizeOfRawData := n, pointerToRawData := 0 }

example : one.length = 112 ∧ loadResource true one [whole 112] = .ok (some (0x1000, 24)) := by decide +kernel

/-- `AB` first, `HII` second: a package list by the format, and not found. -/
def two : List UInt8 := sample [(2 ^ 31 + 40, 2 ^ 31 + 48), (2 ^ 31 + 32, 2 ^ 31 + 48)] (HII ++ [2, 0, 0x41, 0, 0x42, 0, 0, 0])

theorem second_not_found : HiiAt two 1 0x1000 24 ∧ loadResource true two [whole 112] = .ok none ∧ loadResource false two [whole 112] = .ok none :=
  ⟨⟨⟨2, 0, ⟨by decide +kernel, by decide, by decide +kernel⟩, by decide⟩,
   ⟨32, 48, 72, 96, 5, 9, by decide, by decide, by decide, by decide, by decide, by decide, by decide +kernel, by decide +kernel,
    ⟨0, 1, ⟨by decide +kernel, by decide, by decide +kernel⟩, by decide⟩, by decide +kernel, ⟨0, 1, ⟨by decide +kernel, by decide, by decide +kernel⟩, by decide⟩, by decide +kernel, by decide +kernel, by decide +kernel⟩,
   by decide, by decide⟩, by decide +kernel, by decide +kernel⟩

/-- The last byte of the name is not compared: a name whose third character is U+4949 is taken for `HII`. -/
theorem other_name_found : loadResource true (sample [(2 ^ 31 + 32, 2 ^ 31 + 48)] ([3, 0, 0x48, 0, 0x49, 0, 0x49, 0x49] ++ List.replicate 8 0)) [whole 112] = .ok (some (0x1000, 24)) := by decide +kernel

/-- With checks of the arithmetic an image whose directory counts more than 65535 entries, or whose name is longer than 32767 characters, is a panic of the core. -/
theorem counts_panic : loadResource true (List.replicate 12 0 ++ [0xff, 0xff, 1, 0] ++ List.replicate 8 0) [whole 24] = .panic ∧
    loadResource true (sample [(2 ^ 31 + 32, 2 ^ 31 + 48)] ([0, 0x80] ++ List.replicate 14 0)) [whole 112] = .panic := by decide +kernel

/-- A resource that is not inside the loaded image: without checks the package list that is installed is whatever the memory held before, with them the core panics. -/
theorem stale_installed {dbg : Bool} {image loaded m : List UInt8} {alloc : Nat → Option (List UInt8)} {xs : List Section} {o n : Nat} (h : loadResource dbg image xs = .ok (some (o, n))) (ha : alloc n = some m)
    (ho : loaded.length < o + n) : packageList dbg image loaded alloc xs = if dbg then .panic else .ok (some m) := by
  unfold packageList
  rw [h]
  dsimp only
  rw [ha]
  dsimp only
  unfold getRange
  rw [if_neg (by omega)]

example : packageList false one (List.replicate 0x100 0) (fun n => some (List.replicate n 0xaf)) [whole 112] = .ok (some (List.replicate 24 0xaf)) := by decide +kernel

example : (whole 112).isResource = true ∧ ({ whole 112 with name := [0x2e, 0x74, 0x65, 0x78, 0x74, 0, 0, 0] } : Section).isResource = false := by decide +kernel

end Verif.Pecoff
