import Verif.Guid.Lemmas
namespace Verif.Guid

/-! ### Strings -/

theorem flatMap_length {l : List Nat} : (l.flatMap (hex 2)).length = 2 * l.length := by
  induction l with
  | nil => rfl
  | cons x l ih => rw [List.flatMap_cons, List.length_append, ih, hex_length, List.length_cons]; omega

theorem digits_length {g : G} (h : Valid g) : g.digits.length = 32 := by
  unfold G.digits
  simp only [List.length_append, hex_length, flatMap_length, h.node.1]

theorem digits_lt (g : G) : ∀ d ∈ g.digits, d < 16 := by
  intro d hd
  unfold G.digits at hd
  simp only [List.mem_append, List.mem_flatMap] at hd
  rcases hd with h | h | h | h | h | ⟨_, _, h⟩ <;> exact hex_lt _ _ d h

theorem hex_inj {n a b : Nat} (ha : a < 16 ^ n) (hb : b < 16 ^ n) (h : hex n a = hex n b) : a = b := by rw [← num_hex ha, h, num_hex hb]

theorem nodes_inj {a b : List Nat} (hl : a.length = b.length) (ha : ∀ x ∈ a, x < 2 ^ 8) (hb : ∀ x ∈ b, x < 2 ^ 8) (h : a.flatMap (hex 2) = b.flatMap (hex 2)) : a = b := by
  induction a generalizing b with
  | nil => exact (List.length_eq_zero_iff.1 hl.symm).symm
  | cons x a ih =>
    cases b with
    | nil => cases hl
    | cons y b =>
      rw [List.flatMap_cons, List.flatMap_cons] at h
      obtain ⟨h1, h2⟩ := List.append_inj h (by rw [hex_length, hex_length])
      rw [hex_inj (ha x List.mem_cons_self) (hb y List.mem_cons_self) h1,
        ih (Nat.succ.inj hl) (fun z hz => ha z (List.mem_cons_of_mem _ hz)) (fun z hz => hb z (List.mem_cons_of_mem _ hz)) h2]

/-- GUIDs with the same digits are the same. -/
theorem digits_inj {a b : G} (ha : Valid a) (hb : Valid b) (h : a.digits = b.digits) : a = b := by
  unfold G.digits at h
  obtain ⟨h1, h⟩ := List.append_inj h (by rw [hex_length, hex_length])
  obtain ⟨h2, h⟩ := List.append_inj h (by rw [hex_length, hex_length])
  obtain ⟨h3, h⟩ := List.append_inj h (by rw [hex_length, hex_length])
  obtain ⟨h4, h⟩ := List.append_inj h (by rw [hex_length, hex_length])
  obtain ⟨h5, h⟩ := List.append_inj h (by rw [hex_length, hex_length])
  have e1 := hex_inj (n := 8) ha.low hb.low h1
  have e2 := hex_inj (n := 4) ha.mid hb.mid h2
  have e3 := hex_inj (n := 4) ha.hi hb.hi h3
  have e4 := hex_inj (n := 2) ha.seqHi hb.seqHi h4
  have e5 := hex_inj (n := 2) ha.seqLow hb.seqLow h5
  have e6 := nodes_inj (ha.node.1.trans hb.node.1.symm) ha.node.2 hb.node.2 h
  cases a; cases b
  simp only at e1 e2 e3 e4 e5 e6
  subst e1 e2 e3 e4 e5 e6
  rfl

theorem slice_map (l : List Nat) (a b : Nat) : slice (l.map digit) a b = ((l.take b).drop a).map digit := by
  unfold slice; rw [← List.map_take, ← List.map_drop]

theorem part_length {l : List Nat} (hl : l.length = 32) {a b : Nat} (hb : b ≤ 32) : ((l.take b).drop a).length = b - a := by
  rw [List.length_drop, List.length_take]; omega

theorem part_join (l : List Nat) {a b c : Nat} (h1 : a ≤ b) (h2 : b ≤ c) (hl : c ≤ l.length) : (l.take b).drop a ++ (l.take c).drop b = (l.take c).drop a := by
  have e : l.take c = l.take b ++ (l.take c).drop b := by
    conv => lhs; rw [← List.take_append_drop b (l.take c), List.take_take, Nat.min_eq_left h2]
  conv => rhs; rw [e]
  rw [List.drop_append_of_le_length (by rw [List.length_take]; omega)]

/-- A string is a GUID exactly when it has 32 hexadecimal digits, with nothing but dashes and white space between them; these are the digits of the GUID. -/
theorem parse_iff (s : List Char) (g : G) : tryFromString s = .ok g ↔ Clean s ∧ Valid g ∧ digitsOf s = g.digits := by
  have hbuild : ∀ l : List Nat, (∀ d ∈ l, d < 16) → l.length = 32 → ∀ g, (G.mk (parseHex 32 (slice (l.map digit) 0 8)) (parseHex 16 (slice (l.map digit) 8 12))
      (parseHex 16 (slice (l.map digit) 12 16)) (parseHex 8 (slice (l.map digit) 16 18)) (parseHex 8 (slice (l.map digit) 18 20))
      [parseHex 8 (slice (l.map digit) 20 22), parseHex 8 (slice (l.map digit) 22 24), parseHex 8 (slice (l.map digit) 24 26), parseHex 8 (slice (l.map digit) 26 28),
       parseHex 8 (slice (l.map digit) 28 30), parseHex 8 (slice (l.map digit) 30 32)]) = g → Valid g ∧ g.digits = l := by
    intro l hlt hl g hg
    have hsub : ∀ a b, ∀ d ∈ (l.take b).drop a, d < 16 := fun a b d hd => hlt d (List.mem_of_mem_take (List.mem_of_mem_drop hd))
    have hp : ∀ a b bits, b ≤ 32 → (b - a) * 4 ≤ bits → parseHex bits (slice (l.map digit) a b) = num ((l.take b).drop a) := fun a b bits hb h => by
      rw [slice_map]; exact parseHex_num (hsub a b) (by rw [part_length hl hb]; exact h)
    rw [hp 0 8 32 (by decide) (by decide), hp 8 12 16 (by decide) (by decide), hp 12 16 16 (by decide) (by decide), hp 16 18 8 (by decide) (by decide),
      hp 18 20 8 (by decide) (by decide), hp 20 22 8 (by decide) (by decide), hp 22 24 8 (by decide) (by decide), hp 24 26 8 (by decide) (by decide),
      hp 26 28 8 (by decide) (by decide), hp 28 30 8 (by decide) (by decide), hp 30 32 8 (by decide) (by decide)] at hg
    have hn : ∀ a b, b ≤ 32 → num ((l.take b).drop a) < 16 ^ (b - a) := fun a b hb => by
      have := num_lt (hsub a b)
      rw [part_length hl hb] at this
      exact this
    have hx : ∀ a b, b ≤ 32 → hex (b - a) (num ((l.take b).drop a)) = (l.take b).drop a := fun a b hb => by
      have := hex_num (hsub a b)
      rw [part_length hl hb] at this
      exact this
    subst hg
    refine ⟨⟨hn 0 8 (by decide), hn 8 12 (by decide), hn 12 16 (by decide), hn 16 18 (by decide), hn 18 20 (by decide), rfl, ?_⟩, ?_⟩
    · intro b hb
      simp only [List.mem_cons, List.not_mem_nil, or_false] at hb
      rcases hb with h | h | h | h | h | h <;> rw [h]
      · exact hn 20 22 (by decide)
      · exact hn 22 24 (by decide)
      · exact hn 24 26 (by decide)
      · exact hn 26 28 (by decide)
      · exact hn 28 30 (by decide)
      · exact hn 30 32 (by decide)
    · unfold G.digits
      simp only [List.flatMap_cons, List.flatMap_nil, List.append_nil]
      rw [show hex 8 _ = _ from hx 0 8 (by decide), show hex 4 _ = _ from hx 8 12 (by decide), show hex 4 _ = _ from hx 12 16 (by decide),
        show hex 2 _ = _ from hx 16 18 (by decide), show hex 2 _ = _ from hx 18 20 (by decide), show hex 2 _ = _ from hx 20 22 (by decide),
        show hex 2 _ = _ from hx 22 24 (by decide), show hex 2 _ = _ from hx 24 26 (by decide), show hex 2 _ = _ from hx 26 28 (by decide),
        show hex 2 _ = _ from hx 28 30 (by decide), show hex 2 _ = _ from hx 30 32 (by decide)]
      rw [part_join l (by decide) (by decide) (by omega), part_join l (by decide) (by decide) (by omega), part_join l (by decide) (by decide) (by omega),
        part_join l (by decide) (by decide) (by omega), part_join l (by decide) (by decide) (by omega), part_join l (by decide) (by decide) (by omega),
        part_join l (by decide) (by decide) (by omega), part_join l (by decide) (by decide) (by omega), part_join l (by decide) (by decide) (by omega),
        part_join l (by decide) (by decide) (by omega), List.drop_zero, List.take_of_length_le (by omega)]
  constructor
  · intro h
    unfold tryFromString at h
    rcases three s with ⟨hc, hl⟩ | ⟨p, c, t, rfl, hp, hl, hv, hb⟩ | ⟨p, c, t, v, rfl, hp, hl, hv⟩
    · rw [collect_clean hc 0 [] (by simpa using hl)] at h
      dsimp only at h
      rw [List.nil_append, List.length_map] at h
      split at h
      · cases h
      · rename_i h32
        injection h with h
        obtain ⟨h1, h2⟩ := hbuild _ (digitsOf_lt s) (by omega) g h
        exact ⟨hc, h1, h2.symm⟩
    · rw [collect_char hp 0 [] (by simpa using hl) hv hb] at h; cases h
    · rw [collect_long hp 0 [] (by simpa using hl) hv] at h; cases h
  · rintro ⟨hc, hg, he⟩
    have hl : (digitsOf s).length = 32 := by rw [he]; exact digits_length hg
    unfold tryFromString
    rw [collect_clean hc 0 [] (by simp; omega)]
    dsimp only
    rw [List.nil_append, List.length_map, if_neg (by omega)]
    obtain ⟨h1, h2⟩ := hbuild _ (digitsOf_lt s) hl _ rfl
    rw [digits_inj h1 hg (h2.trans he)]

/-- Otherwise the error says what is wrong: the first character that may not be there and its position, unless more than 32 digits come before it; or how many digits
there are, where more than 32 are reported as 33. -/
theorem parse_errors (s : List Char) :
    (∀ p c t, s = p ++ c :: t → Clean p → (digitsOf p).length ≤ 32 → value c = none → ¬ Between c → tryFromString s = .error (.char (p.length + 1) c)) ∧
    (∀ p c t v, s = p ++ c :: t → Clean p → (digitsOf p).length = 32 → value c = some v → tryFromString s = .error (.length 33)) ∧
    (Clean s → (digitsOf s).length < 32 → tryFromString s = .error (.length (digitsOf s).length)) := by
  refine ⟨fun p c t e hp hl hv hb => ?_, fun p c t v e hp hl hv => ?_, fun hc hl => ?_⟩
  · subst e
    unfold tryFromString
    rw [collect_char hp 0 [] (by simpa using hl) hv hb, Nat.zero_add]
  · subst e
    unfold tryFromString
    rw [collect_long hp 0 [] (by simpa using hl) hv]
  · unfold tryFromString
    rw [collect_clean hc 0 [] (by simp; omega)]
    dsimp only
    rw [List.nil_append, List.length_map, if_pos (by omega)]

/-- Every string falls under one of the cases above, or is a GUID. -/
theorem parse_total (s : List Char) :
    (∃ g, tryFromString s = .ok g) ∨ (∃ p c t, s = p ++ c :: t ∧ Clean p ∧ (digitsOf p).length ≤ 32 ∧ value c = none ∧ ¬ Between c) ∨
    (∃ p c t v, s = p ++ c :: t ∧ Clean p ∧ (digitsOf p).length = 32 ∧ value c = some v) ∨ (Clean s ∧ (digitsOf s).length < 32) := by
  rcases three s with ⟨hc, hl⟩ | h | h
  · by_cases h32 : (digitsOf s).length = 32
    · refine Or.inl ?_
      unfold tryFromString
      rw [collect_clean hc 0 [] (by simpa using hl)]
      dsimp only
      rw [List.nil_append, List.length_map, if_neg (by omega)]
      exact ⟨_, rfl⟩
    · exact Or.inr (Or.inr (Or.inr ⟨hc, by omega⟩))
  · exact Or.inr (Or.inl h)
  · exact Or.inr (Or.inr (Or.inl h))

theorem canonical_digits (g : G) : g.canonical = g.digits.map digit := by
  unfold G.canonical G.digits
  simp only [addHex_hex, List.map_append, List.append_assoc]
  have : ∀ l : List Nat, (l.flatMap fun b => (hex 2 b).map digit) = (l.flatMap (hex 2)).map digit := fun l => by
    induction l with
    | nil => rfl
    | cons x l ih => rw [List.flatMap_cons, ih, List.flatMap_cons, List.map_append]
  rw [this]

theorem dashed_append (i : Nat) (a b : List Char) : dashed i (a ++ b) = dashed i a ++ dashed (i + a.length) b := by
  induction a generalizing i with
  | nil => rfl
  | cons c a ih =>
    show _ ++ dashed (i + 1) (a ++ b) = _ ++ dashed (i + 1) a ++ _
    rw [ih, List.append_assoc, List.length_cons, show i + 1 + a.length = i + (a.length + 1) by omega]

theorem dashed_plain {i : Nat} {l : List Char} (h : ∀ d ∈ DASHES, ¬ (i ≤ d ∧ d < i + l.length)) : dashed i l = l := by
  induction l generalizing i with
  | nil => rfl
  | cons c l ih =>
    unfold dashed
    rw [if_neg (fun hi => h i hi ⟨Nat.le_refl _, by rw [List.length_cons]; omega⟩),
      ih (fun d hd hh => h d hd ⟨by omega, by rw [List.length_cons]; omega⟩)]
    rfl

theorem dashed_first {i : Nat} {l : List Char} (hi : i ∈ DASHES) (hl : l ≠ []) (h : ∀ d ∈ DASHES, ¬ (i < d ∧ d < i + l.length)) : dashed i l = '-' :: l := by
  cases l with
  | nil => exact absurd rfl hl
  | cons c l =>
    unfold dashed
    rw [if_pos hi, dashed_plain (fun d hd hh => h d hd ⟨by omega, by rw [List.length_cons]; omega⟩)]
    rfl

theorem display_parts {g : G} (h : Valid g) :
    g.display = (hex 8 g.low).map digit ++ '-' :: (hex 4 g.mid).map digit ++ '-' :: (hex 4 g.hi).map digit ++ '-' :: (hex 2 g.seqHi ++ hex 2 g.seqLow).map digit ++
      '-' :: (g.node.flatMap (hex 2)).map digit := by
  have hn : (g.node.flatMap (hex 2)).length = 12 := by rw [flatMap_length, h.node.1]
  have e : g.canonical = (hex 8 g.low).map digit ++ ((hex 4 g.mid).map digit ++ ((hex 4 g.hi).map digit ++ ((hex 2 g.seqHi ++ hex 2 g.seqLow).map digit ++
      (g.node.flatMap (hex 2)).map digit))) := by
    rw [canonical_digits]
    unfold G.digits
    simp only [List.map_append, List.append_assoc]
  have hne : ∀ {l : List Nat} {n : Nat}, l.length = n + 1 → l.map digit ≠ [] := fun hl hh => by
    have := congrArg List.length hh
    rw [List.length_map, hl] at this
    cases this
  have l1 : ((hex 8 g.low).map digit).length = 8 := by rw [List.length_map, hex_length]
  have l2 : ((hex 4 g.mid).map digit).length = 4 := by rw [List.length_map, hex_length]
  have l3 : ((hex 4 g.hi).map digit).length = 4 := by rw [List.length_map, hex_length]
  have l4 : ((hex 2 g.seqHi ++ hex 2 g.seqLow).map digit).length = 4 := by rw [List.length_map, List.length_append, hex_length, hex_length]
  have l5 : ((g.node.flatMap (hex 2)).map digit).length = 12 := by rw [List.length_map, hn]
  unfold G.display
  rw [e, dashed_append, dashed_append, dashed_append, dashed_append, l1, l2, l3, l4]
  rw [dashed_plain (by rw [l1]; decide), dashed_first (by decide) (hne (hex_length 4 _)) (by rw [l2]; decide), dashed_first (by decide) (hne (hex_length 4 _)) (by rw [l3]; decide),
    dashed_first (by decide) (hne (by rw [List.length_append, hex_length, hex_length])) (by rw [l4]; decide), dashed_first (by decide) (hne hn) (by rw [l5]; decide)]
  simp only [List.append_assoc, List.cons_append]

theorem map_upper {l : List Nat} (h : ∀ d ∈ l, d < 16) : l.map digit = l.map upper :=
  List.map_congr_left fun d hd => by
    unfold upper
    rw [List.getD_eq_getElem?_getD, digit_upper (h d hd)]
    rfl

/-- A GUID is displayed as 8, 4, 4, 4 and 12 digits in upper case, with dashes between them. -/
theorem display_shape {g : G} (h : Valid g) :
    g.display = (hex 8 g.low).map upper ++ '-' :: (hex 4 g.mid).map upper ++ '-' :: (hex 4 g.hi).map upper ++ '-' :: (hex 2 g.seqHi ++ hex 2 g.seqLow).map upper ++
      '-' :: (g.node.flatMap (hex 2)).map upper := by
  rw [display_parts h, map_upper (hex_lt _ _), map_upper (hex_lt _ _), map_upper (hex_lt _ _), map_upper (l := hex 2 g.seqHi ++ hex 2 g.seqLow), map_upper (l := g.node.flatMap (hex 2))]
  · intro d hd
    obtain ⟨_, _, h⟩ := List.mem_flatMap.1 hd
    exact hex_lt _ _ d h
  · intro d hd
    rcases List.mem_append.1 hd with h | h <;> exact hex_lt _ _ d h

theorem digitsOf_map {l : List Nat} (h : ∀ d ∈ l, d < 16) : digitsOf (l.map digit) = l := by
  induction l with
  | nil => rfl
  | cons d l ih =>
    unfold digitsOf at ih ⊢
    rw [List.map_cons, List.filterMap_cons_some (value_digit (h d List.mem_cons_self)), ih fun x hx => h x (List.mem_cons_of_mem _ hx)]

theorem clean_map {l : List Nat} (h : ∀ d ∈ l, d < 16) : Clean (l.map digit) := fun c hc => by
  obtain ⟨d, hd, e⟩ := List.mem_map.1 hc
  rw [← e, value_digit (h d hd)]
  exact Or.inl rfl

theorem dashed_same (i : Nat) (l : List Char) : digitsOf (dashed i l) = digitsOf l ∧ (Clean l → Clean (dashed i l)) := by
  induction l generalizing i with
  | nil => exact ⟨rfl, fun h => h⟩
  | cons c l ih =>
    obtain ⟨h1, h2⟩ := ih (i + 1)
    have hd : value '-' = none := by decide
    unfold dashed
    refine ⟨?_, fun hc x hx => ?_⟩
    · have e : digitsOf (if i ∈ DASHES then ['-', c] else [c]) = digitsOf [c] := by
        split
        · exact List.filterMap_cons_none hd
        · rfl
      show List.filterMap value _ = List.filterMap value ([c] ++ l)
      rw [List.filterMap_append, List.filterMap_append]
      exact congr (congrArg HAppend.hAppend e) h1
    · rcases List.mem_append.1 hx with hx | hx
      · split at hx
        · rcases List.mem_cons.1 hx with hx | hx
          · rw [hx]; exact Or.inr (Or.inl rfl)
          · rw [List.mem_singleton.1 hx]; exact hc c List.mem_cons_self
        · rw [List.mem_singleton.1 hx]; exact hc c List.mem_cons_self
      · exact h2 (fun y hy => hc y (List.mem_cons_of_mem _ hy)) x hx

/-- What is displayed is read as the same GUID. -/
theorem parse_display {g : G} (h : Valid g) : tryFromString g.display = .ok g := by
  rw [parse_iff]
  unfold G.display
  rw [canonical_digits]
  obtain ⟨h1, h2⟩ := dashed_same 0 (g.digits.map digit)
  exact ⟨h2 (clean_map (digits_lt g)), h, by rw [h1, digitsOf_map (digits_lt g)]⟩

/-- Different GUIDs are displayed differently. -/
theorem display_inj {a b : G} (ha : Valid a) (hb : Valid b) (h : a.display = b.display) : a = b := by
  have := (parse_display ha).symm.trans ((congrArg tryFromString h).trans (parse_display hb))
  injection this

/-! ### Bytes -/

theorem node_bytes {l : List Nat} (h : ∀ b ∈ l, b < 2 ^ 8) : (l.map UInt8.ofNat).map UInt8.toNat = l := by
  induction l with
  | nil => rfl
  | cons x l ih =>
    rw [List.map_cons, List.map_cons, ih fun y hy => h y (List.mem_cons_of_mem _ hy)]
    rw [UInt8.toNat_ofNat_of_lt' (h x List.mem_cons_self)]

theorem bytes_length {g : G} (h : Valid g) : g.bytes.length = 16 := by
  unfold G.bytes
  simp only [List.length_append, leBytes_length, List.length_map, h.node.1]

/-- The fields are found in the bytes. -/
theorem fromBytes_bytes {g : G} (h : Valid g) : fromBytes g.bytes = g := by
  obtain ⟨low, mid, hi, sh, sl, node⟩ := g
  have e : (G.bytes ⟨low, mid, hi, sh, sl, node⟩) = leBytes 4 low ++ (leBytes 2 mid ++ (leBytes 2 hi ++ (leBytes 1 sh ++ (leBytes 1 sl ++ node.map UInt8.ofNat)))) := by
    unfold G.bytes; simp only [List.append_assoc]
  unfold fromBytes
  rw [e]
  have d4 : ∀ x : Bytes, (leBytes 4 low ++ x).drop 4 = x := fun x => List.drop_left' (leBytes_length ..)
  have d6 : ∀ x : Bytes, (leBytes 4 low ++ (leBytes 2 mid ++ x)).drop 6 = x := fun x => by rw [← List.append_assoc, List.drop_left' (by simp)]
  have d8 : ∀ x : Bytes, (leBytes 4 low ++ (leBytes 2 mid ++ (leBytes 2 hi ++ x))).drop 8 = x := fun x => by
    rw [← List.append_assoc, ← List.append_assoc, List.drop_left' (by simp)]
  have d9 : ∀ x : Bytes, (leBytes 4 low ++ (leBytes 2 mid ++ (leBytes 2 hi ++ (leBytes 1 sh ++ x)))).drop 9 = x := fun x => by
    rw [← List.append_assoc, ← List.append_assoc, ← List.append_assoc, List.drop_left' (by simp)]
  have d10 : ∀ x : Bytes, (leBytes 4 low ++ (leBytes 2 mid ++ (leBytes 2 hi ++ (leBytes 1 sh ++ (leBytes 1 sl ++ x))))).drop 10 = x := fun x => by
    rw [← List.append_assoc, ← List.append_assoc, ← List.append_assoc, ← List.append_assoc, List.drop_left' (by simp)]
  rw [d4, d6, d8, d9, d10]
  have t : ∀ n v (x : Bytes), v < 256 ^ n → leVal ((leBytes n v ++ x).take n) = v := fun n v x hv => by
    rw [List.take_left' (leBytes_length ..)]; exact leVal_leBytes_of_lt hv
  rw [t 4 low _ h.low, t 2 mid _ h.mid, t 2 hi _ h.hi, t 1 sh _ h.seqHi, t 1 sl _ h.seqLow, node_bytes h.node.2]

/-- And every 16 bytes are the bytes of a GUID. -/
theorem bytes_fromBytes {b : Bytes} (h : b.length = 16) : Valid (fromBytes b) ∧ (fromBytes b).bytes = b := by
  have hl : ∀ a n, a + n ≤ 16 → ((b.drop a).take n).length = n := fun a n hn => by rw [List.length_take, List.length_drop]; omega
  have hv : ∀ a n, a + n ≤ 16 → leVal ((b.drop a).take n) < 256 ^ n := fun a n hn => by
    have := leVal_lt ((b.drop a).take n)
    rw [hl a n hn] at this; exact this
  have hb : ∀ a n, a + n ≤ 16 → leBytes n (leVal ((b.drop a).take n)) = (b.drop a).take n := fun a n hn => by
    have := leBytes_leVal ((b.drop a).take n)
    rw [hl a n hn] at this; exact this
  have hnode : ∀ l : Bytes, (l.map UInt8.toNat).map UInt8.ofNat = l := fun l => by
    induction l with
    | nil => rfl
    | cons x l ih => rw [List.map_cons, List.map_cons, ih, UInt8.ofNat_toNat]
  refine ⟨⟨hv 0 4 (by decide), hv 4 2 (by decide), hv 6 2 (by decide), hv 8 1 (by decide), hv 9 1 (by decide), ?_, ?_⟩, ?_⟩
  · show ((b.drop 10).map UInt8.toNat).length = 6
    rw [List.length_map, List.length_drop]; omega
  · intro x hx
    obtain ⟨y, _, e⟩ := List.mem_map.1 hx
    rw [← e]; exact y.toNat_lt
  · unfold fromBytes G.bytes
    dsimp only
    rw [show b.take 4 = (b.drop 0).take 4 from rfl, hb 0 4 (by decide), hb 4 2 (by decide), hb 6 2 (by decide), hb 8 1 (by decide), hb 9 1 (by decide), hnode]
    have j : ∀ a m n, (b.drop a).take m ++ (b.drop (a + m)).take n = (b.drop a).take (m + n) := fun a m n => by
      rw [List.take_add, List.drop_drop]
    rw [j 0 4 2, j 0 6 2, j 0 8 1, j 0 9 1]
    exact List.take_append_drop 10 b

/-- Equality is equality of the fields. -/
theorem eq_iff {a b : G} (ha : Valid a) (hb : Valid b) : a.eq b = true ↔ a = b := by
  unfold G.eq
  rw [decide_eq_true_eq]
  exact ⟨fun h => by rw [← fromBytes_bytes ha, h, fromBytes_bytes hb], fun h => by rw [h]⟩

theorem toNat_inj {x y : UInt8} (h : x.toNat = y.toNat) : x = y := UInt8.toNat_inj.1 h

theorem cmpBytes_eq (a b : Bytes) : cmpBytes a b = .eq ↔ a = b := by
  induction a generalizing b with
  | nil => cases b <;> simp [cmpBytes]
  | cons x a ih =>
    cases b with
    | nil => simp [cmpBytes]
    | cons y b =>
      unfold cmpBytes
      by_cases h1 : x.toNat < y.toNat
      · rw [if_pos h1]
        exact ⟨fun h => (by cases h), fun h => by injection h with h; rw [h] at h1; omega⟩
      · rw [if_neg h1]
        by_cases h2 : y.toNat < x.toNat
        · rw [if_pos h2]
          exact ⟨fun h => (by cases h), fun h => by injection h with h; rw [h] at h2; omega⟩
        · rw [if_neg h2, ih, toNat_inj (show x.toNat = y.toNat by omega)]
          exact ⟨fun h => by rw [h], fun h => by injection h⟩

theorem cmpBytes_swap (a b : Bytes) : cmpBytes b a = (cmpBytes a b).swap := by
  induction a generalizing b with
  | nil => cases b <;> rfl
  | cons x a ih =>
    cases b with
    | nil => rfl
    | cons y b =>
      unfold cmpBytes
      by_cases h1 : x.toNat < y.toNat
      · rw [if_pos h1, if_neg (by omega), if_pos h1]; rfl
      · by_cases h2 : y.toNat < x.toNat
        · rw [if_pos h2, if_neg h1, if_pos h2]; rfl
        · rw [if_neg h1, if_neg h2, if_neg h2, if_neg h1, ih]

theorem cmpBytes_trans {a b c : Bytes} (h1 : cmpBytes a b = .lt) (h2 : cmpBytes b c = .lt) : cmpBytes a c = .lt := by
  induction a generalizing b c with
  | nil =>
    cases c with
    | nil => cases b <;> cases h2
    | cons => rfl
  | cons x a ih =>
    cases b with
    | nil => cases h1
    | cons y b =>
      cases c with
      | nil => cases h2
      | cons z c =>
        unfold cmpBytes at h1 h2 ⊢
        split at h1
        · split at h2
          · rw [if_pos (by omega)]
          · split at h2
            · cases h2
            · rw [if_pos (by omega)]
        · split at h1
          · cases h1
          · split at h2
            · rw [if_pos (by omega)]
            · split at h2
              · cases h2
              · rw [if_neg (by omega), if_neg (by omega)]
                exact ih h1 h2

/-- The order of GUIDs is total, and two GUIDs compare equal only if they are equal, so that maps keyed by GUIDs work. -/
theorem cmp_order {a b c : G} (ha : Valid a) (hb : Valid b) :
    (a.cmp b = .eq ↔ a = b) ∧ (b.cmp a = (a.cmp b).swap) ∧ (a.cmp b = .lt → b.cmp c = .lt → a.cmp c = .lt) :=
  ⟨by rw [← eq_iff ha hb]; unfold G.eq G.cmp; rw [decide_eq_true_eq]; exact cmpBytes_eq _ _, cmpBytes_swap _ _, cmpBytes_trans⟩

/-! ### Examples -/

def someGuid : G := ⟨0x550e8400, 0xe29b, 0x41d4, 0xa7, 0x16, [0x44, 0x66, 0x55, 0x44, 0, 0]⟩

example : Valid someGuid := ⟨by decide, by decide, by decide, by decide, by decide, by decide, by decide⟩

example : String.ofList someGuid.display = "550E8400-E29B-41D4-A716-446655440000" := by decide +kernel

/-- So that results can be compared. -/
def same (r : Except Err G) (x : G ⊕ Err) : Bool :=
  match r, x with
  | .ok g, .inl h => g = h
  | .error e, .inr f => e = f
  | _, _ => false

example : same (tryFromString "550e8400e29b 41D4-a716-446655440000".toList) (.inl someGuid) = true := by decide +kernel

example : same (tryFromString "550e8400-x29b".toList) (.inr (.char 10 'x')) = true := by decide +kernel

example : same (tryFromString "550e8400-".toList) (.inr (.length 8)) = true := by decide +kernel

example : someGuid.bytes = [0x00, 0x84, 0x0e, 0x55, 0x9b, 0xe2, 0xd4, 0x41, 0xa7, 0x16, 0x44, 0x66, 0x55, 0x44, 0x00, 0x00] := by decide +kernel

/-- Dashes may be anywhere, even within a field. -/
example : same (tryFromString "55-0E8400E29B41D4A71644665544000-0--".toList) (.inl someGuid) = true := by decide +kernel

end Verif.Guid
