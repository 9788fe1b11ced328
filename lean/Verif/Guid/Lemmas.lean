import Verif.Guid.Spec
namespace Verif.Guid

/-! ### Characters -/

theorem ofNat_toNat (c : Char) : Char.ofNat c.toNat = c := Char.ofNat_toNat c

theorem small_chars {P : Char → Prop} (h1 : ∀ n, n < 128 → P (Char.ofNat n)) (h2 : ∀ c : Char, 128 ≤ c.toNat → P c) (c : Char) : P c := by
  by_cases h : c.toNat < 128
  · rw [← ofNat_toNat c]; exact h1 _ h
  · exact h2 c (by omega)

theorem value_none {c : Char} (h : 128 ≤ c.toNat) : value c = none := by
  have hu : ∀ x ∈ UPPER, x.toNat < 128 := by decide
  have hl : ∀ x ∈ LOWER, x.toNat < 128 := by decide
  unfold value
  rw [if_neg (fun hm => by have := hu c hm; omega), if_neg (fun hm => by have := hl c hm; omega)]

theorem toUpperHex_value (c : Char) : toUpperHex c = (value c).map digit := by
  refine small_chars (P := fun c => toUpperHex c = (value c).map digit) (by decide +kernel) (fun c h => ?_) c
  rw [value_none h]
  unfold toUpperHex
  have e1 : '9'.toNat = 57 := rfl
  have e2 : 'F'.toNat = 70 := rfl
  have e3 : 'f'.toNat = 102 := rfl
  rw [if_neg (by omega), if_neg (by omega)]
  rfl

theorem value_lt {c : Char} {v : Nat} (h : value c = some v) : v < 16 := by
  have : ∀ c : Char, ∀ v ∈ value c, v < 16 := by
    refine small_chars (P := fun c => ∀ v ∈ value c, v < 16) (by decide +kernel) (fun c h v hv => ?_)
    rw [value_none h] at hv; cases hv
  exact this c v h

theorem hexValue_digit {v : Nat} (h : v < 16) : hexValue (digit v) = v := by
  have : ∀ v, v < 16 → hexValue (digit v) = v := by decide
  exact this v h

theorem value_digit {v : Nat} (h : v < 16) : value (digit v) = some v := by
  have : ∀ v, v < 16 → value (digit v) = some v := by decide
  exact this v h

theorem digit_upper {v : Nat} (h : v < 16) : UPPER[v]? = some (digit v) := by
  have : ∀ v, v < 16 → UPPER[v]? = some (digit v) := by decide
  exact this v h

theorem between_iff (c : Char) : Between c ↔ ¬ (¬ isBlank c ∧ c ≠ '-') := by
  unfold Between isBlank
  simp only [decide_eq_true_eq]
  constructor
  · rintro (h | h | h | h | h | h) ⟨h1, h2⟩
    · exact h2 h
    · exact h1 (Or.inl h)
    · exact h1 (Or.inr (Or.inl h))
    · exact h1 (Or.inr (Or.inr (Or.inl h)))
    · exact h1 (Or.inr (Or.inr (Or.inr (Or.inr h))))
    · exact h1 (Or.inr (Or.inr (Or.inr (Or.inl h))))
  · intro h
    by_cases hd : c = '-'
    · exact Or.inl hd
    · have hb := Classical.not_not.1 fun hb => h ⟨hb, hd⟩
      rcases hb with hb | hb | hb | hb | hb
      · exact Or.inr (Or.inl hb)
      · exact Or.inr (Or.inr (Or.inl hb))
      · exact Or.inr (Or.inr (Or.inr (Or.inl hb)))
      · exact Or.inr (Or.inr (Or.inr (Or.inr (Or.inr hb))))
      · exact Or.inr (Or.inr (Or.inr (Or.inr (Or.inl hb))))

/-- A digit is not something that comes between digits. -/
theorem between_value {c : Char} (h : Between c) : value c = none := by
  rcases h with h | h | h | h | h | h
  · subst h; decide
  · subst h; decide
  · subst h; decide
  · subst h; decide
  · subst h; decide
  · rw [← ofNat_toNat c, h]; decide

/-! ### Numbers -/

def num (l : List Nat) : Nat := l.foldl (fun r d => r * 16 + d) 0

theorem num_append_one (l : List Nat) (d : Nat) : num (l ++ [d]) = num l * 16 + d := by unfold num; rw [List.foldl_append]; rfl

theorem hex_length (n v : Nat) : (hex n v).length = n := by
  induction n generalizing v with
  | zero => rfl
  | succ n ih => show (hex n (v / 16) ++ [v % 16]).length = _; rw [List.length_append, ih]; rfl

theorem hex_lt (n v : Nat) : ∀ d ∈ hex n v, d < 16 := by
  induction n generalizing v with
  | zero => intro d hd; cases hd
  | succ n ih =>
    intro d hd
    rcases List.mem_append.1 hd with h | h
    · exact ih _ d h
    · rw [List.mem_singleton.1 h]; omega

theorem num_hex {n v : Nat} (h : v < 16 ^ n) : num (hex n v) = v := by
  induction n generalizing v with
  | zero => rw [Nat.pow_zero] at h; show 0 = v; omega
  | succ n ih =>
    show num (hex n (v / 16) ++ [v % 16]) = v
    rw [Nat.pow_succ] at h
    rw [num_append_one, ih (by omega)]
    omega

theorem list_snoc {l : List Nat} {n : Nat} (h : l.length = n + 1) : ∃ k d, l = k ++ [d] ∧ k.length = n := by
  have hne : l ≠ [] := fun e => by rw [e] at h; cases h
  refine ⟨l.dropLast, l.getLast hne, (List.dropLast_concat_getLast hne).symm, ?_⟩
  rw [List.length_dropLast]; omega

theorem hex_num {l : List Nat} (h : ∀ d ∈ l, d < 16) : hex l.length (num l) = l := by
  generalize hn : l.length = n
  induction n generalizing l with
  | zero => rw [List.length_eq_zero_iff.1 hn]; rfl
  | succ n ih =>
    obtain ⟨k, d, rfl, hk⟩ := list_snoc hn
    have hd := h d (List.mem_append_right _ List.mem_cons_self)
    show hex n (num (k ++ [d]) / 16) ++ [num (k ++ [d]) % 16] = _
    rw [num_append_one, show (num k * 16 + d) / 16 = num k by omega, show (num k * 16 + d) % 16 = d by omega, ih (fun x hx => h x (List.mem_append_left _ hx)) hk]

theorem num_lt {l : List Nat} (h : ∀ d ∈ l, d < 16) : num l < 16 ^ l.length := by
  generalize hn : l.length = n
  induction n generalizing l with
  | zero => rw [List.length_eq_zero_iff.1 hn]; decide
  | succ n ih =>
    obtain ⟨k, d, rfl, hk⟩ := list_snoc hn
    have hd := h d (List.mem_append_right _ List.mem_cons_self)
    have := ih (fun x hx => h x (List.mem_append_left _ hx)) hk
    rw [num_append_one, Nat.pow_succ]
    omega

theorem hex_cons (n v : Nat) : hex (n + 1) v = v / 16 ^ n % 16 :: hex n v := by
  induction n generalizing v with
  | zero => show [] ++ [v % 16] = _; rw [Nat.pow_zero, Nat.div_one]; rfl
  | succ n ih =>
    show hex (n + 1) (v / 16) ++ [v % 16] = _ :: (hex n (v / 16) ++ [v % 16])
    rw [ih, Nat.div_div_eq_div_mul, ← Nat.pow_succ']
    rfl

theorem addHex_hex (v n : Nat) : addHex v n = (hex n v).map digit := by
  induction n with
  | zero => rfl
  | succ n ih =>
    rw [hex_cons, List.map_cons, ← ih]
    unfold addHex
    rw [List.range_succ, List.reverse_append, List.reverse_singleton, List.singleton_append, List.map_cons]
    have hp : 2 ^ (n * 4) = 16 ^ n := by rw [Nat.mul_comm, Nat.pow_mul]
    have hm : ∀ x, x &&& 0xF = x % 16 := fun x => Nat.and_two_pow_sub_one_eq_mod x 4
    rw [Nat.shiftRight_eq_div_pow, hp, hm]

theorem parseHex_num {bits : Nat} {l : List Nat} (h : ∀ d ∈ l, d < 16) (hb : l.length * 4 ≤ bits) : parseHex bits (l.map digit) = num l := by
  generalize hn : l.length = n at hb
  induction n generalizing l with
  | zero => rw [List.length_eq_zero_iff.1 hn]; rfl
  | succ n ih =>
    obtain ⟨k, d, rfl, hk⟩ := list_snoc hn
    have hd := h d (List.mem_append_right _ List.mem_cons_self)
    have hlt : ∀ x ∈ k, x < 16 := fun x hx => h x (List.mem_append_left _ hx)
    have ih := ih hlt hk (by omega)
    unfold parseHex at ih ⊢
    rw [List.map_append, List.foldl_append, ih, num_append_one]
    show (num k <<< 4) % 2 ^ bits ||| hexValue (digit d) = _
    have hk' := num_lt hlt
    have hp : 16 ^ (n + 1) ≤ 2 ^ bits := by
      rw [show (16 : Nat) = 2 ^ 4 from rfl, ← Nat.pow_mul]
      exact Nat.pow_le_pow_right (by decide) (by omega)
    rw [hk] at hk'
    have hsl : num k <<< 4 = num k * 16 := Nat.shiftLeft_eq _ _
    have h16 : num k * 16 < 2 ^ bits := by rw [Nat.pow_succ] at hp; omega
    rw [hexValue_digit hd, Nat.mod_eq_of_lt (by rw [hsl]; exact h16), ← Nat.shiftLeft_add_eq_or_of_lt (by exact hd), hsl]

/-! ### Collecting the digits -/

theorem collect_clean {s : List Char} (hs : Clean s) (i : Nat) (got : List Char) (h : got.length + (digitsOf s).length ≤ 32) :
    collect i got s = .ok (got ++ (digitsOf s).map digit) := by
  induction s generalizing i got with
  | nil => show _ = Except.ok (got ++ []); rw [List.append_nil]; rfl
  | cons c s ih =>
    have hc := hs c List.mem_cons_self
    have hs' : Clean s := fun x hx => hs x (List.mem_cons_of_mem _ hx)
    unfold collect
    rw [toUpperHex_value]
    unfold digitsOf at h ih ⊢
    cases hv : value c with
    | some v =>
      rw [List.filterMap_cons_some hv, List.length_cons] at h
      rw [List.filterMap_cons_some hv]
      dsimp only [Option.map_some]
      rw [if_pos (by omega), ih hs' _ _ (by rw [List.length_append]; simp; omega), List.append_assoc]
      rfl
    | none =>
      rw [List.filterMap_cons_none hv] at h
      rw [List.filterMap_cons_none hv]
      dsimp only [Option.map_none]
      have hb : Between c := hc.resolve_left (by rw [hv]; simp)
      rw [if_neg ((between_iff c).1 hb), ih hs' _ _ h]

/-- The first character that cannot be, with at most 32 digits before it. -/
theorem collect_char {p : List Char} (hp : Clean p) (i : Nat) (got : List Char) (h : got.length + (digitsOf p).length ≤ 32) {c : Char} (hc : value c = none)
    (hb : ¬ Between c) (s : List Char) : collect i got (p ++ c :: s) = .error (.char (i + p.length + 1) c) := by
  induction p generalizing i got with
  | nil =>
    show collect i got (c :: s) = _
    unfold collect
    rw [toUpperHex_value, hc]
    dsimp only [Option.map_none]
    rw [if_pos (Classical.not_not.1 fun hn => hb ((between_iff c).2 hn))]
    rfl
  | cons x p ih =>
    have hx := hp x List.mem_cons_self
    have hp' : Clean p := fun y hy => hp y (List.mem_cons_of_mem _ hy)
    show collect i got (x :: (p ++ c :: s)) = _
    unfold collect
    rw [toUpperHex_value]
    unfold digitsOf at h ih
    have e : i + 1 + p.length + 1 = i + (x :: p).length + 1 := by rw [List.length_cons]; omega
    cases hv : value x with
    | some v =>
      rw [List.filterMap_cons_some hv, List.length_cons] at h
      dsimp only [Option.map_some]
      rw [if_pos (by omega), ih hp' _ _ (by rw [List.length_append]; simp; omega), e]
    | none =>
      rw [List.filterMap_cons_none hv] at h
      dsimp only [Option.map_none]
      rw [if_neg ((between_iff x).1 (hx.resolve_left (by rw [hv]; simp))), ih hp' _ _ h, e]

/-- The thirty-third digit. -/
theorem collect_long {p : List Char} (hp : Clean p) (i : Nat) (got : List Char) (h : got.length + (digitsOf p).length = 32) {c : Char} {v : Nat} (hc : value c = some v)
    (s : List Char) : collect i got (p ++ c :: s) = .error (.length 33) := by
  induction p generalizing i got with
  | nil =>
    have h : got.length = 32 := h
    show collect i got (c :: s) = _
    unfold collect
    rw [toUpperHex_value, hc]
    dsimp only [Option.map_some]
    rw [h, if_neg (by omega)]
  | cons x p ih =>
    have hx := hp x List.mem_cons_self
    have hp' : Clean p := fun y hy => hp y (List.mem_cons_of_mem _ hy)
    show collect i got (x :: (p ++ c :: s)) = _
    unfold collect
    rw [toUpperHex_value]
    unfold digitsOf at h ih
    cases hv : value x with
    | some v =>
      rw [List.filterMap_cons_some hv, List.length_cons] at h
      dsimp only [Option.map_some]
      rw [if_pos (by omega), ih hp' _ _ (by rw [List.length_append]; simp; omega)]
    | none =>
      rw [List.filterMap_cons_none hv] at h
      dsimp only [Option.map_none]
      rw [if_neg ((between_iff x).1 (hx.resolve_left (by rw [hv]; simp))), ih hp' _ _ h]

theorem digitsOf_lt (s : List Char) : ∀ d ∈ digitsOf s, d < 16 := fun d hd => by
  obtain ⟨c, _, h⟩ := List.mem_filterMap.1 hd
  exact value_lt h

/-- A string is clean with at most 32 digits, or has a first bad character, or a thirty-third digit. -/
theorem three (s : List Char) :
    (Clean s ∧ (digitsOf s).length ≤ 32) ∨
    (∃ p c t, s = p ++ c :: t ∧ Clean p ∧ (digitsOf p).length ≤ 32 ∧ value c = none ∧ ¬ Between c) ∨
    (∃ p c t v, s = p ++ c :: t ∧ Clean p ∧ (digitsOf p).length = 32 ∧ value c = some v) := by
  suffices h : ∀ (t p : List Char), Clean p → (digitsOf p).length ≤ 32 →
      (Clean (p ++ t) ∧ (digitsOf (p ++ t)).length ≤ 32) ∨
      (∃ p' c t', p ++ t = p' ++ c :: t' ∧ Clean p' ∧ (digitsOf p').length ≤ 32 ∧ value c = none ∧ ¬ Between c) ∨
      (∃ p' c t' v, p ++ t = p' ++ c :: t' ∧ Clean p' ∧ (digitsOf p').length = 32 ∧ value c = some v) from
    h s [] (fun c hc => (by cases hc)) (by decide)
  intro t
  induction t with
  | nil => intro p h1 h2; rw [List.append_nil]; exact Or.inl ⟨h1, h2⟩
  | cons c t ih =>
    intro p h1 h2
    have e : p ++ c :: t = (p ++ [c]) ++ t := by rw [List.append_assoc]; rfl
    have hd : digitsOf (p ++ [c]) = digitsOf p ++ digitsOf [c] := List.filterMap_append ..
    cases hv : value c with
    | none =>
      by_cases hb : Between c
      · rw [e]
        refine ih _ (fun x hx => ?_) ?_
        · rcases List.mem_append.1 hx with hx | hx
          · exact h1 x hx
          · rw [List.mem_singleton.1 hx]; exact Or.inr hb
        · rw [hd, List.length_append]
          have : digitsOf [c] = [] := List.filterMap_cons_none hv
          rw [this]; exact h2
      · exact Or.inr (Or.inl ⟨p, c, t, rfl, h1, h2, hv, hb⟩)
    | some v =>
      by_cases hl : (digitsOf p).length = 32
      · exact Or.inr (Or.inr ⟨p, c, t, v, rfl, h1, hl, hv⟩)
      · rw [e]
        refine ih _ (fun x hx => ?_) ?_
        · rcases List.mem_append.1 hx with hx | hx
          · exact h1 x hx
          · rw [List.mem_singleton.1 hx, hv]; exact Or.inl rfl
        · rw [hd, List.length_append]
          have : digitsOf [c] = [v] := List.filterMap_cons_some hv
          rw [this]; show (digitsOf p).length + 1 ≤ 32; omega

end Verif.Guid
