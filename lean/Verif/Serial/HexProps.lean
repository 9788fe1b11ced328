import Verif.Serial.Spec
import Verif.Guid.Props
/-!
Numbers and GUIDs as strings.
-/
namespace Verif.Serial

open Verif.Guid (G Valid hex num digitsOf value)

theorem toDigit_value (c : Char) : toDigit c = value c := by
  refine Guid.small_chars (P := fun c => toDigit c = value c) ?_ ?_ c
  · decide +kernel
  · intro c h
    rw [Guid.value_none h]
    unfold toDigit
    rw [if_neg, if_neg, if_neg]
    all_goals (intro hh; have h2 := hh.2; simp only [show 'f'.toNat = 102 from rfl, show 'F'.toNat = 70 from rfl, show '9'.toNat = 57 from rfl] at h2; omega)

theorem lowerDigit_value {d : Nat} (h : d < 16) : value (lowerDigit d) = some d := by
  have : ∀ d, d < 16 → value (lowerDigit d) = some d := by decide +kernel
  exact this d h

theorem lowerDigit_lower {d : Nat} (h : d < 16) : lowerDigit d = lower d := by
  have : ∀ d, d < 16 → lowerDigit d = lower d := by decide +kernel
  exact this d h

theorem number_eq (s : List Char) : number s = num (digitsOf s) := rfl

theorem number_snoc {s : List Char} {c : Char} {d : Nat} (h : value c = some d) : number (s ++ [c]) = number s * 16 + d := by
  unfold number digitsOf
  rw [List.filterMap_append, List.foldl_append, List.filterMap_cons_some h]
  rfl

theorem lowerHex_small {n : Nat} (h : n < 16) : lowerHex n = [lowerDigit n] := by rw [lowerHex, if_pos h]

theorem lowerHex_big {n : Nat} (h : ¬ n < 16) : lowerHex n = lowerHex (n / 16) ++ [lowerDigit (n % 16)] := by rw [lowerHex, if_neg h]

theorem lowerHex_ne (n : Nat) : lowerHex n ≠ [] := by
  by_cases h : n < 16
  · rw [lowerHex_small h]; exact List.cons_ne_nil _ _
  · rw [lowerHex_big h]; exact List.append_ne_nil_of_right_ne_nil _ (List.cons_ne_nil _ _)

theorem lowerHex_digits (n : Nat) : Digits (lowerHex n) ∧ number (lowerHex n) = n := by
  induction n using Nat.strongRecOn with
  | ind n ih =>
    refine ⟨⟨lowerHex_ne n, ?_⟩, ?_⟩
    · by_cases h : n < 16
      · rw [lowerHex_small h]
        intro c hc
        rw [List.mem_singleton.1 hc, lowerDigit_value h]; rfl
      · rw [lowerHex_big h]
        intro c hc
        rcases List.mem_append.1 hc with hc | hc
        · exact (ih (n / 16) (by omega)).1.2 c hc
        · rw [List.mem_singleton.1 hc, lowerDigit_value (Nat.mod_lt _ (by decide))]; rfl
    · by_cases h : n < 16
      · rw [lowerHex_small h]
        have := number_snoc (s := []) (lowerDigit_value h)
        rw [List.nil_append] at this
        rw [this]
        show 0 * 16 + n = n
        omega
      · rw [lowerHex_big h, number_snoc (lowerDigit_value (Nat.mod_lt _ (by decide))), (ih (n / 16) (by omega)).2]
        omega

theorem accumulate_iff (bits : Nat) : ∀ (cs : List Char) (v n : Nat), v < 2 ^ bits →
    (accumulate bits v cs = some n ↔ (∀ c ∈ cs, (value c).isSome = true) ∧ (digitsOf cs).foldl (fun v d => v * 16 + d) v = n ∧ n < 2 ^ bits) := by
  intro cs
  have grows : ∀ (l : List Nat) (v : Nat), v ≤ l.foldl (fun v d => v * 16 + d) v := by
    intro l
    induction l with
    | nil => exact fun v => Nat.le_refl v
    | cons d l ih => exact fun v => Nat.le_trans (by omega) (ih (v * 16 + d))
  induction cs with
  | nil =>
    intro v n hv
    constructor
    · intro h
      have h : some v = some n := h
      cases h
      exact ⟨fun c hc => (List.not_mem_nil hc).elim, rfl, hv⟩
    · rintro ⟨-, h, -⟩
      exact congrArg some h
  | cons c cs ih =>
    intro v n hv
    unfold accumulate
    rw [toDigit_value]
    cases hc : value c with
    | none =>
      refine ⟨fun h => by simp at h, fun h => ?_⟩
      have := h.1 c List.mem_cons_self
      rw [hc] at this
      simp at this
    | some d =>
      have e : digitsOf (c :: cs) = d :: digitsOf cs := List.filterMap_cons_some hc
      have hall : (∀ x ∈ c :: cs, (value x).isSome = true) ↔ ∀ x ∈ cs, (value x).isSome = true :=
        ⟨fun h x hx => h x (List.mem_cons_of_mem _ hx), fun h x hx => by
          rcases List.mem_cons.1 hx with rfl | hx
          · rw [hc]; rfl
          · exact h x hx⟩
      rw [e, hall, List.foldl_cons]
      have hg := grows (digitsOf cs) (v * 16 + d)
      show (if 2 ^ bits ≤ v * 16 then none else if 2 ^ bits ≤ v * 16 + d then none else accumulate bits (v * 16 + d) cs) = some n ↔ _
      split
      · exact ⟨fun h => by simp at h, fun h => by omega⟩
      · split
        · exact ⟨fun h => by simp at h, fun h => by omega⟩
        · exact ih _ _ (by omega)

theorem plus_no_digit : value '+' = none := by decide

/-- Which strings are read as numbers: `0x`, perhaps a plus sign, and digits of either case; the number has to fit. -/
theorem hex_accepts (bits : Nat) (s : List Char) (n : Nat) :
    parseHexString bits s = some n ↔ ∃ ds, (s = '0' :: 'x' :: ds ∨ s = '0' :: 'x' :: '+' :: ds) ∧ Digits ds ∧ number ds = n ∧ n < 2 ^ bits := by
  have hp : 0 < 2 ^ bits := Nat.pos_of_ne_zero (by simp)
  constructor
  · intro h
    unfold parseHexString at h
    split at h
    · next t =>
      unfold fromStrRadix at h
      split at h
      · simp at h
      · next c cs =>
        split at h
        · next hc =>
          split at h
          · simp at h
          · next hne =>
            obtain ⟨h1, h2, h3⟩ := (accumulate_iff bits _ 0 n hp).1 h
            exact ⟨cs, Or.inr (by rw [hc]), ⟨hne, h1⟩, h2, h3⟩
        · obtain ⟨h1, h2, h3⟩ := (accumulate_iff bits _ 0 n hp).1 h
          exact ⟨c :: cs, Or.inl rfl, ⟨List.cons_ne_nil _ _, h1⟩, h2, h3⟩
    · simp at h
  · rintro ⟨ds, hs, ⟨hne, hd⟩, h2, h3⟩
    have ha := (accumulate_iff bits ds 0 n hp).2 ⟨hd, h2, h3⟩
    rcases hs with rfl | rfl
    · show fromStrRadix bits ds = some n
      cases ds with
      | nil => exact absurd rfl hne
      | cons c cs =>
        show (if c = '+' then (if cs = [] then none else accumulate bits 0 cs) else accumulate bits 0 (c :: cs)) = some n
        rw [if_neg, ha]
        intro hc
        have := hd c List.mem_cons_self
        rw [hc, plus_no_digit] at this
        simp at this
    · show fromStrRadix bits ('+' :: ds) = some n
      show (if '+' = '+' then (if ds = [] then none else accumulate bits 0 ds) else accumulate bits 0 ('+' :: ds)) = some n
      rw [if_pos rfl, if_neg hne, ha]

/-- A number written as a string is read as the same number, by every type wide enough for it, and by no other. -/
theorem hex_round_trip (bits n : Nat) : parseHexString bits (hexString n) = if n < 2 ^ bits then some n else none := by
  obtain ⟨hd, hn⟩ := lowerHex_digits n
  split
  · next h => exact (hex_accepts bits _ n).2 ⟨lowerHex n, Or.inl rfl, hd, hn, h⟩
  · next h =>
    cases hp : parseHexString bits (hexString n) with
    | none => rfl
    | some k =>
      obtain ⟨ds, hs, hds, hk, hlt⟩ := (hex_accepts bits _ k).1 hp
      rcases hs with hs | hs
      · have hs : lowerHex n = ds := by
          have := hs
          unfold hexString at this
          injection this with _ this
          injection this
        rw [← hs, hn] at hk
        omega
      · have hs : lowerHex n = '+' :: ds := by
          have := hs
          unfold hexString at this
          injection this with _ this
          injection this
        have := hd.2 '+' (by rw [hs]; exact List.mem_cons_self)
        rw [plus_no_digit] at this
        simp at this

/-- Different numbers are written as different strings. -/
theorem hex_injective {a b : Nat} (h : hexString a = hexString b) : a = b := by
  have e : lowerHex a = lowerHex b := by
    unfold hexString at h
    injection h with _ h
    injection h
  rw [← (lowerHex_digits a).2, e, (lowerHex_digits b).2]

example : hexString 0x1a2b3c = "0x1a2b3c".toList := by decide +kernel
example : parseHexString 64 "0xDEADCFEE".toList = some 3735932910 := by decide +kernel
example : parseHexString 32 "1a2b3c".toList = none := by decide +kernel
example : parseHexString 8 "0x100".toList = none := by decide +kernel

/-- Finding: a string with a sign is taken for a number. -/
theorem hex_sign_accepted : parseHexString 32 "0x+1f".toList = some 31 := by decide +kernel

/-! ### GUIDs -/

theorem lowerHex_hex : ∀ (w n : Nat), n < 16 ^ w → ∃ k, (hex w n).map lowerDigit = List.replicate k '0' ++ (if w = 0 then [] else lowerHex n) ∧ (w ≠ 0 → k + (lowerHex n).length = w) := by
  intro w
  induction w with
  | zero => exact fun n _ => ⟨0, rfl, fun h => absurd rfl h⟩
  | succ w ih =>
    intro n h
    rw [if_neg (by omega)]
    have h16 : n / 16 < 16 ^ w := by
      rw [Nat.pow_succ] at h
      exact Nat.div_lt_of_lt_mul (by omega)
    obtain ⟨k, he, hk⟩ := ih (n / 16) h16
    unfold Guid.hex
    rw [List.map_append, he]
    by_cases hn : n < 16
    · have h0 : n / 16 = 0 := by omega
      have hm : n % 16 = n := by omega
      by_cases hw : w = 0
      · subst hw
        refine ⟨0, ?_, fun _ => by rw [lowerHex_small hn]; rfl⟩
        have hk0 : k = 0 := by
          have := congrArg List.length he
          simp [Guid.hex] at this
          omega
        rw [hk0, lowerHex_small hn, hm]
        rfl
      · refine ⟨k + 1, ?_, fun _ => ?_⟩
        · rw [if_neg hw, h0, hm, lowerHex_small (show (0 : Nat) < 16 by decide), lowerHex_small hn]
          show List.replicate k '0' ++ ['0'] ++ [lowerDigit n] = _
          rw [List.replicate_succ']
        · have := hk hw
          rw [h0, lowerHex_small (show (0 : Nat) < 16 by decide)] at this
          rw [lowerHex_small hn]
          simp only [List.length_cons, List.length_nil] at this ⊢
          omega
    · have hw : w ≠ 0 := by
        intro hw
        subst hw
        simp at h16
        omega
      refine ⟨k, ?_, fun _ => ?_⟩
      · rw [if_neg hw, lowerHex_big hn, List.append_assoc]
        rfl
      · rw [lowerHex_big hn, List.length_append, List.length_singleton]
        have := hk hw
        omega

theorem padHex_hex {w n : Nat} (hw : w ≠ 0) (h : n < 16 ^ w) : padHex w n = (hex w n).map lowerDigit := by
  obtain ⟨k, he, hk⟩ := lowerHex_hex w n h
  have := hk hw
  unfold padHex
  rw [he, if_neg hw, show w - (lowerHex n).length = k by omega]

theorem node_hex {l : List Nat} (h : ∀ b ∈ l, b < 2 ^ 8) : l.flatMap (padHex 2) = (l.flatMap (hex 2)).map lowerDigit := by
  induction l with
  | nil => rfl
  | cons b l ih =>
    rw [List.flatMap_cons, List.flatMap_cons, List.map_append, ih fun x hx => h x (List.mem_cons_of_mem _ hx), padHex_hex (by decide) (h b List.mem_cons_self)]

theorem format_parts {g : G} (h : Valid g) :
    formatGuid g = (hex 8 g.low).map lowerDigit ++ '-' :: (hex 4 g.mid).map lowerDigit ++ '-' :: (hex 4 g.hi).map lowerDigit ++ '-' :: ((hex 2 g.seqHi).map lowerDigit ++ (hex 2 g.seqLow).map lowerDigit) ++
      '-' :: (g.node.flatMap (hex 2)).map lowerDigit := by
  unfold formatGuid
  rw [padHex_hex (by decide) h.low, padHex_hex (by decide) h.mid, padHex_hex (by decide) h.hi, padHex_hex (by decide) h.seqHi, padHex_hex (by decide) h.seqLow, node_hex h.node.2]

theorem map_lower {l : List Nat} (h : ∀ d ∈ l, d < 16) : l.map lowerDigit = l.map lower := List.map_congr_left fun d hd => lowerDigit_lower (h d hd)

/-- A GUID is written as 8, 4, 4, 4 and 12 digits in lower case, with dashes between them. -/
theorem guid_shape {g : G} (h : Valid g) :
    formatGuid g = (hex 8 g.low).map lower ++ '-' :: (hex 4 g.mid).map lower ++ '-' :: (hex 4 g.hi).map lower ++ '-' :: ((hex 2 g.seqHi).map lower ++ (hex 2 g.seqLow).map lower) ++
      '-' :: (g.node.flatMap (hex 2)).map lower := by
  rw [format_parts h, map_lower (Guid.hex_lt _ _), map_lower (Guid.hex_lt _ _), map_lower (Guid.hex_lt _ _), map_lower (Guid.hex_lt _ _), map_lower (Guid.hex_lt _ _), map_lower (l := g.node.flatMap (hex 2))]
  intro d hd
  obtain ⟨_, _, h⟩ := List.mem_flatMap.1 hd
  exact Guid.hex_lt _ _ d h

theorem digitsOf_lower {l : List Nat} (h : ∀ d ∈ l, d < 16) : digitsOf (l.map lowerDigit) = l := by
  induction l with
  | nil => rfl
  | cons d l ih =>
    unfold Guid.digitsOf at ih ⊢
    rw [List.map_cons, List.filterMap_cons_some (lowerDigit_value (h d List.mem_cons_self)), ih fun x hx => h x (List.mem_cons_of_mem _ hx)]

theorem clean_lower {l : List Nat} (h : ∀ d ∈ l, d < 16) : Guid.Clean (l.map lowerDigit) := fun c hc => by
  obtain ⟨d, hd, e⟩ := List.mem_map.1 hc
  rw [← e, lowerDigit_value (h d hd)]
  exact Or.inl rfl

/-- The GUID parser of the SDK reads the GUID back. -/
theorem guid_round_trip {g : G} (h : Valid g) : Guid.tryFromString (formatGuid g) = .ok g := by
  have hn : ∀ d ∈ g.node.flatMap (hex 2), d < 16 := fun d hd => by
    obtain ⟨_, _, h⟩ := List.mem_flatMap.1 hd
    exact Guid.hex_lt _ _ d h
  have dash : ∀ s : List Char, digitsOf ('-' :: s) = digitsOf s := fun s => by
    unfold Guid.digitsOf
    rw [List.filterMap_cons_none (by decide)]
  have app : ∀ s t : List Char, digitsOf (s ++ t) = digitsOf s ++ digitsOf t := fun s t => List.filterMap_append
  rw [Guid.parse_iff]
  refine ⟨?_, h, ?_⟩
  · rw [format_parts h]
    intro c hc
    simp only [List.mem_append, List.mem_cons] at hc
    have hd : c = '-' → (value c).isSome = true ∨ Guid.Between c := fun e => Or.inr (Or.inl e)
    rcases hc with (((hc | hc | hc) | hc | hc) | hc | hc | hc) | hc | hc
    · exact clean_lower (Guid.hex_lt _ _) c hc
    · exact hd hc
    · exact clean_lower (Guid.hex_lt _ _) c hc
    · exact hd hc
    · exact clean_lower (Guid.hex_lt _ _) c hc
    · exact hd hc
    · exact clean_lower (Guid.hex_lt _ _) c hc
    · exact clean_lower (Guid.hex_lt _ _) c hc
    · exact hd hc
    · exact clean_lower hn c hc
  · rw [format_parts h]
    simp only [app, dash, digitsOf_lower (Guid.hex_lt _ _), digitsOf_lower hn, G.digits, Guid.G.digits, List.append_assoc]

/-- Different GUIDs are written as different strings. -/
theorem guid_injective {a b : G} (ha : Valid a) (hb : Valid b) (h : formatGuid a = formatGuid b) : a = b := by
  have e := guid_round_trip ha
  rw [h, guid_round_trip hb] at e
  injection e with e
  exact e.symm

def someGuid : G := ⟨0x123e4567, 0xe89b, 0x12d3, 0xa4, 0x56, [0x42, 0x66, 0x14, 0x17, 0x40, 0x00]⟩

example : Valid someGuid := ⟨by decide, by decide, by decide, by decide, by decide, by decide⟩
example : formatGuid someGuid = "123e4567-e89b-12d3-a456-426614174000".toList := by decide +kernel

end Verif.Serial
