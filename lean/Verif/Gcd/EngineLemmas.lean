import Verif.Gcd.EngineSpec
namespace Verif.Gcd
variable {σ : Type} 

theorem tiles_append {s e : Nat} {l r : List (Block σ)} : Tiles s (l ++ r) e ↔ ∃ m, Tiles s l m ∧ Tiles m r e := by
  induction l generalizing s with
  | nil => simp [Tiles]
  | cons b l ih =>
    simp only [List.cons_append, Tiles, ih]
    constructor
    · rintro ⟨h1, h2, m, h3, h4⟩; exact ⟨m, ⟨h1, h2, h3⟩, h4⟩
    · rintro ⟨m, ⟨h1, h2, h3⟩, h4⟩; exact ⟨h1, h2, m, h3, h4⟩

theorem tiles_le {s e : Nat} {l : List (Block σ)} (h : Tiles s l e) : s ≤ e := by
  induction l generalizing s with
  | nil => simp only [Tiles] at h; omega
  | cons b l ih => have := ih h.2.2; omega

theorem tiles_mem {s e : Nat} {l : List (Block σ)} (h : Tiles s l e) {b : Block σ} (hb : b ∈ l) :
    s ≤ b.base ∧ 0 < b.len ∧ b.base + b.len ≤ e := by
  induction l generalizing s with
  | nil => cases hb
  | cons x l ih =>
    have hle := tiles_le h.2.2
    rcases List.mem_cons.1 hb with hb | hb
    · subst hb; exact ⟨by have := h.1; omega, h.2.1, by have := h.1; omega⟩
    · have := ih h.2.2 hb; have := h.2.1; omega

theorem cellAt_append (l r : List (Block σ)) (a : Nat) :
    cellAt (l ++ r) a = (match cellAt l a with | some x => some x | none => cellAt r a) := by
  induction l with
  | nil => rfl
  | cons b l ih =>
    simp only [List.cons_append, cellAt, ih]
    split <;> rfl

theorem cellAt_bounds {s e : Nat} {l : List (Block σ)} (h : Tiles s l e) {a : Nat} {x : σ} (hx : cellAt l a = some x) :
    s ≤ a ∧ a < e := by
  induction l generalizing s with
  | nil => cases hx
  | cons b l ih =>
    have hle := tiles_le h.2.2
    have h1 := h.1
    simp only [cellAt] at hx
    split at hx
    · omega
    · have := ih h.2.2 hx; omega

theorem cellAt_none {s e : Nat} {l : List (Block σ)} (h : Tiles s l e) {a : Nat} (ha : a < s ∨ e ≤ a) : cellAt l a = none := by
  cases hx : cellAt l a with
  | none => rfl
  | some x => have := cellAt_bounds h hx; omega

theorem cellAt_some {s e : Nat} {l : List (Block σ)} (h : Tiles s l e) {a : Nat} (h1 : s ≤ a) (h2 : a < e) :
    ∃ b ∈ l, b.base ≤ a ∧ a < b.base + b.len ∧ cellAt l a = some b.st := by
  induction l generalizing s with
  | nil => simp only [Tiles] at h; omega
  | cons b l ih =>
    by_cases hb : b.base ≤ a ∧ a < b.base + b.len
    · exact ⟨b, by simp, hb.1, hb.2, by simp [cellAt, hb]⟩
    · have := h.1
      obtain ⟨c, hc, h3, h4, h5⟩ := ih h.2.2 (by omega)
      exact ⟨c, by simp [hc], h3, h4, by simp only [cellAt, if_neg hb, h5]⟩

theorem cellAt_mem {s e : Nat} {l : List (Block σ)} (h : Tiles s l e) {b : Block σ} (hb : b ∈ l) {a : Nat}
    (h1 : b.base ≤ a) (h2 : a < b.base + b.len) : cellAt l a = some b.st := by
  induction l generalizing s with
  | nil => cases hb
  | cons x l ih =>
    rcases List.mem_cons.1 hb with hb | hb
    · subst hb; simp [cellAt, h1, h2]
    · have h3 := tiles_mem h.2.2 hb
      have h4 := h.1
      have : ¬ (x.base ≤ a ∧ a < x.base + x.len) := by omega
      simp only [cellAt, if_neg this]
      exact ih h.2.2 hb

theorem coalesced_tail {b : Block σ} {l : List (Block σ)} (h : Coalesced (b :: l)) : Coalesced l := by
  cases l with
  | nil => trivial
  | cons c l => exact h.2

theorem coalesced_append {l r : List (Block σ)} : Coalesced (l ++ r) ↔
    Coalesced l ∧ Coalesced r ∧ ∀ x y, l.getLast? = some x → r.head? = some y → x.st ≠ y.st := by
  induction l with
  | nil => simp [Coalesced]
  | cons a l ih =>
    cases l with
    | nil =>
      cases r with
      | nil => simp [Coalesced]
      | cons b r => simp [Coalesced, and_comm]
    | cons b l =>
      rw [List.cons_append] at ih ⊢
      rw [List.cons_append]
      simp only [Coalesced] at ih ⊢
      rw [ih]
      simp only [List.getLast?_cons_cons]
      constructor
      · rintro ⟨h1, h2, h3, h4⟩; exact ⟨⟨h1, h2⟩, h3, h4⟩
      · rintro ⟨⟨h1, h2⟩, h3, h4⟩; exact ⟨h1, h2, h3, h4⟩

theorem coalesced_head_congr {a b : Block σ} {l : List (Block σ)} (h : a.st = b.st) :
    Coalesced (a :: l) ↔ Coalesced (b :: l) := by
  cases l with
  | nil => simp [Coalesced]
  | cons c l => simp [Coalesced, h]

theorem coalesced_last_congr {a b : Block σ} {l : List (Block σ)} (h : a.st = b.st) :
    Coalesced (l ++ [a]) ↔ Coalesced (l ++ [b]) := by
  rw [coalesced_append, coalesced_append]
  simp [h, Coalesced]

variable [DecidableEq σ]

theorem stop_eq {b : Block σ} {e : Nat} (h : b.base + b.len ≤ e) (he : e < W) : b.stop = b.base + b.len := by
  unfold Block.stop addw; exact Nat.mod_eq_of_lt (by omega)

theorem merge_some {a b m : Block σ} (h : a.merge b = some m) :
    a.st = b.st ∧ m.st = a.st ∧ m.base = a.base ∧ m.len = a.len + b.len := by
  unfold Block.merge at h
  split at h
  · rename_i hc; cases h; exact ⟨hc.1, rfl, rfl, rfl⟩
  · cases h

theorem merge_none {a b : Block σ} (h : a.merge b = none) (hs : a.stop = b.base) : a.st ≠ b.st := by
  unfold Block.merge at h
  split at h
  · cases h
  · rename_i hc; exact fun h => hc ⟨h, hs⟩

theorem mergeNext_spec {s e : Nat} {mb : Block σ} {r : List (Block σ)} (he : e < W) (ht : Tiles s (mb :: r) e) (hc : Coalesced r) :
    ∃ m rest, mergeNext mb r = m :: rest ∧ m.st = mb.st ∧ m.base = mb.base ∧ Tiles s (m :: rest) e ∧
      Coalesced (m :: rest) ∧ (∀ a, cellAt (m :: rest) a = cellAt (mb :: r) a) ∧ rest.length ≤ r.length := by
  cases r with
  | nil => exact ⟨mb, [], rfl, rfl, rfl, ht, trivial, fun _ => rfl, by simp⟩
  | cons n r =>
    have hst : mb.stop = n.base := by
      have h1 := ht.2.2.1
      have h2 := tiles_le ht.2.2
      rw [stop_eq (e := e) (by have := ht.1; omega) he, ht.1, h1]
    unfold mergeNext
    cases hm : mb.merge n with
    | none =>
      exact ⟨mb, n :: r, by simp only [hm], rfl, rfl, ht, ⟨merge_none hm hst, hc⟩, fun _ => rfl, by simp⟩
    | some m =>
      obtain ⟨h1, h2, h3, h4⟩ := merge_some hm
      refine ⟨m, r, by simp only [hm], h2, h3, ⟨by rw [h3]; exact ht.1, by have := ht.2.1; omega, ?_⟩, ?_, ?_, by simp⟩
      · have := ht.2.2.2.2; rw [h4, ← Nat.add_assoc]; exact this
      · exact (coalesced_head_congr (by rw [h2, h1])).1 hc
      · intro a
        have hb := ht.2.2.1
        have hb0 := ht.1
        simp only [cellAt, h2, h3, h4, ← h1]
        by_cases c1 : mb.base ≤ a ∧ a < mb.base + mb.len
        · rw [if_pos (by omega), if_pos c1]
        · rw [if_neg c1]
          by_cases c2 : n.base ≤ a ∧ a < n.base + n.len
          · rw [if_pos c2, if_pos (by omega)]
          · rw [if_neg c2, if_neg (by omega)]

theorem mergePrev_spec {e : Nat} {before : List (Block σ)} {m : Block σ} {rest : List (Block σ)} (he : e < W)
    (ht : Tiles 0 (before.reverse ++ m :: rest) e) (hb : Coalesced before.reverse) (hr : Coalesced (m :: rest)) :
    Tiles 0 (mergePrev before (m :: rest)) e ∧ Coalesced (mergePrev before (m :: rest)) ∧
      (∀ a, cellAt (mergePrev before (m :: rest)) a = cellAt (before.reverse ++ m :: rest) a) ∧
      (mergePrev before (m :: rest)).length ≤ before.length + 1 + rest.length := by
  cases before with
  | nil => exact ⟨ht, hr, fun _ => rfl, by simp [mergePrev]; omega⟩
  | cons p before =>
    have hx : (p :: before).reverse ++ m :: rest = before.reverse ++ p :: m :: rest := by simp
    rw [hx] at ht
    obtain ⟨k, hk1, hk2⟩ := tiles_append.1 ht
    have hst : p.stop = m.base := by
      have h1 := hk2.2.2.1
      have h2 := tiles_le hk2.2.2
      rw [stop_eq (e := e) (by have := hk2.1; omega) he, hk2.1, h1]
    rw [List.reverse_cons, coalesced_append] at hb
    unfold mergePrev
    cases hm : p.merge m with
    | none =>
      simp only [hm]
      refine ⟨by rw [hx]; exact ht, ?_, by simp only [implies_true], by simp; omega⟩
      rw [hx, coalesced_append]
      exact ⟨hb.1, ⟨merge_none hm hst, hr⟩, by simpa using hb.2.2⟩
    | some q =>
      obtain ⟨h1, h2, h3, h4⟩ := merge_some hm
      simp only [hm]
      refine ⟨?_, ?_, ?_, by simp; omega⟩
      · refine tiles_append.2 ⟨k, hk1, by rw [h3]; exact hk2.1, by have := hk2.2.1; omega, ?_⟩
        have := hk2.2.2.2.2; rw [h4, ← Nat.add_assoc]; exact this
      · rw [coalesced_append]
        refine ⟨hb.1, (coalesced_head_congr (by rw [h2, h1])).1 hr, ?_⟩
        intro x y hx' hy
        simp only [List.head?_cons, Option.some.injEq] at hy
        subst hy
        rw [h2]
        exact hb.2.2 x p hx' rfl
      · intro a
        have hb1 := hk2.2.2.1
        have hb0 := hk2.1
        rw [hx, cellAt_append, cellAt_append]
        cases cellAt before.reverse a with
        | some x => rfl
        | none =>
          simp only [cellAt, h2, h3, h4, ← h1]
          by_cases c1 : p.base ≤ a ∧ a < p.base + p.len
          · rw [if_pos (by omega), if_pos c1]
          · rw [if_neg c1]
            by_cases c2 : m.base ≤ a ∧ a < m.base + m.len
            · rw [if_pos c2, if_pos (by omega)]
            · rw [if_neg c2, if_neg (by omega)]

theorem block_eq {b : Block σ} {x y : Nat} (h1 : b.base = x) (h2 : b.len = y) : b = ⟨x, y, b.st⟩ := by
  subst h1; subst h2; rfl

/-- A split covers the block; failing transitions put it back. -/
theorem split_spec {b : Block σ} {base len e : Nat} (hl : len < W) (he : e < W) (hb : b.base + b.len ≤ e) (hpos : 0 < b.len) :
    (¬ b.Holds base len ∧ b.split base len = .err .blockOutsideRange) ∨
    (b.Holds base len ∧ ∃ s, b.split base len = .ok s ∧ s.mb = ⟨base, len, b.st⟩ ∧ s.undo = b ∧
      (match s.prev with | none => b.base = base | some p => p = ⟨b.base, base - b.base, b.st⟩ ∧ b.base < base) ∧
      (match s.next with
        | none => base + len = b.base + b.len
        | some n => n = ⟨base + len, b.base + b.len - (base + len), b.st⟩ ∧ base + len < b.base + b.len)) := by
  have hbs := stop_eq hb he
  unfold Block.split
  rw [hbs]
  simp only []
  have hW : addw base len = (base + len) % W := rfl
  by_cases hin : b.Holds base len
  · refine Or.inr ⟨hin, ?_⟩
    obtain ⟨h0, h1, h2⟩ := hin
    have hst : addw base len = base + len := by rw [hW]; exact Nat.mod_eq_of_lt (by omega)
    rw [hst, if_neg (by omega)]
    have hmb : ∀ (x y z : Nat), (⟨x, y, b.st⟩ : Block σ).stop = x + y ∨ e < x + y := fun x y _ => by
      by_cases h : x + y ≤ e
      · exact Or.inl (stop_eq (b := ⟨x, y, b.st⟩) h he)
      · exact Or.inr (by omega)
    by_cases c1 : b.base = base ∧ base + len = b.base + b.len
    · rw [if_pos c1]
      refine ⟨_, rfl, ?_, rfl, c1.1, c1.2⟩
      exact block_eq c1.1 (by have h1 := c1.1; have h2 := c1.2; show b.len = len; omega)
    · rw [if_neg c1]
      by_cases c2 : b.base = base ∧ base + len < b.base + b.len
      · rw [if_pos c2]
        refine ⟨_, rfl, rfl, ?_, c2.1, ?_⟩
        · simp only [Split.undo, Block.merge]
          rw [if_pos (by refine ⟨trivial, ?_⟩; rw [stop_eq (e := e) (b := ⟨base, len, b.st⟩) (by show base + len ≤ e; omega) he])]
          cases b; simp only [Option.getD_some, Block.mk.injEq] at *; exact ⟨by omega, by omega, trivial⟩
        · simp only [Block.mk.injEq]; exact ⟨⟨trivial, by omega, trivial⟩, c2.2⟩
      · rw [if_neg c2]
        by_cases c3 : b.base < base ∧ base + len = b.base + b.len
        · rw [if_pos c3]
          refine ⟨_, rfl, rfl, ?_, ?_, c3.2⟩
          · simp only [Split.undo, Block.merge]
            rw [if_pos (by
              refine ⟨trivial, ?_⟩
              rw [stop_eq (e := e) (b := ⟨b.base, b.len - len, b.st⟩) (by show b.base + (b.len - len) ≤ e; omega) he]
              show b.base + (b.len - len) = base; omega)]
            cases b; simp only [Option.getD_some, Block.mk.injEq] at *; exact ⟨trivial, by omega, trivial⟩
          · simp only [Block.mk.injEq]; exact ⟨⟨trivial, by omega, trivial⟩, c3.1⟩
        · rw [if_neg c3, if_pos (by omega)]
          refine ⟨_, rfl, rfl, ?_, ?_, ?_⟩
          · have e1 : (⟨base, len, b.st⟩ : Block σ).merge ⟨base + len, b.base + b.len - (base + len), b.st⟩ =
                some ⟨base, len + (b.base + b.len - (base + len)), b.st⟩ := by
              unfold Block.merge
              rw [if_pos ⟨rfl, by rw [stop_eq (e := e) (b := ⟨base, len, b.st⟩) (by show base + len ≤ e; omega) he]⟩]
            have e2 : (⟨b.base, base - b.base, b.st⟩ : Block σ).merge
                  ⟨base, len + (b.base + b.len - (base + len)), b.st⟩ =
                some ⟨b.base, (base - b.base) + (len + (b.base + b.len - (base + len))), b.st⟩ := by
              unfold Block.merge
              rw [if_pos (by
                refine ⟨rfl, ?_⟩
                rw [stop_eq (e := e) (b := ⟨b.base, base - b.base, b.st⟩) (by show b.base + (base - b.base) ≤ e; omega) he]
                show b.base + (base - b.base) = base; omega)]
            simp only [Split.undo, e1, Option.getD_some, e2]
            cases b; simp only [Block.mk.injEq] at *; exact ⟨trivial, by omega, trivial⟩
          · exact ⟨rfl, by omega⟩
          · exact ⟨rfl, by omega⟩
  · refine Or.inl ⟨hin, ?_⟩
    rw [if_pos]
    intro h
    apply hin
    obtain ⟨h1, h2, h3⟩ := h
    have hlt : addw base len < W := Nat.mod_lt _ (by unfold W; omega)
    have hadd : addw base len = base + len := by
      rw [hW]; rw [hW] at h2 hlt
      by_cases hc : base + len < W
      · exact Nat.mod_eq_of_lt hc
      · have : (base + len) % W = base + len - W := by
          rw [Nat.mod_eq_sub_mod (by omega), Nat.mod_eq_of_lt (by omega)]
        omega
    exact ⟨by omega, h1, by omega⟩

/-- The map is a coalesced partition of `[0, e)`. -/
structure Good (blocks : List (Block σ)) (e : Nat) : Prop where
  tiles : Tiles 0 blocks e
  coal : Coalesced blocks

/-- `tr` can be applied to the range. -/
def Applies (z : Block σ) (base len : Nat) (tr : σ → Option σ) : Prop := z.Holds base len ∧ (tr z.st).isSome

theorem transition_spec {cap : Nat} {z : Zip σ} {base len e : Nat} {tr : σ → Option σ} (hl : len < W) (he : e < W)
    (hg : Good (z.plug z.cur) e) :
    match z.transition cap base len tr with
    | .done l =>
      ∃ st', tr z.cur.st = some st' ∧ z.cur.Holds base len ∧ Good l e ∧
        (∀ a, cellAt l a = if base ≤ a ∧ a < base + len then some st' else cellAt (z.plug z.cur) a) ∧
        (z.size ≤ cap → l.length ≤ cap) ∧ l.length ≤ z.size + 2
    | .fail (.block .invalidStateTransition) b => b = z.cur ∧ z.cur.Holds base len ∧ tr z.cur.st = none
    | .fail (.block .blockOutsideRange) b => b = z.cur ∧ ¬ z.cur.Holds base len
    | .fail .outOfSpace b => b = z.cur ∧ z.cur.Holds base len ∧ (tr z.cur.st).isSome ∧ cap < z.size + 2
    | .panic => False := by
  obtain ⟨before, b, after⟩ := z
  have ht : Tiles 0 (before.reverse ++ b :: after) e := hg.tiles
  have hc : Coalesced (before.reverse ++ b :: after) := hg.coal
  obtain ⟨k, hk1, hk2⟩ := tiles_append.1 ht
  have hkb := hk2.1
  have hle := tiles_le hk2.2.2
  unfold Zip.transition Block.splitTransition
  rcases split_spec (b := b) (base := base) (len := len) hl he (by omega) hk2.2.1 with ⟨h, hs⟩ | ⟨h, s, hs, hmb, hundo, hp, hn⟩
  · simp only [hs]; exact ⟨trivial, h⟩
  · simp only [hs, hmb]
    cases htr : tr b.st with
    | none => exact ⟨hundo, h, rfl⟩
    | some st =>
      simp only []
      by_cases hcap : s.added ≠ 0 ∧ cap < (Zip.mk before b after).size + s.added
      · have : s.added ≤ 2 := by
          unfold Split.added
          cases s.prev <;> cases s.next <;> simp
        have hcap' : (Split.mk s.prev (⟨base, len, st⟩ : Block σ) s.next).added ≠ 0 ∧
          cap < (Zip.mk before b after).size + (Split.mk s.prev (⟨base, len, st⟩ : Block σ) s.next).added := hcap
        rw [if_pos hcap']
        exact ⟨rfl, h, rfl, by omega⟩
      · have hcap' : ¬ ((Split.mk s.prev (⟨base, len, st⟩ : Block σ) s.next).added ≠ 0 ∧
          cap < (Zip.mk before b after).size + (Split.mk s.prev (⟨base, len, st⟩ : Block σ) s.next).added) := hcap
        rw [if_neg hcap']
        · skip
          rw [coalesced_append] at hc
          obtain ⟨hc1, hc2, hc3⟩ := hc
          obtain ⟨h0, h1, h2⟩ := h
          have tnext : Tiles (base + len) (s.next.toList ++ after) e := by
            cases hnx : s.next with
            | none =>
              rw [hnx] at hn
              have hn' : base + len = b.base + b.len := hn
              rw [hn', hkb]; exact hk2.2.2
            | some n =>
              rw [hnx] at hn
              obtain ⟨hn1, hn2⟩ := hn
              subst hn1
              refine ⟨rfl, ?_, ?_⟩
              · show 0 < b.base + b.len - (base + len); omega
              · have : base + len + (b.base + b.len - (base + len)) = k + b.len := by omega
                show Tiles (base + len + (b.base + b.len - (base + len))) after e
                rw [this]; exact hk2.2.2
          have cnext : Coalesced (s.next.toList ++ after) := by
            cases hnx : s.next with
            | none => exact coalesced_tail hc2
            | some n =>
              rw [hnx] at hn
              have : n.st = b.st := by rw [hn.1]
              exact (coalesced_head_congr this).2 hc2
          obtain ⟨m, rest, hm, hm1, hm2, hm3, hm4, hm5, hm6⟩ :=
            mergeNext_spec (s := base) (mb := ⟨base, len, st⟩) he ⟨rfl, h0, tnext⟩ cnext
          have tprev : Tiles 0 (s.prev.toList ++ before).reverse base := by
            cases hpv : s.prev with
            | none =>
              rw [hpv] at hp
              have hp' : b.base = base := hp
              rw [← hp', hkb]; exact hk1
            | some p =>
              rw [hpv] at hp
              obtain ⟨hp1, hp2⟩ := hp
              subst hp1
              simp only [Option.toList_some, List.cons_append, List.nil_append, List.reverse_cons]
              refine tiles_append.2 ⟨k, hk1, hkb, ?_, ?_⟩
              · show 0 < base - b.base; omega
              · show k + (base - b.base) = base; omega
          have cprev : Coalesced (s.prev.toList ++ before).reverse := by
            cases hpv : s.prev with
            | none => exact hc1
            | some p =>
              rw [hpv] at hp
              simp only [Option.toList_some, List.cons_append, List.nil_append, List.reverse_cons]
              rw [coalesced_append]
              refine ⟨hc1, trivial, ?_⟩
              intro x y hx hy
              simp only [List.head?_cons, Option.some.injEq] at hy
              subst hy
              rw [hp.1]
              exact hc3 x b hx rfl
          have tall : Tiles 0 ((s.prev.toList ++ before).reverse ++ m :: rest) e := tiles_append.2 ⟨base, tprev, hm3⟩
          obtain ⟨r1, r2, r3, r4⟩ := mergePrev_spec he tall cprev hm4
          have hm' : mergeNext { s.mb with st := st } (s.next.toList ++ after) = m :: rest := by rw [hmb]; exact hm
          simp only [hm]
          refine ⟨st, rfl, ⟨h0, h1, h2⟩, ⟨r1, r2⟩, ?_, ?_, ?_⟩
          · intro a
            rw [r3, cellAt_append, hm5]
            show _ = if base ≤ a ∧ a < base + len then some st else cellAt (before.reverse ++ b :: after) a
            rw [cellAt_append]
            simp only [cellAt]
            by_cases ca : base ≤ a ∧ a < base + len
            · rw [if_pos ca, if_pos ca, cellAt_none tprev (Or.inr ca.1)]
            · rw [if_neg ca, if_neg ca]
              by_cases cb : a < base
              · rw [cellAt_none tnext (Or.inl (by omega))]
                cases hpv : s.prev with
                | none =>
                  rw [hpv] at hp
                  have hp' : b.base = base := hp
                  simp only [Option.toList_none, List.nil_append]
                  rw [if_neg (by omega), cellAt_none hk2.2.2 (Or.inl (by omega))]
                | some p =>
                  rw [hpv] at hp
                  obtain ⟨hp1, hp2⟩ := hp
                  subst hp1
                  simp only [Option.toList_some, List.cons_append, List.nil_append, List.reverse_cons]
                  rw [cellAt_append]
                  cases cellAt before.reverse a with
                  | some x => rfl
                  | none =>
                    simp only [cellAt]
                    by_cases cc : b.base ≤ a
                    · rw [if_pos (by omega), if_pos (by omega)]
                    · rw [if_neg (by omega), if_neg (by omega), cellAt_none hk2.2.2 (Or.inl (by omega))]
              · rw [cellAt_none tprev (Or.inr (by omega)), cellAt_none hk1 (Or.inr (by omega))]
                simp only []
                cases hnx : s.next with
                | none =>
                  rw [hnx] at hn
                  have hn' : base + len = b.base + b.len := hn
                  simp only [Option.toList_none, List.nil_append]
                  rw [if_neg (by omega)]
                | some n =>
                  rw [hnx] at hn
                  obtain ⟨hn1, hn2⟩ := hn
                  subst hn1
                  simp only [Option.toList_some, List.cons_append, List.nil_append, cellAt]
                  by_cases cc : a < b.base + b.len
                  · rw [if_pos (by omega), if_pos (by omega)]
                  · rw [if_neg (by omega), if_neg (by omega)]
          · intro hsz
            simp only [Zip.size, Split.added] at hcap hsz
            simp only [List.length_append] at r4 hm6
            omega
          · have : s.prev.toList.length + s.next.toList.length ≤ 2 := by
              cases s.prev <;> cases s.next <;> simp
            simp only [Zip.size]
            simp only [List.length_append] at r4 hm6
            omega

end Verif.Gcd
