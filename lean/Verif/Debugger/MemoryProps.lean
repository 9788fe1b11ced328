import Verif.Debugger.Memory
/-!
What the debugger reads and writes.
-/
namespace Verif.Debugger

theorem pageOf_mod (a : Nat) : pageOf a % 4096 = 0 := Nat.mul_mod_left _ _

theorem pageOf_le (a : Nat) : pageOf a ≤ a := Nat.div_mul_le_self a 4096

theorem lt_pageOf (a : Nat) : a < pageOf a + 4096 := by
  unfold pageOf
  omega

theorem pageOf_eq {a p : Nat} (h : p % 4096 = 0) (h1 : p ≤ a) (h2 : a < p + 4096) : pageOf a = p := by
  unfold pageOf
  omega

/-- The loop. -/
theorem checkFrom_spec {w : World} {start length last : Nat} (hl : 0 < length) (hlast : last + 1 = start + length) (hW : start + length ≤ W) :
    ∀ (n page : Nat), W - page ≤ n → page % 4096 = 0 → pageOf start ≤ page → page < W → (∀ x, start ≤ x → x < page → valid w (pageOf x) = true) →
      (∃ k, checkFrom w start length last page = .ok k ∧ 0 < k ∧ k ≤ length ∧ (∀ x, start ≤ x → x < start + k → valid w (pageOf x) = true) ∧
        (k = length ∨ valid w (pageOf (start + k)) = false)) ∨
      (checkFrom w start length last page = .err () ∧ valid w (pageOf start) = false) := by
  intro n
  induction n with
  | zero => intro page hn _ _ hp _; omega
  | succ n ih =>
    intro page hn hm hs hp hv
    unfold checkFrom
    by_cases h1 : page ≤ last
    · rw [if_pos h1]
      by_cases h2 : valid w page = true
      · rw [if_pos h2]
        have hv' : ∀ x, start ≤ x → x < page + 4096 → valid w (pageOf x) = true := by
          intro x hx hx2
          by_cases hxp : x < page
          · exact hv x hx hxp
          · rw [pageOf_eq hm (by omega) hx2]
            exact h2
        by_cases h3 : page + 4096 < W
        · rw [if_pos h3]
          exact ih (page + 4096) (by omega) (by omega) (by omega) h3 hv'
        · rw [if_neg h3]
          exact .inl ⟨length, rfl, hl, Nat.le_refl _, fun x hx hx2 => hv' x hx (by omega), .inl rfl⟩
      · rw [if_neg h2]
        have h2' : valid w page = false := by simpa using h2
        by_cases h4 : start < page
        · rw [if_pos h4]
          refine .inl ⟨page - start, rfl, by omega, by omega, fun x hx hx2 => hv x hx (by omega), .inr ?_⟩
          rw [show start + (page - start) = page by omega, pageOf_eq hm (Nat.le_refl _) (by omega)]
          exact h2'
        · rw [if_neg h4]
          have := pageOf_mod start
          have : pageOf start = page := pageOf_eq hm (by omega) (by have := lt_pageOf start; omega)
          exact .inr ⟨rfl, by rw [this]; exact h2'⟩
    · rw [if_neg h1]
      exact .inl ⟨length, rfl, hl, Nat.le_refl _, fun x hx hx2 => hv x hx (by omega), .inl rfl⟩

/-- The number of bytes is that of the longest start of the range that is in mapped, readable pages; an error if there is none. -/
theorem checkPagingRange_spec {dbg : Bool} {w : World} {start length : Nat} (hl : 0 < length) (hW : start + length ≤ W) :
    (∃ k, checkPagingRange dbg w start length = .ok k ∧ 0 < k ∧ k ≤ length ∧ (∀ x, start ≤ x → x < start + k → valid w (pageOf x) = true) ∧
      (k = length ∨ valid w (pageOf (start + k)) = false)) ∨
    (checkPagingRange dbg w start length = .err () ∧ valid w (pageOf start) = false) := by
  unfold checkPagingRange pred add
  rw [if_neg (by omega)]
  simp only
  rw [if_pos (by omega)]
  exact checkFrom_spec hl (by omega) hW _ _ (Nat.le_refl _) (pageOf_mod _) (Nat.le_refl _) (by have := pageOf_le start; omega)
    (fun x h1 h2 => by have := pageOf_le start; have := pageOf_mod start; rw [pageOf_eq (pageOf_mod start) (by omega) (by omega)]; omega)

theorem poke_iff {w : World} {a : Nat} (h : a + 8 ≤ W) : poke w a = true ↔ ∀ i, i < 8 → readable w (a + i) = true := by
  unfold poke
  simp only [List.all_eq_true, List.mem_range]
  constructor <;> intro hh i hi <;> have := hh i hi
  · rwa [Nat.mod_eq_of_lt (by omega)] at this
  · rwa [Nat.mod_eq_of_lt (by omega)]

/-- Memory is there behind every page that can be read. -/
def Honest (w : World) : Prop := ∀ x, valid w (pageOf x) = true → w.there x = true

theorem bytes_length (w : World) (a n : Nat) : (bytes w a n).length = n := by simp [bytes]

theorem bytes_get (w : World) (a n i : Nat) (h : i < n) : (bytes w a n)[i]? = some (w.mem (a + i)) := by simp [bytes, h]

/-- C96: reading gives the bytes of memory, as many as can be read before the first that cannot, but at most as many as asked for. It is refused if the eight
bytes from the address on cannot all be read. (Where pages are mapped without memory behind them: see `read_hole_crashes`; the last bytes before a
page that cannot be read: see `last_bytes_refused`.) -/
theorem read_right_partial {dbg : Bool} {w : World} {a length : Nat} (hl : 0 < length) (hW : a + length ≤ W) (h8 : a + 8 ≤ W) (hh : Honest w) :
    (∃ l, readMemory dbg w a length false = .ok l ∧ 0 < l.length ∧ l.length ≤ length ∧ (∀ i, i < l.length → l[i]? = some (w.mem (a + i))) ∧
      (l.length = length ∨ readable w (a + l.length) = false)) ∨
    (readMemory dbg w a length false = .err () ∧ ∃ i, i < 8 ∧ readable w (a + i) = false) := by
  unfold readMemory checkRangeAccess
  rw [if_neg (by simp)]
  have hp := poke_iff (w := w) h8
  rcases checkPagingRange_spec (dbg := dbg) (w := w) hl hW with ⟨k, e, k0, k1, kv, ke⟩ | ⟨e, hv⟩
  · rw [e]
    by_cases hpk : poke w a = true
    · simp only [hpk, if_true]
      rw [if_neg (by omega), if_neg (by omega)]
      have hr : ∀ i, i < k → readable w (a + i) = true := by
        intro i hi
        have := kv (a + i) (by omega) (by omega)
        unfold readable
        rw [this, hh _ this]
        rfl
      rw [if_pos (by simpa using hr)]
      refine .inl ⟨_, rfl, by rw [bytes_length]; exact k0, by rw [bytes_length]; exact k1, ?_, ?_⟩
      · intro i hi
        rw [bytes_length] at hi
        exact bytes_get _ _ _ _ hi
      · rw [bytes_length]
        rcases ke with rfl | ke
        · exact .inl rfl
        · refine .inr ?_
          unfold readable
          rw [ke]
          rfl
    · refine .inr ⟨by simp [hpk], ?_⟩
      refine Decidable.byContradiction fun hn => hpk (hp.2 fun i hi => ?_)
      cases hr : readable w (a + i) with
      | true => rfl
      | false => exact absurd ⟨i, hi, hr⟩ hn
  · rw [e]
    refine .inr ⟨rfl, 0, by omega, ?_⟩
    unfold readable
    rw [Nat.add_zero, hv]
    rfl

/-- The code does not meet the full property: the last seven bytes before a page that cannot be read are refused. -/
theorem last_bytes_refused {dbg : Bool} {w : World} {a length : Nat} (hl : 0 < length) (hW : a + length ≤ W) (h8 : a + 8 ≤ W) {i : Nat} (hi : i < 8)
    (hr : readable w (a + i) = false) : readMemory dbg w a length false = .err () := by
  have hp := poke_iff (w := w) h8
  have : poke w a = false := by
    cases h : poke w a with
    | false => rfl
    | true => have := hp.1 h i hi; rw [hr] at this; exact absurd this (by simp)
  unfold readMemory checkRangeAccess
  rw [if_neg (by simp)]
  rcases checkPagingRange_spec (dbg := dbg) (w := w) hl hW with ⟨k, e, _⟩ | ⟨e, _⟩ <;> rw [e] <;> simp [this]

/-- A page that is mapped without memory behind it, after the first eight bytes: the exception is raised inside the debugger, which never continues. -/
theorem read_hole_crashes {dbg : Bool} {w : World} {a length i : Nat} (hW : a + length ≤ W) (h8 : a + 8 ≤ W) (hp : ∀ j, j < 8 → readable w (a + j) = true)
    (hv : ∀ j, j < length → valid w (pageOf (a + j)) = true) (hi : i < length) (ht : w.there (a + i) = false) :
    readMemory dbg w a length false = .panic := by
  unfold readMemory checkRangeAccess
  rw [if_neg (by simp)]
  rcases checkPagingRange_spec (dbg := dbg) (w := w) (start := a) (length := length) (by omega) hW with ⟨k, e, k0, k1, kv, ke⟩ | ⟨e, hv'⟩
  · have hk : k = length := by
      rcases ke with ke | ke
      · exact ke
      · refine Decidable.byContradiction fun hn => ?_
        have := hv k (by omega)
        rw [ke] at this
        exact absurd this (by simp)
    subst hk
    rw [e]
    simp only [(poke_iff h8).2 hp, if_true]
    rw [if_neg (by omega), if_neg (by omega), if_neg]
    simp only [List.all_eq_true, List.mem_range]
    intro hall
    have := hall i hi
    unfold readable at this
    rw [ht] at this
    simp at this
  · have := hv 0 (by omega)
    rw [Nat.add_zero, hv'] at this
    exact absurd this (by simp)

/-! ### Writes -/

theorem allowed_iff {w : World} {a : Nat} {l : List UInt8} :
    ((List.range l.length).all fun i => writable w (a + i)) = true ↔ ∀ i, i < l.length → writable w (a + i) = true := by
  simp only [List.all_eq_true, List.mem_range]

/-- Restoring the attributes gives the tables back. -/
theorem remap_page (w : World) (p : Nat) (x y : Attrs) (h : w.page p = some y) :
    (fun q => if q = p then some y else (fun q => if q = p then some x else w.page q) q) = w.page := by
  funext q
  by_cases hq : q = p
  · rw [if_pos hq, hq, h]
  · rw [if_neg hq]
    show (if q = p then _ else _) = _
    rw [if_neg hq]

/-- What a write needs. -/
structure MayWrite (w : World) (a : Nat) : Prop where
  page : valid w (pageOf a) = true
  there : ∀ i, i < 8 → readable w (a + i) = true
  small : ∀ at', w.page (pageOf a) = some at' → at'.readOnly = true → w.large (pageOf a) = false

theorem writePage_one {w : World} {a : Nat} {l : List UInt8} (hv : valid w (pageOf a) = true) (hh : Honest w) (hfit : a + l.length ≤ pageOf a + 4096)
    (hs : ∀ at', w.page (pageOf a) = some at' → at'.readOnly = true → w.large (pageOf a) = false) :
    writePage w a (pageOf a) l = (.ok (), store w a l) := by
  have hin : ∀ i, i < l.length → pageOf (a + i) = pageOf a := fun i hi =>
    pageOf_eq (pageOf_mod a) (by have := pageOf_le a; omega) (by omega)
  cases hp : w.page (pageOf a) with
  | none =>
    unfold valid at hv
    rw [hp] at hv
    exact absurd hv (by simp)
  | some y =>
    have hrp : y.readProtect = false := by
      unfold valid at hv
      rw [hp] at hv
      simpa using hv
    have ht : ∀ i, i < l.length → w.there (a + i) = true := fun i hi => hh _ (by rw [hin i hi]; exact hv)
    unfold writePage
    rw [hp]
    simp only
    by_cases hro : y.readOnly = true
    · rw [if_pos hro]
      have hl := hs y hp hro
      unfold mapPage copy
      simp only [hl, Bool.false_eq_true, if_false]
      rw [if_pos]
      · simp only [store, Prod.mk.injEq, true_and, hl, Bool.false_eq_true, if_false]
        exact congrArg (fun f => ({ w with mem := _, page := f } : World)) (remap_page w (pageOf a) { y with readOnly := false } y hp)
      · rw [allowed_iff]
        intro i hi
        unfold writable
        simp only [hin i hi, if_true, hrp, ht i hi]
        rfl
    · rw [if_neg hro]
      unfold copy
      rw [if_pos]
      rw [allowed_iff]
      intro i hi
      unfold writable
      simp only [hin i hi, hp, hrp, ht i hi]
      simpa using hro

/-- C96: a write inside a page changes exactly the bytes it is given and leaves the page tables as they were, also when the page is read-only. (Writes that
reach into another page: see `second_page_lost`.) -/
theorem write_right_partial {dbg : Bool} {w : World} {a : Nat} {l : List UInt8} (hl : l ≠ []) (hW : a + l.length ≤ W - 4096) (hh : Honest w)
    (hfit : a % 4096 + l.length ≤ 4096) (hm : MayWrite w a) :
    ∃ w', writeMemory dbg w a l = (.ok (), w') ∧ w'.page = w.page ∧ w'.large = w.large ∧
      ∀ x, w'.mem x = if a ≤ x ∧ x < a + l.length then l.getD (x - a) 0 else w.mem x := by
  have hlen : 0 < l.length := by
    cases l with
    | nil => exact absurd rfl hl
    | cons => simp
  have hpg : a + l.length ≤ pageOf a + 4096 := by unfold pageOf; omega
  have hW' : W = 18446744073709551616 := rfl
  refine ⟨store w a l, ?_, rfl, rfl, fun x => rfl⟩
  unfold writeMemory add checkRangeAccess
  rw [if_pos (by omega)]
  simp only
  rcases checkPagingRange_spec (dbg := dbg) (w := w) hlen (show a + l.length ≤ W by omega) with ⟨k, e, k0, k1, kv, ke⟩ | ⟨e, hv⟩
  · have hk : k = l.length := by
      rcases ke with ke | ke
      · exact ke
      · refine Decidable.byContradiction fun hn => ?_
        rw [pageOf_eq (pageOf_mod a) (by have := pageOf_le a; omega) (by omega), hm.page] at ke
        exact absurd ke (by simp)
    rw [e, hk]
    simp only [(poke_iff (by omega)).2 hm.there, if_true, ne_eq, not_true_eq_false, if_false]
    rw [if_neg (by omega), if_neg (by omega)]
    unfold writeFrom
    rw [dif_pos (by omega)]
    simp only [Nat.sub_self, List.drop_zero]
    rw [show min (pageOf a + 4096) (a + l.length) = a + l.length by omega, show a + l.length - a = l.length by omega, List.take_length,
      writePage_one hm.page hh hpg hm.small]
    simp only
    unfold writeFrom
    rw [dif_neg (by omega)]
  · rw [hm.page] at hv
    exact absurd hv (by simp)

/-- C96: a refused write changes nothing. -/
theorem write_refused {dbg : Bool} {w : World} {a : Nat} {l : List UInt8} {w' : World} (h : writeMemory dbg w a l = (.err (), w')) : w' = w := by
  have hpage : ∀ (w : World) p c, (writePage w a p c).1 ≠ .err () := by
    intro w p c
    unfold writePage copy mapPage
    cases w.page p with
    | none => simp
    | some y =>
      simp only
      repeat' split
      all_goals first
        | (intro hc; cases hc; done)
        | skip
      all_goals simp_all
      all_goals (try split at *) <;> simp_all
  have hfrom : ∀ (n : Nat) (w : World) (c : Nat), a + l.length - c ≤ n → (writeFrom w a l c).1 ≠ .err () := by
    intro n
    induction n with
    | zero =>
      intro w c hc
      unfold writeFrom
      rw [dif_neg (by omega)]
      simp
    | succ n ih =>
      intro w c hc
      unfold writeFrom
      by_cases hlt : c < a + l.length
      · rw [dif_pos hlt]
        simp only
        have := hpage w (pageOf c) ((l.drop (c - a)).take (min (pageOf c + 4096) (a + l.length) - c))
        revert this
        cases writePage w a (pageOf c) ((l.drop (c - a)).take (min (pageOf c + 4096) (a + l.length) - c)) with
        | mk r w2 =>
          intro this
          cases r with
          | ok _ => exact ih w2 _ (by have := lt_pageOf c; omega)
          | err _ => exact absurd rfl this
          | panic => simp
      · rw [dif_neg hlt]
        simp
  unfold writeMemory at h
  split at h
  · simp at h
  · split at h
    · split at h
      · simp only [Prod.mk.injEq, true_and] at h
        exact h.symm
      · split at h
        · simp at h
        · split at h
          · simp at h
          · exact absurd (by rw [h]) (hfrom _ w a (Nat.le_refl _))
    · simp only [Prod.mk.injEq] at h
      exact h.2.symm
    · simp at h

/-- The code does not meet the full property: of a write that reaches into a second page, the part for the second page is written over the start of the
range again, and the write reports success. -/
theorem second_page_lost {dbg : Bool} {w : World} {a n : Nat} {l : List UInt8} (hn : a + n = pageOf a + 4096) (hlo : n < l.length) (hhi : l.length ≤ n + 4096)
    (hW : a + l.length ≤ W - 4096) (hp : ∀ i, i < l.length → writable w (a + i) = true) (h8 : ∀ i, i < 8 → readable w (a + i) = true) :
    ∃ w', writeMemory dbg w a l = (.ok (), w') ∧ w'.page = w.page ∧
      ∀ x, w'.mem x = if a ≤ x ∧ x < a + (l.length - n) then l.getD (n + (x - a)) 0 else if a ≤ x ∧ x < a + n then l.getD (x - a) 0 else w.mem x := by
  have hW' : W = 18446744073709551616 := rfl
  have hlt := lt_pageOf a
  have hle := pageOf_le a
  have hmod := pageOf_mod a
  have hpg : ∀ i, i < l.length → ∃ y, w.page (pageOf (a + i)) = some y ∧ y.readOnly = false ∧ y.readProtect = false := by
    intro i hi
    have := hp i hi
    unfold writable at this
    cases h : w.page (pageOf (a + i)) with
    | none => rw [h] at this; exact absurd this (by simp)
    | some y =>
      rw [h] at this
      simp only [Bool.and_eq_true, Bool.not_eq_true'] at this
      exact ⟨y, rfl, this.1.2, this.1.1⟩
  have hval : ∀ i, i < l.length → valid w (pageOf (a + i)) = true := by
    intro i hi
    obtain ⟨y, e, _, h⟩ := hpg i hi
    unfold valid
    rw [e]
    simp [h]
  have hcopy : ∀ (v : World) (i : Nat) (c : List UInt8), v.page = w.page → v.there = w.there → i < l.length → c.length ≤ l.length →
      writePage v a (pageOf (a + i)) c = (.ok (), store v a c) := by
    intro v i c hvp hvt hi hc
    obtain ⟨y, e, hro, _⟩ := hpg i hi
    unfold writePage
    rw [hvp, e]
    simp only [hro, Bool.false_eq_true, if_false]
    unfold copy
    rw [if_pos]
    rw [allowed_iff]
    intro j hj
    have := hp j (by omega)
    unfold writable at this ⊢
    rw [hvp, hvt]
    exact this
  refine ⟨store (store w a (l.take n)) a (l.drop n), ?_, rfl, ?_⟩
  · unfold writeMemory add checkRangeAccess
    rw [if_pos (by omega)]
    simp only
    rcases checkPagingRange_spec (dbg := dbg) (w := w) (show 0 < l.length by omega) (show a + l.length ≤ W by omega) with ⟨k, e, k0, k1, kv, ke⟩ | ⟨e, hv⟩
    · have hk : k = l.length := by
        rcases ke with ke | ke
        · exact ke
        · refine Decidable.byContradiction fun hne => ?_
          rw [hval k (by omega)] at ke
          exact absurd ke (by simp)
      rw [e, hk]
      simp only [(poke_iff (by omega)).2 h8, if_true, ne_eq, not_true_eq_false, if_false]
      rw [if_neg (by omega), if_neg (by omega)]
      unfold writeFrom
      rw [dif_pos (by omega)]
      simp only [Nat.sub_self, List.drop_zero]
      have h1 := hcopy w 0 (l.take n) rfl rfl (by omega) (by simp; omega)
      rw [Nat.add_zero] at h1
      rw [show min (pageOf a + 4096) (a + l.length) = a + n by omega, show a + n - a = n by omega, h1]
      simp only
      have h2 := hcopy (store w a (l.take n)) n (l.drop n) rfl rfl hlo (by simp)
      have hpn : pageOf (a + n) = a + n := pageOf_eq (by omega) (Nat.le_refl _) (by omega)
      unfold writeFrom
      rw [dif_pos (by omega)]
      simp only
      rw [hpn] at h2 ⊢
      rw [show min (a + n + 4096) (a + l.length) = a + l.length by omega, show a + n - a = n by omega,
        show a + l.length - (a + n) = (l.drop n).length by simp; omega, List.take_length, h2]
      simp only
      unfold writeFrom
      rw [dif_neg (by omega)]
    · have := hval 0 (by omega)
      rw [Nat.add_zero, hv] at this
      exact absurd this (by simp)
  · intro x
    simp only [store, List.length_drop, List.length_take]
    by_cases h1 : a ≤ x ∧ x < a + (l.length - n)
    · rw [if_pos h1, if_pos h1, List.getD_eq_getElem?_getD, List.getD_eq_getElem?_getD, List.getElem?_drop]
    · rw [if_neg h1, if_neg h1]
      by_cases h2 : a ≤ x ∧ x < a + n
      · rw [if_pos h2, if_pos (by omega), List.getD_eq_getElem?_getD, List.getD_eq_getElem?_getD, List.getElem?_take_of_lt (by omega)]
      · rw [if_neg h2, if_neg (by omega)]

/-- A write to a read-only page that is part of a larger mapping ends the debugger: its allocator for page tables panics. -/
theorem large_page_crashes {dbg : Bool} {w : World} {a : Nat} {l : List UInt8} {y : Attrs} (hl : l ≠ []) (hW : a + l.length ≤ W - 4096)
    (hfit : a % 4096 + l.length ≤ 4096) (h8 : ∀ i, i < 8 → readable w (a + i) = true) (hy : w.page (pageOf a) = some y) (hro : y.readOnly = true)
    (hlarge : w.large (pageOf a) = true) : (writeMemory dbg w a l).1 = .panic := by
  have hlen : 0 < l.length := by
    cases l with
    | nil => exact absurd rfl hl
    | cons => simp
  have hW' : W = 18446744073709551616 := rfl
  have hlt := lt_pageOf a
  have hle := pageOf_le a
  have hv : valid w (pageOf a) = true := by
    have := h8 0 (by omega)
    unfold readable at this
    rw [Nat.add_zero] at this
    simp only [Bool.and_eq_true] at this
    exact this.1
  unfold writeMemory add checkRangeAccess
  rw [if_pos (by omega)]
  simp only
  rcases checkPagingRange_spec (dbg := dbg) (w := w) hlen (show a + l.length ≤ W by omega) with ⟨k, e, k0, k1, kv, ke⟩ | ⟨e, hv'⟩
  · have hk : k = l.length := by
      rcases ke with ke | ke
      · exact ke
      · refine Decidable.byContradiction fun hn => ?_
        rw [pageOf_eq (pageOf_mod a) (by omega) (by unfold pageOf; omega), hv] at ke
        exact absurd ke (by simp)
    rw [e, hk]
    simp only [(poke_iff (by omega)).2 h8, if_true, ne_eq, not_true_eq_false, if_false]
    rw [if_neg (by omega), if_neg (by omega)]
    unfold writeFrom
    rw [dif_pos (by omega)]
    simp only
    unfold writePage mapPage
    rw [hy]
    simp [hro, hlarge]
  · rw [hv] at hv'
    exact absurd hv' (by simp)

/-- A write that ends exactly at the end of the address space reports success in release builds and writes nothing. -/
theorem top_write_lost {w : World} {a : Nat} {l : List UInt8} (hl : l ≠ []) (hW : a + l.length = W) (h8 : a + 8 ≤ W)
    (hv : ∀ i, i < l.length → valid w (pageOf (a + i)) = true) (hr : ∀ i, i < 8 → readable w (a + i) = true) :
    writeMemory false w a l = (.ok (), w) := by
  have hlen : 0 < l.length := by
    cases l with
    | nil => exact absurd rfl hl
    | cons => simp
  unfold writeMemory add checkRangeAccess
  rw [if_neg (by omega)]
  simp only [Bool.false_eq_true, if_false]
  rcases checkPagingRange_spec (dbg := false) (w := w) hlen (show a + l.length ≤ W by omega) with ⟨k, e, k0, k1, kv, ke⟩ | ⟨e, hv'⟩
  · have hk : k = l.length := by
      rcases ke with ke | ke
      · exact ke
      · refine Decidable.byContradiction fun hn => ?_
        rw [hv k (by omega)] at ke
        exact absurd ke (by simp)
    rw [e, hk]
    simp only [(poke_iff h8).2 hr, if_true, ne_eq, not_true_eq_false, if_false]
    rw [if_pos (by rw [hW, Nat.mod_self]; omega)]
  · have := hv 0 (by omega)
    rw [Nat.add_zero, hv'] at this
    exact absurd this (by simp)

/-- A debug build panics when no byte is to be read; whether that is the case is the choice of the other side of the connection. -/
theorem empty_read_panics (w : World) (a : Nat) : readMemory true w a 0 false = .panic := rfl

/-! ### A world -/

/-- Two pages, the first read-only, and a third that is read protected. -/
def twoPages : World :=
  { mem := fun x => UInt8.ofNat x
    page := fun p => if p = 4096 then some ⟨false, true, 5⟩ else if p = 8192 then some ⟨false, false, 5⟩ else if p = 12288 then some ⟨true, false, 5⟩ else none
    large := fun _ => false
    there := fun _ => true }

theorem twoPages_honest : Honest twoPages := fun _ _ => rfl

/-- The hypotheses of `read_right_partial` are met; sixteen bytes are asked for, eight of them can be read. -/
example : readMemory true twoPages 12280 16 false = .ok [248, 249, 250, 251, 252, 253, 254, 255] := by decide +kernel

example : readMemory true twoPages 12281 1 false = .err () := last_bytes_refused (i := 7) (by omega) (by decide) (by decide) (by omega) (by decide +kernel)

/-- The hypotheses of `write_right_partial` are met in the read-only page. -/
example : ∃ w', writeMemory true twoPages 8188 [1, 2, 3, 4] = (.ok (), w') ∧ w'.page = twoPages.page ∧ w'.large = twoPages.large ∧
    ∀ x, w'.mem x = if 8188 ≤ x ∧ x < 8192 then [1, 2, 3, 4].getD (x - 8188) 0 else twoPages.mem x :=
  write_right_partial (by simp) (by decide) twoPages_honest (by decide)
    ⟨by decide +kernel, by decide +kernel, fun _ _ _ => rfl⟩

/-- The first page can be written as well. -/
def twoWritable : World := { twoPages with page := fun p => if p = 4096 ∨ p = 8192 then some ⟨false, false, 5⟩ else none }

/-- Four bytes written across the boundary: the last two end up in place of the first two, and the second page is as before. -/
example : ∃ w', writeMemory true twoWritable 8190 [1, 2, 3, 4] = (.ok (), w') ∧ w'.mem 8190 = 3 ∧ w'.mem 8191 = 4 ∧ w'.mem 8192 = 0 ∧ w'.mem 8193 = 1 := by
  obtain ⟨w', e, _, h⟩ := second_page_lost (dbg := true) (w := twoWritable) (a := 8190) (n := 2) (l := [1, 2, 3, 4]) (by decide) (by decide) (by decide) (by decide)
    (by decide +kernel) (by decide +kernel)
  exact ⟨w', e, by rw [h]; decide +kernel, by rw [h]; decide +kernel, by rw [h]; decide +kernel, by rw [h]; decide +kernel⟩

example : (writeMemory false { twoPages with large := fun _ => true } 8000 [1]).1 = .panic :=
  large_page_crashes (y := ⟨false, true, 5⟩) (by simp) (by decide) (by decide) (by decide +kernel) rfl rfl rfl

end Verif.Debugger
