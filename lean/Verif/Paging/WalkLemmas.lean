import Verif.Paging.WalkSpec
namespace Verif.Paging
open Verif.Gcd

variable {ns : Nat} {dbg : Bool} {f : Faults} {upd : Nat → Nat}

/-- `m` is `m0` with the attributes of `[base, upto)` changed, in the memory space and in the page table. -/
structure WPart (ns : Nat) (m0 m : Mem) (upd : Nat → Nat) (base upto : Nat) : Prop where
  later : Later ns m0.gcd m.gcd
  ne : m0.gcd.blocks ≠ []
  dflt : m.dflt = m0.dflt
  refusals : m.refusals = m0.refusals
  le : base ≤ upto
  aligned : upto = base ∨ (base % 4096 = 0 ∧ upto % 4096 = 0)
  face : ∀ a c, cellAt m0.gcd.blocks a = some c → ∃ c', cellAt m.gcd.blocks a = some c' ∧ c'.type = c.type ∧ c'.caps = c.caps ∧
    c'.attrs = (if base ≤ a ∧ a < upto then upd c.attrs else c.attrs) ∧ (c.allocated = true → c'.allocated = true ∧ c'.image = c.image)
  supported : ∀ a, base ≤ a → a < upto → ∃ c, cellAt m0.gcd.blocks a = some c ∧ c.type ≠ .nonExistent ∧ c.caps ||| upd c.attrs = c.caps
  noTable : m0.table = none → m.table = none
  table : ∀ t, m0.table = some t → ∃ t', m.table = some t' ∧
    (∀ p, ¬ (base / 4096 ≤ p ∧ p < upto / 4096) → t' p = t p) ∧
    ∀ a c, base ≤ a → a < upto → cellAt m0.gcd.blocks a = some c →
      t' (a / 4096) = if upd c.attrs &&& PT_MASK = 0 then t (a / 4096) else mappingFor (upd c.attrs)
  signals : m0.signals ≤ m.signals
  signalled : ∀ t t' p, m0.table = some t → m.table = some t' → Recached t t' p → m0.signals < m.signals

theorem WPart.refl {m : Mem} {base : Nat} (hr : Reachable ns m.gcd) (hne : m.gcd.blocks ≠ []) : WPart ns m m upd base base where
  later := .refl hr
  ne := hne
  dflt := rfl
  refusals := rfl
  le := Nat.le_refl _
  aligned := Or.inl rfl
  face := fun a c h => ⟨c, h, rfl, rfl, by rw [if_neg (by omega)], fun h => ⟨h, rfl⟩⟩
  supported := fun a h1 h2 => by omega
  noTable := id
  table := fun t h => ⟨t, h, fun _ _ => rfl, fun a c h1 h2 => by omega⟩
  signals := Nat.le_refl _
  signalled := fun t t' p h h' hc => by
    rw [h] at h'; injection h' with h'; subst h'
    exact absurd hc not_recached

theorem inPages_sub {x y p : Nat} (h : x ≤ y) : InPages x (y - x) p ↔ x / 4096 ≤ p ∧ p < y / 4096 := by
  unfold InPages; rw [show x + (y - x) = y by omega]

/-- One more piece. -/
theorem WPart.step {m0 m m1 : Mem} {base cur n : Nat} {c : Cell} (h0 : Reachable ns m0.gcd) (h1 : WPart ns m0 m upd base cur) (hu : Uniform m.gcd.blocks cur n c)
    (h2 : Part ns m m1 (upd c.attrs) cur (cur + n)) : WPart ns m0 m1 upd base (cur + n) := by
  have le1 := h1.le
  have hn := hu.1
  have same : ∀ a c0, cur ≤ a → a < cur + n → cellAt m0.gcd.blocks a = some c0 → c0.attrs = c.attrs := fun a c0 k1 k2 hc => by
    obtain ⟨c1, e1, _, _, s1, _⟩ := h1.face a c0 hc
    rw [if_neg (by omega), ] at s1
    have := hu.2 a k1 k2
    rw [this] at e1; injection e1 with e1
    rw [← s1, e1]
  have al := h1.aligned
  have al2 := h2.aligned
  have al3 : cur % 4096 = 0 ∧ (cur + n) % 4096 = 0 := by omega
  refine ⟨h1.later.trans h2.later, h1.ne, h2.dflt.trans h1.dflt, h2.refusals.trans h1.refusals, by omega, by omega, ?_, ?_,
    fun h => h2.noTable (h1.noTable h), ?_, Nat.le_trans h1.signals h2.signals, ?_⟩
  · intro a c0 hc
    obtain ⟨c1, e1, t1, k1, s1, l1⟩ := h1.face a c0 hc
    obtain ⟨c2, e2, t2, k2, s2, l2⟩ := h2.face a c1 e1
    refine ⟨c2, e2, t2.trans t1, k2.trans k1, ?_, fun ha => ?_⟩
    · rw [s2]
      by_cases d2 : cur ≤ a ∧ a < cur + n
      · rw [if_pos d2, if_pos (by omega), same a c0 d2.1 d2.2 hc]
      · rw [if_neg d2, s1]
        by_cases d1 : base ≤ a ∧ a < cur
        · rw [if_pos d1, if_pos (by omega)]
        · rw [if_neg d1, if_neg (by omega)]
    · have l3 := l1 ha
      have l4 := l2 l3.1
      exact ⟨l4.1, l4.2.trans l3.2⟩
  · intro a k1 k2
    by_cases d : a < cur
    · exact h1.supported a k1 d
    · obtain ⟨c1, e1, x1, x2⟩ := h2.supported a (by omega) k2
      obtain ⟨c0, e0⟩ := later_cell h0 h1.later h1.ne e1
      obtain ⟨c1', e1', t1, q1, s1, _⟩ := h1.face a c0 e0
      rw [e1] at e1'; injection e1' with e1'; subst e1'
      refine ⟨c0, e0, by rw [← t1]; exact x1, ?_⟩
      rw [same a c0 (by omega) k2 e0, ← q1]; exact x2
  · intro t ht
    obtain ⟨t1, e1, o1, i1⟩ := h1.table t ht
    obtain ⟨t2, e2, s2⟩ := h2.table t1 e1
    have outside : ∀ p, ¬ (cur / 4096 ≤ p ∧ p < (cur + n) / 4096) → t2 p = t1 p := fun p hp => by
      by_cases hz : upd c.attrs &&& PT_MASK = 0
      · rw [s2.1 hz]
      · rw [s2.2 hz p, if_neg]
        rw [inPages_sub (by omega)]; exact hp
    refine ⟨t2, e2, fun p hp => ?_, fun a c0 k1 k2 hc => ?_⟩
    · rw [outside p (by omega), o1 p (by omega)]
    · by_cases d : a < cur
      · rw [outside _ (by omega)]; exact i1 a c0 k1 d hc
      · have hs := same a c0 (by omega) k2 hc
        rw [hs]
        by_cases hz : upd c.attrs &&& PT_MASK = 0
        · rw [if_pos hz, s2.1 hz, o1 _ (by omega)]
        · rw [if_neg hz, s2.2 hz, if_pos]
          rw [inPages_sub (by omega)]; omega
  · intro t t2 p ht ht2 hre
    obtain ⟨t1, e1, _⟩ := h1.table t ht
    rcases recached_trans (t1 := t1) hre with h | h
    · exact Nat.lt_of_lt_of_le (h1.signalled t t1 p ht e1 h) h2.signals
    · exact Nat.lt_of_le_of_lt h1.signals (h2.signalled t1 t2 p e1 ht2 h)

/-- A piece that fails changes nothing. -/
theorem WPart.stay {m0 m m1 : Mem} {base cur attrs : Nat} (h1 : WPart ns m0 m upd base cur) (h2 : Part ns m m1 attrs cur cur) :
    WPart ns m0 m1 upd base cur := by
  refine ⟨h1.later.trans h2.later, h1.ne, h2.dflt.trans h1.dflt, h2.refusals.trans h1.refusals, h1.le, h1.aligned, ?_, h1.supported,
    fun h => h2.noTable (h1.noTable h), ?_, Nat.le_trans h1.signals h2.signals, ?_⟩
  · intro a c0 hc
    obtain ⟨c1, e1, t1, k1, s1, l1⟩ := h1.face a c0 hc
    obtain ⟨c2, e2, t2, k2, s2, l2⟩ := h2.face a c1 e1
    refine ⟨c2, e2, t2.trans t1, k2.trans k1, ?_, fun ha => ?_⟩
    · rw [s2, if_neg (by omega), s1]
    · have l3 := l1 ha
      have l4 := l2 l3.1
      exact ⟨l4.1, l4.2.trans l3.2⟩
  · intro t ht
    obtain ⟨t1, e1, o1, i1⟩ := h1.table t ht
    obtain ⟨t2, e2, s2⟩ := h2.table t1 e1
    have : t2 = t1 := by
      by_cases hz : attrs &&& PT_MASK = 0
      · exact s2.1 hz
      · funext p
        rw [s2.2 hz p, if_neg]
        rw [inPages_sub (Nat.le_refl _)]; omega
    rw [this] at e2
    exact ⟨t1, e2, o1, i1⟩
  · intro t t2 p ht ht2 hre
    obtain ⟨t1, e1, _⟩ := h1.table t ht
    rcases recached_trans (t1 := t1) hre with h | h
    · exact Nat.lt_of_lt_of_le (h1.signalled t t1 p ht e1 h) h2.signals
    · exact Nat.lt_of_le_of_lt h1.signals (h2.signalled t1 t2 p e1 ht2 h)

theorem sync_wpart {m0 m : Mem} {base upto : Nat} (hr : Reachable ns m0.gcd) (hs : Sync m0) (hp : WPart ns m0 m upd base upto)
    (ha : ∀ a c, base ≤ a → a < upto → cellAt m0.gcd.blocks a = some c → upd c.attrs &&& PT_MASK ≠ 0) : Sync m := by
  intro t' ht' a c' hc'
  cases ht0 : m0.table with
  | none => rw [hp.noTable ht0] at ht'; cases ht'
  | some t =>
    obtain ⟨t1, e1, o1, i1⟩ := hp.table t ht0
    rw [ht'] at e1; injection e1 with e1; subst e1
    obtain ⟨c, hc⟩ := later_cell hr hp.later hp.ne hc'
    obtain ⟨d, hd, f1, _, f3, _⟩ := hp.face a c hc
    rw [hc'] at hd; injection hd with hd; subst hd
    have hle := hp.le
    have al := hp.aligned
    by_cases hin : base ≤ a ∧ a < upto
    · rw [i1 a c hin.1 hin.2 hc, if_neg (ha a c hin.1 hin.2 hc)]
      rw [if_pos hin] at f3
      obtain ⟨x, hx, x1, _⟩ := hp.supported a hin.1 hin.2
      rw [hc] at hx; injection hx with hx; subst hx
      unfold mappingOf
      rw [f1, if_neg x1, f3]
    · rw [o1 _ (by omega)]
      rw [if_neg hin] at f3
      rw [mappingOf_congr f1 f3]
      exact hs t ht0 a c hc

/-- What the loop gets back for one piece. -/
def pieceResult : Outcome EfiError Unit × Mem → Outcome EfiError Unit × Mem
  | (.err .notReady, m) => (.ok (), m)
  | x => x

theorem setPiece_max {m m1 : Mem} {r : Outcome EfiError Unit} {old base len attrs : Nat} (hm : MemOk ns m) (hb : base < W) (hl : len < W) (ha : attrs < W)
    (ho : old < W) (h : m.setPiece dbg f old base len attrs = (r, m1)) (hp : r ≠ .panic) : m1.gcd.max ≠ 0 := by
  have := (setPiece_onward hm.reach hm.table hb hl ha ho h hp).later
  have hp := (reachable_inv this.reach).inv.pos
  omega

theorem core_piece {m : Mem} {cur n attrs : Nat} {c : Cell} (hm : MemOk ns m) (hu : Uniform m.gcd.blocks cur n c) (ha : attrs < W) :
    m.coreSetAttributes dbg f (n + 1) cur n attrs = some (pieceResult (m.setPiece dbg f c.attrs cur n attrs)) := by
  have hn := hu.1
  have hb := uniform_ltW hm.reach hu
  have hcw : c.attrs < W := reachable_wide hm.reach _ _ (hu.2 cur (Nat.le_refl _) (by omega))
  have hbnd := uniform_bounds (good_of hm.reach hm.some).tiles hu
  unfold Mem.coreSetAttributes
  rw [setAttributes_eq (hm.lt hbnd), setLoop_single hm.reach hu (by omega)]
  rcases hx : m.setPiece dbg f c.attrs cur n attrs with ⟨r1, m1⟩
  cases r1 with
  | ok u => rfl
  | panic => rfl
  | err e =>
    have hmx := setPiece_max hm hb.1 hb.2 ha hcw hx (by simp)
    cases e <;> first | rfl | (dsimp only; rw [if_pos hmx]; rfl)

theorem setPiece_refusals {m m' : Mem} {r : Outcome EfiError Unit} {base len attrs old : Nat} (hm : MemOk ns m) (hb : base < W) (hl : len < W) (ha : attrs < W)
    (ho : old < W) (h : m.setPiece dbg f old base len attrs = (r, m')) (hp : r ≠ .panic) : m.refusals ≤ m'.refusals :=
  (setPiece_onward hm.reach hm.table hb hl ha ho h hp).refusals

theorem wpart_ok {m0 m : Mem} {base upto : Nat} (h0 : MemOk ns m0) (h : WPart ns m0 m upd base upto) (ht : TableOk m) : MemOk ns m :=
  ⟨h.later.reach, h.later.some h.ne, ht, by rw [h.dflt]; exact h0.dflt⟩

/-- No part is taken back: the loop only adds refusals. -/
theorem walk_refusals {stop : Nat} (hupd : ∀ a, a < W → upd a < W) {n : Nat} : ∀ {m m' : Mem} {cur : Nat} {r : Outcome WalkError Unit}, MemOk ns m →
    stop ≤ m.gcd.max → m.walk dbg f upd stop n cur = some (r, m') → r ≠ .panic → m.refusals ≤ m'.refusals := by
  induction n with
  | zero => intro m m' cur r _ _ h; cases h
  | succ n ih =>
    intro m m' cur r hm hmax h hp
    unfold Mem.walk at h
    by_cases hc : cur < stop
    · rw [if_pos hc] at h
      obtain ⟨d, k, e, e1, e2, hk, hcur, hle, hw, hu⟩ := piece hm.reach hm.some hc hmax
      rw [e] at h
      dsimp only at h
      rw [e1, e2, if_neg (by omega), core_piece hm hu (hupd _ hw)] at h
      rcases hx : m.setPiece dbg f d.st.attrs cur k (upd d.st.attrs) with ⟨r1, m1⟩
      rw [hx] at h
      have cont : r1 ≠ .panic → m1.walk dbg f upd stop n (cur + k) = some (r, m') → m.refusals ≤ m'.refusals := fun q hl => by
        have o := setPiece_onward hm.reach hm.table hcur hk (hupd _ hw) hw hx q
        exact Nat.le_trans o.refusals (ih ⟨o.later.reach, o.later.some hm.some, o.table, by rw [o.dflt]; exact hm.dflt⟩ (by rw [o.later.max]; exact hmax) hl hp)
      cases r1 with
      | ok u => exact cont (by simp) h
      | panic => injection h with h; injection h with h _; exact absurd h.symm hp
      | err er =>
        by_cases hnr : er = .notReady
        · subst hnr; exact cont (by simp) h
        · have hh : some (Outcome.err WalkError.set, m1) = some (r, m') := by
            cases er <;> first | exact h | exact absurd rfl hnr
          injection hh with hh; injection hh with _ hh; subst hh
          exact setPiece_refusals hm hcur hk (hupd _ hw) hw hx (by simp)
    · rw [if_neg hc] at h
      injection h with h; injection h with _ h; rw [h]
      exact Nat.le_refl _

/-- What the loop does if no part is refused. -/
theorem walk_spec {stop base : Nat} (hupd : ∀ a, a < W → upd a < W) {m0 : Mem} (h0 : MemOk ns m0)
    (hmax0 : stop ≤ m0.gcd.max) {n : Nat} : ∀ {m m' : Mem} {cur : Nat} {r : Outcome WalkError Unit}, WPart ns m0 m upd base cur →
    TableOk m → cur ≤ stop → m.walk dbg f upd stop n cur = some (r, m') → r ≠ .panic → m'.refusals = m0.refusals →
    TableOk m' ∧ ((r = .ok () ∧ WPart ns m0 m' upd base stop) ∨ (r = .err .set ∧ ∃ upto, upto ≤ stop ∧ WPart ns m0 m' upd base upto)) := by
  induction n with
  | zero => intro m m' cur r _ _ _ h; cases h
  | succ n ih =>
    intro m m' cur r hpart hto hcs h hp href
    have hm := wpart_ok h0 hpart hto
    have hmax : stop ≤ m.gcd.max := by rw [hpart.later.max]; exact hmax0
    unfold Mem.walk at h
    by_cases hc : cur < stop
    · rw [if_pos hc] at h
      obtain ⟨d, k, e, e1, e2, hk, hcur, hle, hw, hu⟩ := piece hm.reach hm.some hc hmax
      rw [e] at h
      dsimp only at h
      rw [e1, e2, if_neg (by omega), core_piece hm hu (hupd _ hw)] at h
      rcases hx : m.setPiece dbg f d.st.attrs cur k (upd d.st.attrs) with ⟨r1, m1⟩
      rw [hx] at h
      have cont : (r1 = .ok () ∨ r1 = .err .notReady) → m1.walk dbg f upd stop n (cur + k) = some (r, m') →
          TableOk m' ∧ ((r = .ok () ∧ WPart ns m0 m' upd base stop) ∨ (r = .err .set ∧ ∃ upto, upto ≤ stop ∧ WPart ns m0 m' upd base upto)) := fun q hl => by
        have q' : r1 ≠ .panic := by rcases q with q | q <;> rw [q] <;> simp
        have o := setPiece_onward hm.reach hm.table hcur hk (hupd _ hw) hw hx q'
        have hm1 : MemOk ns m1 := ⟨o.later.reach, o.later.some hm.some, o.table, by rw [o.dflt]; exact hm.dflt⟩
        have mono := walk_refusals hupd hm1 (by rw [o.later.max]; exact hmax) hl hp
        have hr1 : m1.refusals = m.refusals := by
          have := hpart.refusals; have := o.refusals; omega
        rcases setPiece_spec hm.reach hm.table hcur hk (hupd _ hw) hw hu hx q' hr1 with ⟨_, hp1⟩ | ⟨e', ne', he', _⟩
        · exact ih (hpart.step h0.reach hu hp1) o.table hle hl hp href
        · exfalso
          rcases q with q | q <;> rw [q] at he'
          · cases he'
          · injection he' with he'; exact ne' he'.symm
      cases r1 with
      | ok u => exact cont (Or.inl rfl) h
      | panic => injection h with h; injection h with h _; exact absurd h.symm hp
      | err er =>
        by_cases hnr : er = .notReady
        · subst hnr; exact cont (Or.inr rfl) h
        · have hh : some (Outcome.err WalkError.set, m1) = some (r, m') := by
            cases er <;> first | exact h | exact absurd rfl hnr
          injection hh with hh; injection hh with hr' hh; subst hh
          have o := setPiece_onward hm.reach hm.table hcur hk (hupd _ hw) hw hx (by simp)
          have hr1 : m1.refusals = m.refusals := by
            have := hpart.refusals; omega
          refine ⟨o.table, Or.inr ⟨hr'.symm, ?_⟩⟩
          rcases setPiece_spec hm.reach hm.table hcur hk (hupd _ hw) hw hu hx (by simp) hr1 with ⟨hh, _⟩ | ⟨e', ne', he', hp1⟩
          · exfalso
            rcases hh with hh | ⟨hh, _⟩
            · cases hh
            · injection hh with hh; exact hnr hh
          · exact ⟨cur, hcs, hpart.stay hp1⟩
    · rw [if_neg hc] at h
      injection h with h; injection h with h1 h; subst h; subst h1
      exact ⟨hto, Or.inl ⟨rfl, by rw [show stop = cur by omega]; exact hpart⟩⟩

end Verif.Paging
