import Verif.Paging.WalkLemmas
namespace Verif.Paging
open Verif.Gcd

variable {ns : Nat} {dbg : Bool} {f : Faults} {upd : Nat → Nat}

/-- The loop ends. -/
theorem walk_returns {stop : Nat} (hupd : ∀ a, a < W → upd a < W) {n : Nat} : ∀ {m : Mem} {cur : Nat}, MemOk ns m →
    stop ≤ m.gcd.max → stop < cur + n → 0 < n → m.walk dbg f upd stop n cur ≠ none := by
  induction n with
  | zero => intro m cur _ _ _ h; omega
  | succ n ih =>
    intro m cur hm hmax hn _ h
    unfold Mem.walk at h
    by_cases hc : cur < stop
    · rw [if_pos hc] at h
      obtain ⟨d, k, e, e1, e2, hk, hcur, hle, hw, hu⟩ := piece hm.reach hm.some hc hmax
      have hk0 := hu.1
      rw [e] at h
      dsimp only at h
      rw [e1, e2, if_neg (by omega), core_piece hm hu (hupd _ hw)] at h
      rcases hx : m.setPiece dbg f d.st.attrs cur k (upd d.st.attrs) with ⟨r1, m1⟩
      rw [hx] at h
      have cont : r1 ≠ .panic → m1.walk dbg f upd stop n (cur + k) ≠ none := fun q => by
        have o := setPiece_onward hm.reach hm.table hcur hk (hupd _ hw) hw hx q
        exact ih ⟨o.later.reach, o.later.some hm.some, o.table, by rw [o.dflt]; exact hm.dflt⟩ (by rw [o.later.max]; exact hmax) (by omega) (by omega)
      cases r1 with
      | ok u => exact cont (by simp) h
      | panic => cases h
      | err er =>
        by_cases hnr : er = .notReady
        · subst hnr; exact cont (by simp) h
        · have hh : some ((Outcome.err WalkError.set : Outcome WalkError Unit), m1) = none := by
            cases er <;> first | exact h | exact absurd rfl hnr
          cases hh
    · rw [if_neg hc] at h; cases h

/-- The state of every address is as it was, but for the attributes of `[base, upto)`. -/
def WExact (g0 g : Gcd) (upd : Nat → Nat) (base upto : Nat) : Prop :=
  ∀ a, cellAt g.blocks a = (cellAt g0.blocks a).map fun c => if base ≤ a ∧ a < upto then { c with attrs := upd c.attrs } else c

theorem wexact_refl {g : Gcd} {base : Nat} : WExact g g upd base base := by
  intro a
  cases h : cellAt g.blocks a with
  | none => rfl
  | some c => show some c = some (if base ≤ a ∧ a < base then _ else c); rw [if_neg (by omega)]

theorem wexact_step {g0 g1 g2 : Gcd} {base cur n : Nat} {c : Cell} (h1 : base ≤ cur) (hu : Uniform g1.blocks cur n c) (e1 : WExact g0 g1 upd base cur)
    (e2 : Exact g1 g2 (upd c.attrs) cur (cur + n)) : WExact g0 g2 upd base (cur + n) := by
  intro a
  have hn := hu.1
  have e1a := e1 a
  rw [e2 a]
  by_cases c2 : cur ≤ a ∧ a < cur + n
  · have hc := hu.2 a c2.1 c2.2
    rw [hc] at e1a ⊢
    cases h0 : cellAt g0.blocks a with
    | none => rw [h0] at e1a; cases e1a
    | some c0 =>
      rw [h0] at e1a
      simp only [Option.map_some] at e1a ⊢
      rw [if_neg (by omega)] at e1a
      injection e1a with e1a
      rw [if_pos c2, if_pos (by omega), e1a]
  · rw [e1a]
    cases cellAt g0.blocks a with
    | none => rfl
    | some c0 =>
      simp only [Option.map_some]
      rw [if_neg c2]
      by_cases d1 : base ≤ a ∧ a < cur
      · rw [if_pos d1, if_pos (by omega)]
      · rw [if_neg d1, if_neg (by omega)]

/-- Changing the attributes of a range adds at most two blocks, however many it had. -/
theorem wexact_length {g0 g : Gcd} {base upto : Nat} (h1 : Good g0.blocks g0.max) (h2 : Good g.blocks g0.max)
    (h : WExact g0 g upd base upto) : g.blocks.length ≤ g0.blocks.length + 2 := by
  have hsub : starts g.blocks ⊆ base :: upto :: starts g0.blocks := by
    intro a ha
    obtain ⟨b, hb, rfl⟩ := List.mem_map.1 ha
    have hbb := tiles_mem h2.tiles hb
    by_cases h0 : b.base = base
    · rw [h0]; exact List.mem_cons_self
    by_cases h00 : b.base = upto
    · rw [h00]; exact List.mem_cons_of_mem _ List.mem_cons_self
    refine List.mem_cons_of_mem _ (List.mem_cons_of_mem _ ?_)
    by_cases hz : b.base = 0
    · cases hl : g0.blocks with
      | nil =>
        have := h1.tiles
        rw [hl] at this
        simp only [Tiles] at this
        omega
      | cons x l =>
        have := h1.tiles
        rw [hl] at this
        exact List.mem_map.2 ⟨x, List.mem_cons_self, by rw [this.1, hz]⟩
    · have hc := start_changes h2.tiles h2.coal hb (by omega)
      rw [h, h] at hc
      refine change_starts h1.tiles (by omega) (by omega) fun e => hc ?_
      rw [e]
      by_cases hin : base ≤ b.base ∧ b.base < upto
      · have : base ≤ b.base - 1 ∧ b.base - 1 < upto := by omega
        simp only [hin, this, and_self, if_true]
      · have : ¬ (base ≤ b.base - 1 ∧ b.base - 1 < upto) := by omega
        simp only [hin, this, if_false]
  have := (starts_nodup h2.tiles).length_le_of_subset hsub
  simpa [starts] using this

theorem wpiece_supported {g0 g : Gcd} (hr : Reachable ns g) (hne : g.blocks ≠ []) {base len cur n : Nat} {d : Block Cell}
    (hs : SupportsUpd g0 base len upd) (hpw : PageWise g0 base len) (hex : WExact g0 g upd base cur) (h0 : base ≤ cur)
    (h1 : cur < base + len) (h2 : base + len ≤ g.max) (hc : cur % 4096 = 0)
    (hd : g.descriptorFor cur = .ok d) (hn : min (addw d.base d.len) (base + len) = cur + n) (hu : Uniform g.blocks cur n d.st) :
    (cur + n) % 4096 = 0 ∧ n % 4096 = 0 ∧ d.st.type ≠ .nonExistent ∧ d.st.caps ||| upd d.st.attrs = d.st.caps ∧
      cellAt g0.blocks cur = some d.st := by
  have same : ∀ a, cur ≤ a → cellAt g.blocks a = cellAt g0.blocks a := fun a ha => by
    rw [hex a]
    cases cellAt g0.blocks a with
    | none => rfl
    | some c => simp only [Option.map_some]; rw [if_neg (by omega)]
  have hn0 := hu.1
  have hle : cur + n ≤ base + len := by omega
  have hal : (cur + n) % 4096 = 0 := by
    obtain ⟨p1, p2, p3⟩ := hpw
    rcases piece_end hr hne h1 h2 hd hn with h | h
    · rw [h]; omega
    · apply Classical.byContradiction
      intro hx
      by_cases hst : cur + n = base + len
      · omega
      apply h
      rw [same _ (by omega), p3 _ (by omega) (by omega), ← same _ (by omega)]
      exact hu.2 _ (by omega) (by omega)
  refine ⟨hal, by omega, ?_⟩
  obtain ⟨c, e, k1, k2⟩ := hs cur h0 h1
  have := hu.2 cur (Nat.le_refl _) (by omega)
  rw [same cur (Nat.le_refl _), e] at this
  injection this with this
  rw [← this]
  exact ⟨k1, k2, e⟩

/-- If the range supports what it is to get and the page table does not need memory, no part is refused. -/
theorem walk_accepted {base len : Nat} (hupd : ∀ a, a < W → upd a < W) {g0 : Gcd} (h0 : Good g0.blocks g0.max)
    (hmax0 : base + len ≤ g0.max) (hroom : g0.blocks.length + 8 ≤ 4096) (hf : ∀ a, f.refill a = false)
    (hs : SupportsUpd g0 base len upd) (hpw : PageWise g0 base len) {n : Nat} :
    ∀ {m m' : Mem} {cur : Nat} {r : Outcome WalkError Unit}, MemOk ns m →
    m.gcd.max = g0.max → WExact g0 m.gcd upd base cur → base ≤ cur → cur % 4096 = 0 →
    cur ≤ base + len → m.walk dbg f upd (base + len) n cur = some (r, m') → r ≠ .panic →
    m'.refusals = m.refusals ∧ (r = .ok () → WExact g0 m'.gcd upd base (base + len)) := by
  induction n with
  | zero => intro m m' cur r _ _ _ _ _ _ h; cases h
  | succ n ih =>
    intro m m' cur r hm hmx hex hbc hal hcl h hp
    unfold Mem.walk at h
    by_cases hc : cur < base + len
    · rw [if_pos hc] at h
      obtain ⟨d, k, e, e1, e2, hk, hcur, hle, hw, hu⟩ := piece hm.reach hm.some hc (by omega)
      obtain ⟨s1, s2, s3, s4, _⟩ := wpiece_supported hm.reach hm.some hs hpw hex hbc hc (by omega) hal e e1 hu
      rw [e] at h
      dsimp only at h
      rw [e1, e2, if_neg (by omega), core_piece hm hu (hupd _ hw)] at h
      have hg := good_of hm.reach hm.some
      rw [hmx] at hg
      have hsz := wexact_length h0 hg hex
      rcases hx : m.setPiece dbg f d.st.attrs cur k (upd d.st.attrs) with ⟨r1, m1⟩
      rw [hx] at h
      have hacc := setGcd_accepted (m := m) hm.reach hk (by unfold Room; omega) hal s2 hu s3 s4
      have one : r1 ≠ .panic → m1.refusals = m.refusals := fun hr1 =>
        setPiece_accepted hm.reach hm.table hcur hk (hupd _ hw) (by omega) (Or.inl (hf cur)) hal s2 hu s3 s4 hx hr1
      have cont : (r1 = .ok () ∨ r1 = .err .notReady) → m1.walk dbg f upd (base + len) n (cur + k) = some (r, m') →
          m'.refusals = m.refusals ∧ (r = .ok () → WExact g0 m'.gcd upd base (base + len)) := fun hr1 hl => by
        have hnp : r1 ≠ .panic := by rcases hr1 with hr1 | hr1 <;> rw [hr1] <;> simp
        have o := setPiece_onward hm.reach hm.table hcur hk (hupd _ hw) hw hx hnp
        have ex1 := setPiece_exact hm.reach hcur hk (hupd _ hw) (hf cur) hu hx hacc hr1
        have := ih (cur := cur + k) ⟨o.later.reach, o.later.some hm.some, o.table, by rw [o.dflt]; exact hm.dflt⟩
          (by rw [o.later.max]; exact hmx) (wexact_step hbc hu hex ex1) (by omega) s1 hle hl hp
        exact ⟨by rw [this.1, one hnp], this.2⟩
      cases r1 with
      | ok u => exact cont (Or.inl rfl) h
      | panic =>
        injection h with h; injection h with h _
        exact absurd h.symm hp
      | err er =>
        by_cases hnr : er = .notReady
        · subst hnr
          exact cont (Or.inr rfl) h
        · have this : some (Outcome.err WalkError.set, m1) = some (r, m') := by
            cases er <;> first | exact h | exact absurd rfl hnr
          injection this with this; injection this with e3 e4
          subst e4
          exact ⟨one (by simp), fun hok => by rw [hok] at e3; cases e3⟩
    · rw [if_neg hc] at h
      injection h with h; injection h with _ h
      rw [← h]
      exact ⟨rfl, fun _ => by rw [show base + len = cur by omega]; exact hex⟩

/-- If the range supports what it is to get, the page table needs no memory and does not fail, the loop succeeds. -/
theorem walk_ok {m0 : Mem} {base len : Nat} (hupd : ∀ a, a < W → upd a < W) (hm0 : MemOk ns m0) (hs0 : Sync m0)
    (hmask : ∀ a c, base ≤ a → a < base + len → cellAt m0.gcd.blocks a = some c → upd c.attrs &&& PT_MASK ≠ 0)
    (hmax0 : base + len ≤ m0.gcd.max) (hroom : m0.gcd.blocks.length + 8 ≤ 4096) (hf : ∀ a, f.refill a = false)
    (hfail : ∀ a, f.fail a = none)
    (hd : dbg = false ∨ ∀ a c, base ≤ a → a < base + len → cellAt m0.gcd.blocks a = some c → (upd c.attrs).testBit 13 = false)
    (hs : SupportsUpd m0.gcd base len upd) (hpw : PageWise m0.gcd base len) {n : Nat} :
    ∀ {m : Mem} {cur : Nat}, WPart ns m0 m upd base cur → TableOk m →
    WExact m0.gcd m.gcd upd base cur → cur % 4096 = 0 → cur ≤ base + len → base + len < cur + n →
    ∃ m', m.walk dbg f upd (base + len) n cur = some (.ok (), m') := by
  induction n with
  | zero => intro m cur _ _ _ _ h1 h2; omega
  | succ n ih =>
    intro m cur hpart hto hex hal hcs hn
    have hm := wpart_ok hm0 hpart hto
    have hmx := hpart.later.max
    have hbc := hpart.le
    unfold Mem.walk
    by_cases hc : cur < base + len
    · rw [if_pos hc]
      obtain ⟨d, k, e, e1, e2, hk, hcur, hle, hw, hu⟩ := piece hm.reach hm.some hc (by omega)
      obtain ⟨s1, s2, s3, s4, s5⟩ := wpiece_supported hm.reach hm.some hs hpw hex hbc hc (by omega) hal e e1 hu
      rw [e]
      dsimp only
      rw [e1, e2, if_neg (by omega), core_piece hm hu (hupd _ hw)]
      have hg := good_of hm.reach hm.some
      rw [hmx] at hg
      have hsz := wexact_length (good_of hm0.reach hm0.some) hg hex
      have hroom' : Room m.gcd := by unfold Room; omega
      have hsync := sync_wpart hm0.reach hs0 hpart fun a c k1 k2 => hmask a c k1 (by omega)
      have hokp := setPiece_ok (dbg := dbg) (f := f) (ns := ns) (m := m) hm hsync hcur hk (hupd _ hw) hroom' hal s2 hu s3 s4
        (hf cur) (hfail cur) (hd.imp id fun h => Or.inl (h cur d.st hbc hc s5))
      have hacc := setGcd_accepted (m := m) hm.reach hk hroom' hal s2 hu s3 s4
      rcases hx : m.setPiece dbg f d.st.attrs cur k (upd d.st.attrs) with ⟨r1, m1⟩
      rw [hx] at hokp
      have hr1 : r1 = .ok () ∨ r1 = .err .notReady := hokp.imp id fun h => h.1
      have hnp : r1 ≠ .panic := by rcases hr1 with h | h <;> rw [h] <;> simp
      have href := setPiece_accepted hm.reach hto hcur hk (hupd _ hw) (by omega) (Or.inl (hf cur)) hal s2 hu s3 s4 hx hnp
      have o1 := setPiece_onward hm.reach hto hcur hk (hupd _ hw) hw hx hnp
      have hk0 := hu.1
      rcases setPiece_spec hm.reach hto hcur hk (hupd _ hw) hw hu hx hnp href with ⟨hh, hp1⟩ | ⟨e', ne', he', _⟩
      · have ex1 := setPiece_exact hm.reach hcur hk (hupd _ hw) (hf cur) hu hx hacc hr1
        obtain ⟨m', h'⟩ := ih (hpart.step hm0.reach hu hp1) o1.table (wexact_step hbc hu hex ex1) s1 hle (by omega)
        refine ⟨m', ?_⟩
        rcases hr1 with h | h
        · subst h; exact h'
        · subst h; exact h'
      · exfalso
        rcases hr1 with h | h <;> rw [h] at he'
        · cases he'
        · injection he' with he'; exact ne' he'.symm
    · rw [if_neg hc]; exact ⟨_, rfl⟩

end Verif.Paging
