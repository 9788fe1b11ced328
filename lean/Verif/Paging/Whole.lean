import Verif.Paging.Accepted
namespace Verif.Paging
open Verif.Gcd

variable {ns : Nat}

/-- The state of every address is as it was, but for the attributes of `[base, upto)`. -/
def Exact (g0 g : Gcd) (attrs base upto : Nat) : Prop :=
  ∀ a, cellAt g.blocks a = (cellAt g0.blocks a).map fun c => if base ≤ a ∧ a < upto then { c with attrs := attrs } else c

theorem exact_refl {g : Gcd} {attrs base : Nat} : Exact g g attrs base base := by
  intro a
  cases h : cellAt g.blocks a with
  | none => rfl
  | some c => show some c = some (if base ≤ a ∧ a < base then _ else c); rw [if_neg (by omega)]

theorem exact_trans {g0 g1 g2 : Gcd} {attrs base mid upto : Nat} (h1 : base ≤ mid) (h2 : mid ≤ upto) (e1 : Exact g0 g1 attrs base mid)
    (e2 : Exact g1 g2 attrs mid upto) : Exact g0 g2 attrs base upto := by
  intro a
  rw [e2 a, e1 a]
  cases cellAt g0.blocks a with
  | none => rfl
  | some c =>
    simp only [Option.map_some]
    by_cases c1 : base ≤ a ∧ a < mid
    · rw [if_pos c1, if_neg (by omega), if_pos (by omega)]
    · rw [if_neg c1]
      by_cases c2 : mid ≤ a ∧ a < upto
      · rw [if_pos c2, if_pos (by omega)]
      · rw [if_neg c2, if_neg (by omega)]

/-- Changing the attributes of a range adds at most two blocks, however many it had. -/
theorem exact_length {g0 g : Gcd} {attrs base upto : Nat} (h1 : Good g0.blocks g0.max) (h2 : Good g.blocks g0.max)
    (h : Exact g0 g attrs base upto) : g.blocks.length ≤ g0.blocks.length + 2 := by
  have hsub : starts g.blocks ⊆ base :: upto :: starts g0.blocks := by
    intro a ha
    obtain ⟨b, hb, rfl⟩ := List.mem_map.1 ha
    have hbb := tiles_mem h2.tiles hb
    by_cases h0 : b.base = base
    · rw [h0]; exact List.mem_cons_self
    by_cases h00 : b.base = upto
    · rw [h00]; exact List.mem_cons_of_mem _ List.mem_cons_self
    refine List.mem_cons_of_mem _ (List.mem_cons_of_mem _ ?_)
    by_cases hz : b.base = 0
    · cases hl : g0.blocks with
      | nil =>
        have := h1.tiles
        rw [hl] at this
        simp only [Tiles] at this
        omega
      | cons x l =>
        have := h1.tiles
        rw [hl] at this
        exact List.mem_map.2 ⟨x, List.mem_cons_self, by rw [this.1, hz]⟩
    · have hc := start_changes h2.tiles h2.coal hb (by omega)
      rw [h, h] at hc
      refine change_starts h1.tiles (by omega) (by omega) fun e => hc ?_
      rw [e]
      by_cases hin : base ≤ b.base ∧ b.base < upto
      · have : base ≤ b.base - 1 ∧ b.base - 1 < upto := by omega
        simp only [hin, this, and_self, if_true]
      · have : ¬ (base ≤ b.base - 1 ∧ b.base - 1 < upto) := by omega
        simp only [hin, this, if_false]
  have := (starts_nodup h2.tiles).length_le_of_subset hsub
  simpa [starts] using this

/-- Where a piece ends, the state of the memory changes. -/
theorem piece_end {g : Gcd} (hr : Reachable ns g) (hne : g.blocks ≠ []) {cur stop n : Nat} {d : Block Cell} (h1 : cur < stop) (h2 : stop ≤ g.max)
    (hd : g.descriptorFor cur = .ok d) (hn : min (addw d.base d.len) stop = cur + n) :
    cur + n = stop ∨ cellAt g.blocks (cur + n) ≠ some d.st := by
  obtain ⟨d', e, hm, b1, b2, b3⟩ := descriptor_contains hr hne (a := cur) (by omega)
  rw [hd] at e; injection e with e; subst e
  have hg := good_of hr hne
  have hb := tiles_mem hg.tiles hm
  have hW := (reachable_inv hr).inv.ltW
  have haw : addw d.base d.len = d.base + d.len := by
    unfold addw; exact Nat.mod_eq_of_lt (by omega)
  rw [haw] at hn
  by_cases hs : cur + n = stop
  · exact Or.inl hs
  right
  intro hc
  have hu : Uniform g.blocks cur (n + 1) d.st := ⟨by omega, fun a x1 x2 => by
    by_cases ha : a = cur + n
    · rw [ha]; exact hc
    · exact cellAt_mem hg.tiles hm (by omega) (by omega)⟩
  have := (uniform_holds hg hu hm b1 b2).1
  have := this.2
  omega

theorem setTable_gcd {dbg : Bool} {f : Faults} {m m' : Mem} {r : Outcome EfiError Unit} {old base len attrs : Nat}
    (hf : f.refill base = false) (h : m.setTable dbg f old base len attrs = (r, m')) (hr : r = .ok () ∨ r = .err .notReady) :
    m'.gcd = m.gcd := by
  unfold Mem.setTable at h
  split at h
  · injection h with _ h; rw [← h]
  · have hg := setPaging_gcd (dbg := dbg) (m := m) (len := len) (attrs := attrs) hf
    rcases hx : m.setPaging dbg f base len attrs with ⟨r1, m1⟩
    rw [hx] at h hg
    cases r1 with
    | ok u => injection h with _ h; rw [← h]; exact hg
    | panic => injection h with h _; rcases hr with hr | hr <;> rw [hr] at h <;> cases h
    | err e =>
      by_cases he : e = .notReady
      · subst he; injection h with _ h; rw [← h]; exact hg
      · have hh : (dbgFail dbg (.err e), m1.setGcd base len old) = (r, m') := by
          cases e <;> first | exact h | exact absurd rfl he
        injection hh with hh _
        exfalso
        unfold dbgFail at hh
        split at hh
        · rcases hr with hr | hr <;> rw [hr] at hh <;> cases hh
        · rcases hr with hr | hr <;> rw [hr] at hh
          · cases hh
          · injection hh with hh; exact he hh

theorem setPiece_exact {dbg : Bool} {f : Faults} {m m' : Mem} {r : Outcome EfiError Unit} {base len attrs : Nat} {c : Cell}
    (hr : Reachable ns m.gcd) (hb : base < W) (hl : len < W) (ha : attrs < W) (hf : f.refill base = false)
    (hu : Uniform m.gcd.blocks base len c) (h : m.setPiece dbg f c.attrs base len attrs = (r, m'))
    (hacc : (m.setGcd base len attrs).refusals = m.refusals) (hres : r = .ok () ∨ r = .err .notReady) :
    Exact m.gcd m'.gcd attrs base (base + len) := by
  unfold Mem.setPiece at h
  rw [if_neg (fun hh => hh.2 hacc)] at h
  have hg := setTable_gcd hf h hres
  rw [hg]
  rcases setGcd_cases (m := m) hr hb hl ha with ⟨g1, e1, lt1, sz1, _, _, x, hx, x1, x2, x3⟩ | e1
  · have hxc := uniform_unique hx hu
    subst hxc
    rw [e1]
    intro a
    rw [x3 a]
    by_cases hin : base ≤ a ∧ a < base + len
    · rw [if_pos hin, hu.2 a hin.1 hin.2]
      simp only [Option.map_some, if_pos hin]
    · rw [if_neg hin]
      cases cellAt m.gcd.blocks a with
      | none => rfl
      | some y => simp only [Option.map_some, if_neg hin]
  · exfalso
    have : (m.setGcd base len attrs).refusals = m.refusals + 1 := by rw [e1]
    omega

/-- What the pieces of a supported range have in common. -/
theorem piece_supported {g0 g : Gcd} (hr : Reachable ns g) (hne : g.blocks ≠ []) {base len attrs cur n : Nat} {d : Block Cell}
    (hs : Supports g0 base len attrs) (hpw : PageWise g0 base len) (hex : Exact g0 g attrs base cur) (h0 : base ≤ cur)
    (h1 : cur < base + len) (h2 : base + len ≤ g.max) (hc : cur % 4096 = 0)
    (hd : g.descriptorFor cur = .ok d) (hn : min (addw d.base d.len) (base + len) = cur + n) (hu : Uniform g.blocks cur n d.st) :
    (cur + n) % 4096 = 0 ∧ n % 4096 = 0 ∧ d.st.type ≠ .nonExistent ∧ d.st.caps ||| attrs = d.st.caps := by
  have same : ∀ a, cur ≤ a → cellAt g.blocks a = cellAt g0.blocks a := fun a ha => by
    rw [hex a]
    cases cellAt g0.blocks a with
    | none => rfl
    | some c => simp only [Option.map_some]; rw [if_neg (by omega)]
  have hn0 := hu.1
  have hle : cur + n ≤ base + len := by omega
  have hal : (cur + n) % 4096 = 0 := by
    obtain ⟨p1, p2, p3⟩ := hpw
    rcases piece_end hr hne h1 h2 hd hn with h | h
    · rw [h]; omega
    · apply Classical.byContradiction
      intro hx
      by_cases hst : cur + n = base + len
      · omega
      apply h
      rw [same _ (by omega), p3 _ (by omega) (by omega), ← same _ (by omega)]
      exact hu.2 _ (by omega) (by omega)
  refine ⟨hal, by omega, ?_⟩
  obtain ⟨c, e, k1, k2⟩ := hs cur h0 h1
  have := hu.2 cur (Nat.le_refl _) (by omega)
  rw [same cur (Nat.le_refl _), e] at this
  injection this with this
  rw [← this]
  exact ⟨k1, k2⟩

/-- If the range supports the attributes and the table of descriptors has some room, no part of the change is refused. -/
theorem setLoop_accepted {dbg : Bool} {f : Faults} {attrs base len : Nat} (ha : attrs < W) {g0 : Gcd} (h0 : Good g0.blocks g0.max)
    (hmax0 : base + len ≤ g0.max) (hroom : g0.blocks.length + 8 ≤ 4096) (hf : ∀ a, f.refill a = false)
    (hs : Supports g0 base len attrs) (hpw : PageWise g0 base len) {n : Nat} :
    ∀ {m m' : Mem} {cur : Nat} {res r : Outcome EfiError Unit}, Reachable ns m.gcd → m.gcd.blocks ≠ [] → TableOk m →
    m.gcd.max = g0.max → Exact g0 m.gcd attrs base cur → base ≤ cur → cur % 4096 = 0 →
    Mem.setLoop dbg f attrs (base + len) n m cur res = some (r, m') → r ≠ .panic → m'.refusals = m.refusals := by
  induction n with
  | zero => intro m m' cur res r _ _ _ _ _ _ _ h; cases h
  | succ n ih =>
    intro m m' cur res r hr hne hto hmx hex hbc hal h hp
    unfold Mem.setLoop at h
    by_cases hc : cur < base + len
    · rw [if_pos hc] at h
      obtain ⟨d, k, e, e1, e2, hk, hcur, hle, hw, hu⟩ := piece hr hne hc (by omega)
      obtain ⟨s1, s2, s3, s4⟩ := piece_supported hr hne hs hpw hex hbc hc (by omega) hal e e1 hu
      rw [e] at h
      dsimp only at h
      rw [e1, e2] at h
      have hg := good_of hr hne
      rw [hmx] at hg
      have hsz := exact_length h0 hg hex
      rcases hx : m.setPiece dbg f d.st.attrs cur k attrs with ⟨r1, m1⟩
      rw [hx] at h
      have hacc := setGcd_accepted (m := m) hr hk (by unfold Room; omega) hal s2 hu s3 s4
      have one : r1 ≠ .panic → m1.refusals = m.refusals := fun hr1 =>
        setPiece_accepted hr hto hcur hk ha (by omega) (Or.inl (hf cur)) hal s2 hu s3 s4 hx hr1
      have cont : (r1 = .ok () ∨ r1 = .err .notReady) → ∀ res', Mem.setLoop dbg f attrs (base + len) n m1 (cur + k) res' = some (r, m') →
          m'.refusals = m.refusals := fun hr1 res' hl => by
        have hnp : r1 ≠ .panic := by rcases hr1 with hr1 | hr1 <;> rw [hr1] <;> simp
        have o1 := setPiece_onward hr hto hcur hk ha hw hx hnp
        have ex1 := setPiece_exact hr hcur hk ha (hf cur) hu hx hacc hr1
        have := ih (cur := cur + k) o1.later.reach (o1.later.some hne) o1.table (by rw [o1.later.max]; exact hmx)
          (exact_trans hbc (by omega) hex ex1) (by omega) s1 hl hp
        rw [this, one hnp]
      cases r1 with
      | ok u => exact cont (Or.inl rfl) _ h
      | panic =>
        injection h with h; injection h with h _
        exact absurd h.symm hp
      | err er =>
        by_cases hnr : er = .notReady
        · subst hnr
          exact cont (Or.inr rfl) _ h
        · have this : some (Outcome.err er, m1) = some (r, m') := by
            cases er <;> first | exact h | exact absurd rfl hnr
          injection this with this; injection this with _ e4
          subst e4
          exact one (by simp)
    · rw [if_neg hc] at h
      injection h with h; injection h with _ h
      rw [h]

end Verif.Paging
