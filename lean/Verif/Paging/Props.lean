import Verif.Paging.Whole
/-!
C63: the page table and the memory space are kept in step.
-/
namespace Verif.Paging
open Verif.Gcd

variable {ns : Nat} {dbg : Bool} {f : Faults} {m m' : Mem} {base len attrs : Nat} {r : Outcome EfiError Unit}

theorem setAttributes_eq {rounds : Nat} (hW : base + len < W) :
    m.setAttributes dbg f rounds base len attrs = Mem.setLoop dbg f attrs (base + len) rounds m base (.ok ()) := by
  unfold Mem.setAttributes addw
  rw [if_neg (by omega), Nat.mod_eq_of_lt hW]

theorem MemOk.lt (h : MemOk ns m) (hr : base + len ≤ m.gcd.max) : base + len < W := by
  have := (reachable_inv h.reach).inv.ltW
  omega

/-- `core_set_memory_space_attributes` returns what the loop returns, except that without a page table it succeeds. -/
theorem coreSet_some (hm : MemOk ns m) (hr : base + len ≤ m.gcd.max) (ha : attrs < W)
    (h : m.step dbg ns f (.setAttributes base len attrs) = some (r, m')) (hp : r ≠ .panic) :
    ∃ r1, Mem.setLoop dbg f attrs (base + len) (len + 1) m base (.ok ()) = some (r1, m') ∧ r1 ≠ .panic ∧
      (r1 = r ∨ (r1 = .err .notReady ∧ r = .ok ())) := by
  simp only [Mem.step, Mem.coreSetAttributes, setAttributes_eq (hm.lt hr)] at h
  rcases hx : Mem.setLoop dbg f attrs (base + len) (len + 1) m base (.ok ()) with _ | ⟨r1, m1⟩
  · rw [hx] at h; cases h
  rw [hx] at h
  by_cases hn : r1 = .err .notReady
  · subst hn
    have hmx : m1.gcd.max ≠ 0 := by
      have o := setLoop_onward ha hm.reach hm.some hm.table hr (Nat.le_refl _) hx (by simp)
      have := (reachable_inv o.later.reach).inv.pos
      omega
    simp only [if_pos hmx] at h
    injection h with h; injection h with h1 h2
    subst h1; subst h2
    exact ⟨_, rfl, by simp, Or.inr ⟨rfl, rfl⟩⟩
  · have hh : some (r1, m1) = some (r, m') := by
      cases r1 with
      | ok u => exact h
      | panic => exact h
      | err e => cases e <;> first | exact h | exact absurd rfl hn
    injection hh with hh; injection hh with h1 h2
    subst h1; subst h2
    exact ⟨_, rfl, hp, Or.inl rfl⟩

theorem attrsSet_of_part {upto : Nat} (h : Part ns m m' attrs base upto) (ha : attrs &&& PT_MASK ≠ 0) : AttrsSet m m' base upto attrs where
  size := h.later.max
  memory := h.face
  table := fun t ht => by
    obtain ⟨t', e, s⟩ := h.table t ht
    refine ⟨t', e, fun p => ?_⟩
    have hle := h.le
    have hiff : InPages base (upto - base) p ↔ base / 4096 ≤ p ∧ p < upto / 4096 := by
      unfold InPages
      rw [show base + (upto - base) = upto by omega]
    rw [s.2 ha p]
    by_cases hin : InPages base (upto - base) p
    · rw [if_pos hin, if_pos (hiff.1 hin)]
    · rw [if_neg hin, if_neg (fun k => hin (hiff.2 k))]
  noTable := h.noTable

/-- C63 (setting attributes): the call changes the attributes of the range, in the memory space and in the page table, and
nothing else; if it reports an error, it has done so for a first part of the range only. The two stay in step, and if a
page gets another cache type the event group for such changes is signalled. (The hypothesis on `refusals`: the memory space
did not refuse a part; `set_attributes_not_refused` tells when it does not.) -/
theorem set_attributes_effect (hm : MemOk ns m) (hr : base + len ≤ m.gcd.max) (ha : attrs < W) (hmask : attrs &&& 0x2701F ≠ 0)
    (h : m.step dbg ns f (.setAttributes base len attrs) = some (r, m')) (hp : r ≠ .panic) (href : m'.refusals = m.refusals) :
    ∃ upto, base ≤ upto ∧ upto ≤ base + len ∧ AttrsSet m m' base upto attrs ∧ (r = .ok () → upto = base + len) ∧
      (∀ a, base ≤ a → a < upto → ∃ c, cellAt m.gcd.blocks a = some c ∧ c.type ≠ .nonExistent ∧ c.caps ||| attrs = c.caps) ∧
      (Sync m → Sync m') ∧
      (∀ t t' p a, m.table = some t → m'.table = some t' → t' p = some a → a &&& 0x101F ≠ 0 →
        (∀ b, t p = some b → b &&& 0x101F ≠ a &&& 0x101F) → m.signals < m'.signals) := by
  obtain ⟨r1, hl, hp1, hrr⟩ := coreSet_some hm hr ha h hp
  have hs := setLoop_spec ha hm.reach hr (Part.refl hm.reach hm.some) hm.table (by omega) (Or.inl rfl) hl hp1 href
  have hmask' : attrs &&& PT_MASK ≠ 0 := by rw [ptMask]; exact hmask
  have fin : ∀ upto, Part ns m m' attrs base upto → upto ≤ base + len → (r = .ok () → upto = base + len) → _ := fun upto hpart h1 h2 =>
    (⟨upto, hpart.le, h1, attrsSet_of_part hpart hmask', h2, hpart.supported, fun hs => sync_part hm.reach hs hpart hmask',
      fun t t' p a k1 k2 k3 k4 k5 => hpart.signalled t t' p k1 k2 ⟨a, k3, k4, fun b hb e => k5 b hb e.symm⟩⟩ :
      ∃ upto, base ≤ upto ∧ upto ≤ base + len ∧ AttrsSet m m' base upto attrs ∧ (r = .ok () → upto = base + len) ∧
      (∀ a, base ≤ a → a < upto → ∃ c, cellAt m.gcd.blocks a = some c ∧ c.type ≠ .nonExistent ∧ c.caps ||| attrs = c.caps) ∧
      (Sync m → Sync m') ∧
      (∀ t t' p a, m.table = some t → m'.table = some t' → t' p = some a → a &&& 0x101F ≠ 0 →
        (∀ b, t p = some b → b &&& 0x101F ≠ a &&& 0x101F) → m.signals < m'.signals))
  rcases hs with ⟨_, hpart⟩ | ⟨e, hne, he, upto, hle, hpart⟩
  · exact fin _ hpart (Nat.le_refl _) (fun _ => rfl)
  · refine fin _ hpart hle fun hok => ?_
    exfalso
    rcases hrr with k | ⟨k, _⟩
    · rw [k, hok] at he; cases he
    · rw [k] at he; injection he with he; exact hne he.symm

/-- C63: a call to set attributes inside the memory space returns. -/
theorem set_attributes_returns (hm : MemOk ns m) (hr : base + len ≤ m.gcd.max) (ha : attrs < W) :
    m.step dbg ns f (.setAttributes base len attrs) ≠ none := by
  have := setLoop_returns (ns := ns) (dbg := dbg) (f := f) (n := len + 1) (cur := base) (res := .ok ()) ha hm.reach hm.some hm.table hr
    (by omega) (by omega)
  simp only [Mem.step, Mem.coreSetAttributes, setAttributes_eq (hm.lt hr)]
  intro h
  apply this
  generalize Mem.setLoop dbg f attrs (base + len) (len + 1) m base (.ok ()) = x at h
  rcases x with _ | ⟨r1, m1⟩
  · rfl
  · exfalso
    cases r1 with
    | ok u => cases h
    | panic => cases h
    | err e => cases e <;> cases h

/-- C63: the memory space refuses no part of a change that the whole range supports. -/
theorem set_attributes_not_refused (hm : MemOk ns m) (hr : base + len ≤ m.gcd.max) (ha : attrs < W) (hs : Supports m.gcd base len attrs)
    (hpw : PageWise m.gcd base len) (hroom : m.gcd.blocks.length + 8 ≤ 4096) (hf : ∀ a, f.refill a = false)
    (h : m.step dbg ns f (.setAttributes base len attrs) = some (r, m')) (hp : r ≠ .panic) : m'.refusals = m.refusals := by
  obtain ⟨r1, hl, hp1, _⟩ := coreSet_some hm hr ha h hp
  exact setLoop_accepted ha (good_of hm.reach hm.some) hr hroom hf hs hpw hm.reach hm.some hm.table rfl exact_refl (Nat.le_refl _) hpw.1 hl hp1

/-! ### When it succeeds -/

theorem applyPaging_ok {t : Table} {want : Nat} {old : Option Nat} (hf : f.refill base = false) (hfail : f.fail base = none)
    (hok : rangeOk base len = true) (hd : dbg = false ∨ want.testBit 13 = false ∨ old ≠ none) : (m.applyPaging dbg f t base len want old).1 = .ok () := by
  have hre : ∀ m : Mem, m.refill f base = some m := fun m => by unfold Mem.refill; rw [if_neg (by rw [hf]; simp)]
  unfold Mem.applyPaging
  by_cases hrp : want &&& MEMORY_RP = MEMORY_RP
  · rw [if_pos hrp]
    cases old with
    | none =>
      have : dbg = false := by
        rcases hd with hd | hd | hd
        · exact hd
        · rw [(rp_iff want).1 hrp] at hd; cases hd
        · exact absurd rfl hd
      simp [dbgFail, this]
    | some b =>
      have : m.unmap f t base len = (.ok (), { m with table := some (t.set base len none) }) := by
        unfold Mem.unmap
        rw [hre]
        dsimp only
        rw [if_neg (by rw [hok]; simp), hfail]
      rw [this]
  · rw [if_neg hrp]
    have : m.map f t base len want = (.ok (), { m with table := some (t.set base len (some want)) }) := by
      unfold Mem.map
      rw [hre]
      dsimp only
      rw [if_neg (by rw [hok]; simp), hfail]
    rw [this]

theorem setPaging_ok {t : Table} {x : Option Nat} (ht : m.table = some t) (hf : f.refill base = false) (hfail : f.fail base = none)
    (hok : rangeOk base len = true) (hd : dbg = false ∨ attrs.testBit 13 = false ∨ x ≠ none) (hx : ∀ p, InPages base len p → t p = x) :
    (m.setPaging dbg f base len attrs).1 = .ok () := by
  have hd' : dbg = false ∨ (attrs &&& PT_MASK).testBit 13 = false ∨ x ≠ none := by
    rw [ptMask, testBit_mask _ _ (by decide)]; exact hd
  have hne : 0 < len := by have := (rangeOk_iff.1 hok).2.2; omega
  have hpg : InPages base len (base / 4096) := by
    have := rangeOk_iff.1 hok
    unfold InPages; omega
  unfold Mem.setPaging
  rw [ht]
  dsimp only
  rcases query_cases t base len with ⟨a, e, _, h⟩ | ⟨e, _, h⟩ | ⟨e, h⟩
  · rw [e]
    dsimp only
    split
    · rfl
    · refine applyPaging_ok hf hfail hok ?_
      rcases hd' with k | k | k
      · exact Or.inl k
      · exact Or.inr (Or.inl k)
      · exact Or.inr (Or.inr (by simp))
  · rw [e]
    refine applyPaging_ok hf hfail hok ?_
    rcases hd' with k | k | k
    · exact Or.inl k
    · exact Or.inr (Or.inl k)
    · exfalso
      apply k
      rw [← hx _ hpg]
      exact h _ hpg
  · rcases h with h | h
    · rw [h] at hok; cases hok
    · exact absurd ⟨x, hx⟩ h

theorem setPiece_ok {c : Cell} (hm : MemOk ns m) (hs : Sync m) (hb : base < W) (hl : len < W) (ha : attrs < W) (hroom : Room m.gcd) (h1 : base % 4096 = 0) (h2 : len % 4096 = 0)
    (hu : Uniform m.gcd.blocks base len c) (h3 : c.type ≠ .nonExistent) (h4 : c.caps ||| attrs = c.caps)
    (hf : f.refill base = false) (hfail : f.fail base = none) (hd : dbg = false ∨ attrs.testBit 13 = false ∨ mappingOf c ≠ none) :
    (m.setPiece dbg f c.attrs base len attrs).1 = .ok () ∨
      ((m.setPiece dbg f c.attrs base len attrs).1 = .err .notReady ∧ m.table = none) := by
  have hacc := setGcd_accepted (m := m) hm.reach hl hroom h1 h2 hu h3 h4
  have htab := (setGcd_later (ns := ns) (m := m) hm.reach hb hl ha).2.1
  unfold Mem.setPiece
  rw [if_neg (fun hh => hh.2 hacc)]
  unfold Mem.setTable
  by_cases h0 : attrs &&& PT_MASK = 0
  · rw [if_pos h0]; exact Or.inl rfl
  rw [if_neg h0]
  cases ht : m.table with
  | none =>
    have : (m.setGcd base len attrs).setPaging dbg f base len attrs = (.err .notReady, m.setGcd base len attrs) := by
      unfold Mem.setPaging; rw [htab, ht]
    rw [this]; exact Or.inr ⟨rfl, by first | exact ht | rfl⟩
  | some t =>
    left
    have hpos := hu.1
    have hin : ∀ p, InPages base len p → t p = mappingOf c := fun p hp => by
      have hp := (inPages_iff h1 h2).1 hp
      have := hs t ht (p * 4096) c (hu.2 _ (by omega) (by omega))
      rwa [Nat.mul_div_cancel _ (by decide)] at this
    have hok : rangeOk base len = true := rangeOk_iff.2 ⟨h1, h2, by omega⟩
    have := setPaging_ok (dbg := dbg) (m := m.setGcd base len attrs) (htab.trans ht) hf hfail hok hd hin
    rcases hx : (m.setGcd base len attrs).setPaging dbg f base len attrs with ⟨r1, m1⟩
    rw [hx] at this
    have this : r1 = .ok () := this
    subst this
    rfl

theorem setLoop_ok {m0 : Mem} (ha : attrs < W) (hm0 : MemOk ns m0) (hs0 : Sync m0) (hmask : attrs &&& PT_MASK ≠ 0)
    (hmax0 : base + len ≤ m0.gcd.max) (hroom : m0.gcd.blocks.length + 8 ≤ 4096) (hf : ∀ a, f.refill a = false)
    (hfail : ∀ a, f.fail a = none) (hd : dbg = false ∨ attrs.testBit 13 = false ∨
      ∀ a c, base ≤ a → a < base + len → cellAt m0.gcd.blocks a = some c → mappingOf c ≠ none)
    (hs : Supports m0.gcd base len attrs) (hpw : PageWise m0.gcd base len) {n : Nat} :
    ∀ {m : Mem} {cur : Nat} {res : Outcome EfiError Unit}, Part ns m0 m attrs base cur → TableOk m →
    Exact m0.gcd m.gcd attrs base cur → cur % 4096 = 0 → cur ≤ base + len → base + len < cur + n →
    (res = .ok () ∨ (res = .err .notReady ∧ m0.table = none)) →
    ∃ r m', Mem.setLoop dbg f attrs (base + len) n m cur res = some (r, m') ∧ (r = .ok () ∨ (r = .err .notReady ∧ m0.table = none)) ∧
      Part ns m0 m' attrs base (base + len) ∧ TableOk m' ∧ Exact m0.gcd m'.gcd attrs base (base + len) := by
  induction n with
  | zero => intro m cur res _ _ _ _ h1 h2; omega
  | succ n ih =>
    intro m cur res hpart hto hex hal hcs hn hres
    have hr := hpart.later.reach
    have hne := hpart.later.some hpart.ne
    have hmx := hpart.later.max
    have hbc := hpart.le
    unfold Mem.setLoop
    by_cases hc : cur < base + len
    · rw [if_pos hc]
      obtain ⟨d, k, e, e1, e2, hk, hcur, hle, hw, hu⟩ := piece hr hne hc (by omega)
      obtain ⟨s1, s2, s3, s4⟩ := piece_supported hr hne hs hpw hex hbc hc (by omega) hal e e1 hu
      rw [e]
      dsimp only
      rw [e1, e2]
      have hg := good_of hr hne
      rw [hmx] at hg
      have hsz := exact_length (good_of hm0.reach hm0.some) hg hex
      have hroom' : Room m.gcd := by unfold Room; omega
      have hd1 : dbg = false ∨ attrs.testBit 13 = false ∨ mappingOf d.st ≠ none := by
        rcases hd with h | h | h
        · exact Or.inl h
        · exact Or.inr (Or.inl h)
        · refine Or.inr (Or.inr (h cur d.st hbc hc ?_))
          have h1 := hu.2 cur (Nat.le_refl _) (by have := hu.1; omega)
          rw [hex cur] at h1
          cases h0 : cellAt m0.gcd.blocks cur with
          | none => rw [h0] at h1; cases h1
          | some c0 =>
            rw [h0] at h1
            simp only [Option.map_some] at h1
            rwa [if_neg (by omega)] at h1
      have hokp := setPiece_ok (dbg := dbg) (f := f) (ns := ns) (m := m) ⟨hr, hne, hto, by rw [hpart.dflt]; exact hm0.dflt⟩ (sync_part hm0.reach hs0 hpart hmask) hcur hk ha hroom' hal s2 hu s3 s4
        (hf cur) (hfail cur) hd1
      have hacc := setGcd_accepted (m := m) hr hk hroom' hal s2 hu s3 s4
      rcases hx : m.setPiece dbg f d.st.attrs cur k attrs with ⟨r1, m1⟩
      rw [hx] at hokp
      have hnp : r1 ≠ .panic := by rcases hokp with h | ⟨h, _⟩ <;> rw [show r1 = _ from h] <;> simp
      have href := setPiece_accepted hr hto hcur hk ha (by omega) (Or.inl (hf cur)) hal s2 hu s3 s4 hx hnp
      have o1 := setPiece_onward hr hto hcur hk ha hw hx hnp
      have hk0 := hu.1
      rcases setPiece_spec hr hto hcur hk ha hw hu hx hnp href with ⟨hh, hp1⟩ | ⟨e', ne', he', _⟩
      · have ex1 := setPiece_exact hr hcur hk ha (hf cur) hu hx hacc (by rcases hh with h | h; exact Or.inl h; exact Or.inr h.1)
        have hpart1 := hpart.trans hm0.reach hp1
        have hex1 := exact_trans hbc (by omega) hex ex1
        rcases hh with h | ⟨h, h'⟩
        · subst h
          exact ih hpart1 o1.table hex1 s1 hle (by omega) hres
        · subst h
          refine ih hpart1 o1.table hex1 s1 hle (by omega) (Or.inr ⟨rfl, ?_⟩)
          cases hx0 : m0.table with
          | none => rfl
          | some t =>
            obtain ⟨t', ht', _⟩ := hpart.table t hx0
            rw [h'] at ht'; cases ht'
      · exfalso
        rcases hokp with h | ⟨h, _⟩
        · have h : r1 = _ := h
          rw [h] at he'; cases he'
        · have h : r1 = _ := h
          rw [h] at he'; injection he' with he'; exact ne' he'.symm
    · rw [if_neg hc]
      have : cur = base + len := by omega
      subst this
      exact ⟨_, _, rfl, hres, hpart, hto, hex⟩

/-- C63: setting attributes that the whole range supports succeeds, if the page table does not fail; nothing but the attributes of
the range changes in the memory space. -/
theorem set_attributes_succeeds (hm : MemOk ns m) (hsy : Sync m) (hr : base + len ≤ m.gcd.max) (ha : attrs < W)
    (hmask : attrs &&& 0x2701F ≠ 0) (hs : Supports m.gcd base len attrs)
    (hpw : PageWise m.gcd base len) (hroom : m.gcd.blocks.length + 8 ≤ 4096) (hf : ∀ a, f.refill a = false)
    (hfail : ∀ a, f.fail a = none) (hd : dbg = false ∨ attrs.testBit 13 = false ∨
      ∀ a c, base ≤ a → a < base + len → cellAt m.gcd.blocks a = some c → mappingOf c ≠ none) :
    ∃ m', m.step dbg ns f (.setAttributes base len attrs) = some (.ok (), m') ∧ m'.refusals = m.refusals ∧ MemOk ns m' ∧ Sync m' ∧
      m'.gcd.max = m.gcd.max ∧ m'.gcd.locked = m.gcd.locked ∧
      ∀ a, cellAt m'.gcd.blocks a =
        (cellAt m.gcd.blocks a).map fun c => if base ≤ a ∧ a < base + len then { c with attrs := attrs } else c := by
  have hmask' : attrs &&& PT_MASK ≠ 0 := by rw [ptMask]; exact hmask
  obtain ⟨r, m', hl, hres, hpart, hto, hex⟩ := setLoop_ok (n := len + 1) (res := .ok ()) ha hm hsy hmask' hr hroom hf hfail hd hs hpw
    (Part.refl hm.reach hm.some) hm.table exact_refl hpw.1 (by omega) (by omega) (Or.inl rfl)
  have hok : m.step dbg ns f (.setAttributes base len attrs) = some (.ok (), m') := by
    simp only [Mem.step, Mem.coreSetAttributes, setAttributes_eq (hm.lt hr), hl]
    rcases hres with h | ⟨h, _⟩
    · subst h; rfl
    · subst h
      have o := setLoop_onward ha hm.reach hm.some hm.table hr (Nat.le_refl _) hl (by simp)
      have := (reachable_inv o.later.reach).inv.pos
      simp only [if_pos (show m'.gcd.max ≠ 0 by omega)]
  exact ⟨m', hok, hpart.refusals, ⟨hpart.later.reach, hpart.later.some hm.some, hto, by rw [hpart.dflt]; exact hm.dflt⟩,
    sync_part hm.reach hsy hpart hmask', hpart.later.max, hpart.later.locked, hex⟩

end Verif.Paging
