import Verif.Paging.WalkBits
/-!
C65, C66: what the memory attribute protocol and the memory manager service do to the memory space and the page table.
-/
namespace Verif.Paging
open Verif.Gcd

variable {ns : Nat} {dbg : Bool} {f : Faults} {m m' : Mem} {base len attrs rounds : Nat} {upd : Nat → Nat}

theorem changed_of_wpart {upto : Nat} (h : WPart ns m m' upd base upto) : Changed upd m m' base upto where
  size := h.later.max
  memory := h.face
  pages := fun t ht => by
    obtain ⟨t', e, o, i⟩ := h.table t ht
    exact ⟨t', e, o, fun a c h1 h2 hc => by rw [i a c h1 h2 hc, ptMask]⟩
  noTable := h.noTable

/-- What holds after a change of `[base, base + len)`, whether it was reported done or not: a first part of the range was changed, all of
it if it was reported done; that part supports what it got; and the page table is in step with the memory space if it was and the
new attributes mean something to it. -/
structure WalkDone (upd : Nat → Nat) (m m' : Mem) (base len : Nat) (ok : Prop) : Prop where
  changed : ∃ upto, base ≤ upto ∧ upto ≤ base + len ∧ Changed upd m m' base upto ∧ (ok → upto = base + len) ∧
    ∀ a, base ≤ a → a < upto → ∃ c, cellAt m.gcd.blocks a = some c ∧ c.type ≠ .nonExistent ∧ c.caps ||| upd c.attrs = c.caps
  sync : Sync m → (∀ a c, base ≤ a → a < base + len → cellAt m.gcd.blocks a = some c → upd c.attrs &&& 0x2701F ≠ 0) → Sync m'

theorem walk_effect {r : Outcome WalkError Unit} (hupd : ∀ a, a < W → upd a < W) (hm : MemOk ns m) (hr : base + len ≤ m.gcd.max)
    (h : m.walk dbg f upd (base + len) rounds base = some (r, m')) (hp : r ≠ .panic) (href : m'.refusals = m.refusals) :
    (r = .ok () ∨ r = .err .set) ∧ WalkDone upd m m' base len (r = .ok ()) := by
  obtain ⟨_, hh⟩ := walk_spec hupd hm hr (WPart.refl hm.reach hm.some) hm.table (by omega) h hp href
  rcases hh with ⟨h1, h2⟩ | ⟨h1, upto, hle, h2⟩
  · refine ⟨Or.inl h1, ⟨⟨_, by omega, Nat.le_refl _, changed_of_wpart h2, fun _ => rfl, h2.supported⟩, fun hs hk => ?_⟩⟩
    exact sync_wpart hm.reach hs h2 fun a c k1 k2 k3 => by rw [ptMask]; exact hk a c k1 k2 k3
  · refine ⟨Or.inr h1, ⟨⟨_, h2.le, hle, changed_of_wpart h2, fun hok => ?_, h2.supported⟩, fun hs hk => ?_⟩⟩
    · rw [h1] at hok; cases hok
    · exact sync_wpart hm.reach hs h2 fun a c k1 k2 k3 => by rw [ptMask]; exact hk a c k1 (by omega) k3

/-! ### The memory attribute protocol -/

theorem badRequest_iff : badRequest base len attrs = false ↔
    base % 4096 = 0 ∧ len % 4096 = 0 ∧ attrs ≠ 0 ∧ attrs &&& 0x26000 = attrs := by
  have e1 : ∀ x, x &&& UEFI_PAGE_MASK = x % 4096 := fun x => by
    rw [show UEFI_PAGE_MASK = 2 ^ 12 - 1 from by decide, Nat.and_two_pow_sub_one_eq_mod]
  unfold badRequest
  rw [e1, e1, show MEMORY_ACCESS_MASK = 0x26000 from by decide]
  simp only [decide_eq_false_iff_not, ne_eq, not_or, Decidable.not_not]

/-- C65: arguments that are not whole pages, or attributes other than the three access attributes, are refused, and nothing changes. -/
theorem bad_request_refused (h : ¬ (base % 4096 = 0 ∧ len % 4096 = 0 ∧ attrs ≠ 0 ∧ attrs &&& 0x26000 = attrs)) :
    m.setMemoryAttributes dbg f rounds base len attrs = some (.err .invalidParameter, m) ∧
    m.clearMemoryAttributes dbg f rounds base len attrs = some (.err .invalidParameter, m) := by
  have : badRequest base len attrs = true := by
    cases hb : badRequest base len attrs
    · exact absurd (badRequest_iff.1 hb) h
    · rfl
  unfold Mem.setMemoryAttributes Mem.clearMemoryAttributes
  rw [if_pos this, if_pos this]
  exact ⟨rfl, rfl⟩

theorem access_lt (h : attrs &&& 0x26000 = attrs) : attrs < W := by
  rw [← h]; exact Nat.lt_of_le_of_lt Nat.and_le_right (by decide)

theorem setMemory_eq (hb : base % 4096 = 0 ∧ len % 4096 = 0 ∧ attrs ≠ 0 ∧ attrs &&& 0x26000 = attrs) (hW : base + len < W) :
    m.setMemoryAttributes dbg f rounds base len attrs = unsupportedOf (m.walk dbg f (fun a => a ||| attrs) (base + len) rounds base) := by
  unfold Mem.setMemoryAttributes addw
  rw [if_neg (by rw [badRequest_iff.2 hb]; simp), if_neg (by omega), Nat.mod_eq_of_lt hW]

theorem clearMemory_eq (hb : base % 4096 = 0 ∧ len % 4096 = 0 ∧ attrs ≠ 0 ∧ attrs &&& 0x26000 = attrs) (hW : base + len < W) :
    m.clearMemoryAttributes dbg f rounds base len attrs = unsupportedOf (m.walk dbg f (fun a => andNot a attrs) (base + len) rounds base) := by
  unfold Mem.clearMemoryAttributes addw
  rw [if_neg (by rw [badRequest_iff.2 hb]; simp), if_neg (by omega), Nat.mod_eq_of_lt hW]

theorem unsupportedOf_some {x : Option (Outcome WalkError Unit × Mem)} {r : Outcome AttrError Unit} (h : unsupportedOf x = some (r, m'))
    (hp : r ≠ .panic) : ∃ r1, x = some (r1, m') ∧ r1 ≠ .panic ∧ (r1 = .ok () ↔ r = .ok ()) ∧ (r = .ok () ∨ r = .err .unsupported) := by
  rcases x with _ | ⟨r1, m1⟩
  · cases h
  · cases r1 with
    | ok u =>
      simp only [unsupportedOf, Option.some.injEq, Prod.mk.injEq] at h
      exact ⟨_, by rw [h.2], by simp, by rw [← h.1]; simp, Or.inl h.1.symm⟩
    | err e =>
      simp only [unsupportedOf, Option.some.injEq, Prod.mk.injEq] at h
      exact ⟨_, by rw [h.2], by simp, by rw [← h.1]; simp, Or.inr h.1.symm⟩
    | panic =>
      simp only [unsupportedOf, Option.some.injEq, Prod.mk.injEq] at h
      exact absurd h.1.symm hp

/-- C65 (set): the requested access attributes are added to what every address of the range had, in the memory space and in the page
table, and nothing else changes; if an error is reported this was done for a first part of the range. The page table stays in step. -/
theorem set_memory_attributes_effect {r : Outcome AttrError Unit} (hm : MemOk ns m) (hr : base + len ≤ m.gcd.max)
    (hb : base % 4096 = 0 ∧ len % 4096 = 0 ∧ attrs ≠ 0 ∧ attrs &&& 0x26000 = attrs)
    (h : m.setMemoryAttributes dbg f rounds base len attrs = some (r, m')) (hp : r ≠ .panic) (href : m'.refusals = m.refusals) :
    (r = .ok () ∨ r = .err .unsupported) ∧ (∃ upto, base ≤ upto ∧ upto ≤ base + len ∧ (r = .ok () → upto = base + len) ∧
      Changed (fun a => a ||| attrs) m m' base upto) ∧ (Sync m → Sync m') := by
  rw [setMemory_eq hb (hm.lt hr)] at h
  obtain ⟨r1, hw, hp1, hok, hrr⟩ := unsupportedOf_some h hp
  obtain ⟨_, ⟨⟨upto, u1, u2, u3, u4, _⟩, hs⟩⟩ := walk_effect (fun a ha => or_lt ha (access_lt hb.2.2.2)) hm hr hw hp1 href
  refine ⟨hrr, ⟨upto, u1, u2, fun k => u4 (hok.2 k), u3⟩, fun k => hs k fun a c _ _ _ e => hb.2.2.1 ?_⟩
  apply Nat.eq_of_testBit_eq
  intro i
  have e2 : ((c.attrs ||| attrs) &&& 0x2701F).testBit i = false := by
    rw [e]; exact Nat.zero_testBit i
  rw [Nat.testBit_and, Nat.testBit_or] at e2
  rw [Nat.zero_testBit]
  cases hi : attrs.testBit i with
  | false => rfl
  | true =>
    have h1 : (attrs &&& 0x26000).testBit i = true := by rw [hb.2.2.2]; exact hi
    rw [Nat.testBit_and, Bool.and_eq_true] at h1
    have h2 : (0x2701F : Nat).testBit i = true := by
      rw [show (0x2701F : Nat) = 0x26000 ||| 0x101F from by decide, Nat.testBit_or, h1.2, Bool.true_or]
    rw [hi, h2, Bool.or_true, Bool.and_true] at e2
    cases e2

/-- C65 (clear): the requested access attributes are taken from what every address of the range had, in the memory space and in the
page table, and nothing else changes; if an error is reported this was done for a first part of the range. The page table stays
in step if no part of the range is left without any access and cache attribute. -/
theorem clear_memory_attributes_effect {r : Outcome AttrError Unit} (hm : MemOk ns m) (hr : base + len ≤ m.gcd.max)
    (hb : base % 4096 = 0 ∧ len % 4096 = 0 ∧ attrs ≠ 0 ∧ attrs &&& 0x26000 = attrs)
    (h : m.clearMemoryAttributes dbg f rounds base len attrs = some (r, m')) (hp : r ≠ .panic) (href : m'.refusals = m.refusals) :
    (r = .ok () ∨ r = .err .unsupported) ∧ (∃ upto, base ≤ upto ∧ upto ≤ base + len ∧ (r = .ok () → upto = base + len) ∧
      Changed (fun a => andNot a attrs) m m' base upto) ∧
    (Sync m → (∀ a c, base ≤ a → a < base + len → cellAt m.gcd.blocks a = some c → andNot c.attrs attrs &&& 0x2701F ≠ 0) → Sync m') := by
  rw [clearMemory_eq hb (hm.lt hr)] at h
  obtain ⟨r1, hw, hp1, hok, hrr⟩ := unsupportedOf_some h hp
  obtain ⟨_, ⟨⟨upto, u1, u2, u3, u4, _⟩, hs⟩⟩ := walk_effect (fun a ha => andNot_lt ha) hm hr hw hp1 href
  exact ⟨hrr, ⟨upto, u1, u2, fun k => u4 (hok.2 k), u3⟩, hs⟩

theorem unsupportedOf_none {x : Option (Outcome WalkError Unit × Mem)} (h : x ≠ none) : unsupportedOf x ≠ none := by
  rcases x with _ | ⟨r1, m1⟩
  · exact absurd rfl h
  · cases r1 <;> simp [unsupportedOf]

/-- C65: inside the memory space, the calls return. -/
theorem memory_attributes_returns (hm : MemOk ns m) (hr : base + len ≤ m.gcd.max) (hn : len < rounds) :
    m.setMemoryAttributes dbg f rounds base len attrs ≠ none ∧ m.clearMemoryAttributes dbg f rounds base len attrs ≠ none := by
  by_cases hb : base % 4096 = 0 ∧ len % 4096 = 0 ∧ attrs ≠ 0 ∧ attrs &&& 0x26000 = attrs
  · rw [setMemory_eq hb (hm.lt hr), clearMemory_eq hb (hm.lt hr)]
    exact ⟨unsupportedOf_none (walk_returns (fun a ha => or_lt ha (access_lt hb.2.2.2)) hm hr (by omega) (by omega)),
      unsupportedOf_none (walk_returns (fun a ha => andNot_lt ha) hm hr (by omega) (by omega))⟩
  · obtain ⟨h1, h2⟩ := bad_request_refused (m := m) (dbg := dbg) (f := f) (rounds := rounds) hb
    rw [h1, h2]; simp

/-- C65: the memory space refuses no part of what the range supports, if the page table does not need memory. -/
theorem memory_attributes_not_refused {r : Outcome AttrError Unit} (hm : MemOk ns m) (hr : base + len ≤ m.gcd.max)
    (hb : base % 4096 = 0 ∧ len % 4096 = 0 ∧ attrs ≠ 0 ∧ attrs &&& 0x26000 = attrs) (hpw : PageWise m.gcd base len)
    (hroom : m.gcd.blocks.length + 8 ≤ 4096) (hf : ∀ a, f.refill a = false)
    (h : (SupportsUpd m.gcd base len (fun a => a ||| attrs) ∧ m.setMemoryAttributes dbg f rounds base len attrs = some (r, m')) ∨
      (SupportsUpd m.gcd base len (fun a => andNot a attrs) ∧ m.clearMemoryAttributes dbg f rounds base len attrs = some (r, m')))
    (hp : r ≠ .panic) : m'.refusals = m.refusals := by
  rcases h with ⟨hs, h⟩ | ⟨hs, h⟩
  · rw [setMemory_eq hb (hm.lt hr)] at h
    obtain ⟨r1, hw, hp1, _⟩ := unsupportedOf_some h hp
    exact (walk_accepted (fun a ha => or_lt ha (access_lt hb.2.2.2)) (good_of hm.reach hm.some) hr hroom hf hs hpw hm rfl wexact_refl (Nat.le_refl _)
      hb.1 (by omega) hw hp1).1
  · rw [clearMemory_eq hb (hm.lt hr)] at h
    obtain ⟨r1, hw, hp1, _⟩ := unsupportedOf_some h hp
    exact (walk_accepted (fun a ha => andNot_lt ha) (good_of hm.reach hm.some) hr hroom hf hs hpw hm rfl wexact_refl (Nat.le_refl _)
      hb.1 (by omega) hw hp1).1

/-- C65 (set): setting attributes the range supports succeeds, if the page table neither needs memory nor fails. (In debug builds not
if it is read-protection that is set: see `set_read_protect_panics`.) -/
theorem set_memory_attributes_succeeds (hm : MemOk ns m) (hsync : Sync m) (hr : base + len ≤ m.gcd.max)
    (hb : base % 4096 = 0 ∧ len % 4096 = 0 ∧ attrs ≠ 0 ∧ attrs &&& 0x26000 = attrs) (hpw : PageWise m.gcd base len)
    (hroom : m.gcd.blocks.length + 8 ≤ 4096) (hf : ∀ a, f.refill a = false) (hfail : ∀ a, f.fail a = none)
    (hs : SupportsUpd m.gcd base len (fun a => a ||| attrs))
    (hd : dbg = false ∨ ∀ a c, base ≤ a → a < base + len → cellAt m.gcd.blocks a = some c → (c.attrs ||| attrs).testBit 13 = false)
    (hn : len < rounds) : ∃ m', m.setMemoryAttributes dbg f rounds base len attrs = some (.ok (), m') := by
  rw [setMemory_eq hb (hm.lt hr)]
  obtain ⟨m', h⟩ := walk_ok (dbg := dbg) (f := f) (n := rounds) (fun a ha => or_lt ha (access_lt hb.2.2.2)) hm hsync (fun a c _ _ _ e => hb.2.2.1 (by
      have : (c.attrs ||| attrs) &&& PT_MASK &&& 0x26000 = 0 := by
        have e' : (c.attrs ||| attrs) &&& PT_MASK = 0 := e
        rw [e', Nat.zero_and]
      rw [and_and_of (by decide), Nat.and_or_distrib_right, hb.2.2.2] at this
      exact (Nat.or_eq_zero_iff.1 this).2)) hr hroom hf hfail hd hs hpw
    (WPart.refl hm.reach hm.some) hm.table wexact_refl hb.1 (by omega) (by omega)
  exact ⟨m', by rw [h]; rfl⟩

/-- C65 (clear): clearing attributes of memory that supports what is left succeeds, if the page table neither needs memory nor fails. -/
theorem clear_memory_attributes_succeeds (hm : MemOk ns m) (hsync : Sync m) (hr : base + len ≤ m.gcd.max)
    (hb : base % 4096 = 0 ∧ len % 4096 = 0 ∧ attrs ≠ 0 ∧ attrs &&& 0x26000 = attrs) (hpw : PageWise m.gcd base len)
    (hroom : m.gcd.blocks.length + 8 ≤ 4096) (hf : ∀ a, f.refill a = false) (hfail : ∀ a, f.fail a = none)
    (hs : SupportsUpd m.gcd base len (fun a => andNot a attrs))
    (hleft : ∀ a c, base ≤ a → a < base + len → cellAt m.gcd.blocks a = some c → andNot c.attrs attrs &&& 0x2701F ≠ 0)
    (hd : dbg = false ∨ ∀ a c, base ≤ a → a < base + len → cellAt m.gcd.blocks a = some c → (andNot c.attrs attrs).testBit 13 = false)
    (hn : len < rounds) : ∃ m', m.clearMemoryAttributes dbg f rounds base len attrs = some (.ok (), m') := by
  rw [clearMemory_eq hb (hm.lt hr)]
  obtain ⟨m', h⟩ := walk_ok (dbg := dbg) (f := f) (n := rounds) (fun a ha => andNot_lt ha) hm hsync (fun a c k1 k2 k3 => by
      rw [ptMask]; exact hleft a c k1 k2 k3) hr hroom hf hfail hd hs hpw
    (WPart.refl hm.reach hm.some) hm.table wexact_refl hb.1 (by omega) (by omega)
  exact ⟨m', by rw [h]; rfl⟩

/-- C65 (get): what is reported are the access attributes of every address of the range; anything else than a range that is one
descriptor is refused. -/
theorem get_memory_attributes_correct {x : Nat} (hm : MemOk ns m) (hb : base < m.gcd.max) (h : m.getMemoryAttributes base len = .ok x) :
    base % 4096 = 0 ∧ len % 4096 = 0 ∧ ∀ a, base ≤ a → a < base + len → ∃ c, cellAt m.gcd.blocks a = some c ∧ x = c.attrs &&& 0x26000 := by
  have e1 : ∀ x, x &&& UEFI_PAGE_MASK = x % 4096 := fun x => by
    rw [show UEFI_PAGE_MASK = 2 ^ 12 - 1 from by decide, Nat.and_two_pow_sub_one_eq_mod]
  unfold Mem.getMemoryAttributes at h
  rw [e1, e1] at h
  by_cases hc : base % 4096 ≠ 0 ∨ len % 4096 ≠ 0
  · rw [if_pos hc] at h; cases h
  rw [if_neg hc] at h
  obtain ⟨d, hd, hmem, b1, b2, b3⟩ := descriptor_contains hm.reach hm.some hb
  rw [hd] at h
  dsimp only at h
  by_cases he : d.base ≠ base ∨ d.len ≠ len
  · rw [if_pos he] at h; cases h
  rw [if_neg he] at h
  injection h with h
  refine ⟨by omega, by omega, fun a h1 h2 => ⟨d.st, cellAt_mem (good_of hm.reach hm.some).tiles hmem (by omega) (by omega), h.symm⟩⟩

/-- C65 (get): asking does report, for a range that is one whole descriptor. -/
theorem get_memory_attributes_succeeds {c : Cell} (hm : MemOk ns m) (h1 : base % 4096 = 0) (h2 : len % 4096 = 0)
    (hu : Uniform m.gcd.blocks base len c) (hlo : base = 0 ∨ cellAt m.gcd.blocks (base - 1) ≠ some c) (hhi : cellAt m.gcd.blocks (base + len) ≠ some c) :
    m.getMemoryAttributes base len = .ok (c.attrs &&& 0x26000) := by
  have e1 : ∀ x, x &&& UEFI_PAGE_MASK = x % 4096 := fun x => by
    rw [show UEFI_PAGE_MASK = 2 ^ 12 - 1 from by decide, Nat.and_two_pow_sub_one_eq_mod]
  have hg := good_of hm.reach hm.some
  have hbnd := uniform_bounds hg.tiles hu
  have hpos := hu.1
  obtain ⟨d, hd, hmem, b1, b2, b3⟩ := descriptor_contains hm.reach hm.some (a := base) (by omega)
  obtain ⟨⟨_, w1, w2⟩, w3⟩ := uniform_holds hg hu hmem b1 b2
  subst w3
  have f1 : d.base = base := by
    apply Classical.byContradiction
    intro hne
    rcases hlo with hlo | hlo
    · omega
    · exact hlo (cellAt_mem hg.tiles hmem (by omega) (by omega))
  have f2 : d.base + d.len = base + len := by
    apply Classical.byContradiction
    intro hne
    exact hhi (cellAt_mem hg.tiles hmem (by omega) (by omega))
  unfold Mem.getMemoryAttributes
  rw [e1, e1, if_neg (by omega), hd]
  dsimp only
  rw [if_neg (by omega)]
  rfl

/-! ### The memory manager service -/

variable {address count : Nat} {access : AccessType} {caching : Option CachingType}

/-- C66: memory that is both writable and executable, and the write-protected cache type, are refused, as are addresses and counts that
are not whole pages; nothing changes. -/
theorem set_page_attributes_refused (h : access = .readWriteExecute ∨ caching = some .writeProtect ∨ count = 0 ∨ address % 4096 ≠ 0) :
    ∃ e, m.setPageAttributes dbg f rounds address count access caching = some (.err e, m) := by
  unfold Mem.setPageAttributes
  by_cases h1 : count = 0
  · rw [if_pos h1]; exact ⟨_, rfl⟩
  rw [if_neg h1]
  by_cases h2 : address % 4096 ≠ 0
  · rw [if_pos h2]; exact ⟨_, rfl⟩
  rw [if_neg h2]
  rcases h with h | h | h | h
  · subst h; exact ⟨_, rfl⟩
  · subst h
    cases access <;> exact ⟨_, rfl⟩
  · exact absurd h h1
  · exact absurd h h2

theorem setPage_eq {a : Nat} {c : Option Nat} (h1 : count ≠ 0) (h2 : address % 4096 = 0) (ha : accessAttributes access = some a)
    (hc : cacheAttributes caching = some c) (hW : address + count * 4096 < W) :
    m.setPageAttributes dbg f rounds address count access caching =
      memoryErrorOf (m.walk dbg f (newAttributes a c) (address + count * 4096) rounds address) := by
  unfold Mem.setPageAttributes addw
  rw [if_neg h1, if_neg (by omega), ha, hc]
  dsimp only
  rw [if_neg (by omega), Nat.mod_eq_of_lt hW]

theorem memoryErrorOf_some {x : Option (Outcome WalkError Unit × Mem)} {r : Outcome MemoryError Unit} (h : memoryErrorOf x = some (r, m'))
    (hp : r ≠ .panic) : ∃ r1, x = some (r1, m') ∧ r1 ≠ .panic ∧ (r1 = .ok () ↔ r = .ok ()) := by
  rcases x with _ | ⟨r1, m1⟩
  · cases h
  · cases r1 with
    | ok u =>
      simp only [memoryErrorOf, Option.some.injEq, Prod.mk.injEq] at h
      exact ⟨_, by rw [h.2], by simp, by rw [← h.1]; simp⟩
    | err e =>
      cases e <;>
        (simp only [memoryErrorOf, Option.some.injEq, Prod.mk.injEq] at h
         exact ⟨_, by rw [h.2], by simp, by rw [← h.1]; simp⟩)
    | panic =>
      simp only [memoryErrorOf, Option.some.injEq, Prod.mk.injEq] at h
      exact absurd h.1.symm hp

theorem supported_some (h : Supported access caching) : ∃ a c, accessAttributes access = some a ∧ cacheAttributes caching = some c := by
  obtain ⟨h1, h2⟩ := h
  cases access with
  | readWriteExecute => exact absurd rfl h1
  | _ =>
    cases caching with
    | none => exact ⟨_, _, rfl, rfl⟩
    | some k =>
      cases k with
      | writeProtect => exact absurd rfl h2
      | _ => exact ⟨_, _, rfl, rfl⟩

theorem gets_new {a old : Nat} {c : Option Nat} (ha : accessAttributes access = some a) (hc : cacheAttributes caching = some c) (ho : old < W) :
    Gets access caching old (newAttributes a c old) := by
  obtain ⟨a1, a2, a3, a4, _⟩ := accessAttributes_spec ha
  obtain ⟨c1, c2, c3⟩ := cacheAttributes_spec hc
  have k1 := fun x hx => (c1 x hx).1
  constructor
  · rw [← accessOf_mask, newAttributes_access ho a1 k1]; exact a4
  · intro k hk
    obtain ⟨x, hx⟩ := c3 k hk
    have := newAttributes_cache (access := a) ho a1 k1
    subst hx
    rw [← cachingOf_mask, this, (c1 x rfl).2.2, hk]
  · intro hk
    have hn := c2 hk
    subst hn
    exact newAttributes_cache (access := a) ho a1 k1
  · intro i h1 h2
    rw [newAttributes_bits ho a1 k1, h1]
    cases c with
    | none => rfl
    | some x => simp [h2]

/-- C66 (set): every page of the range gets the access that was asked for, and the cache type if one was asked for, in the memory space
and in the page table; nothing else changes. If an error is reported this was done for a first part of the range. The page table
stays in step, and no page is made both writable and executable. -/
theorem set_page_attributes_effect {r : Outcome MemoryError Unit} (hm : MemOk ns m) (hr : address + count * 4096 ≤ m.gcd.max)
    (hc : count ≠ 0) (hal : address % 4096 = 0) (hsup : Supported access caching)
    (h : m.setPageAttributes dbg f rounds address count access caching = some (r, m')) (hp : r ≠ .panic) (href : m'.refusals = m.refusals) :
    (∃ upd upto, address ≤ upto ∧ upto ≤ address + count * 4096 ∧ (r = .ok () → upto = address + count * 4096) ∧
      Changed upd m m' address upto ∧ (∀ old, old < W → Gets access caching old (upd old)) ∧
      ∀ old, old < W → (upd old).testBit 13 = true ∨ (upd old).testBit 14 = true ∨ (upd old).testBit 17 = true) ∧
    (Sync m → Sync m') := by
  obtain ⟨a, c, ha, hcc⟩ := supported_some hsup
  obtain ⟨a1, a2, a3, a4, a5⟩ := accessAttributes_spec ha
  obtain ⟨c1, c2, c3⟩ := cacheAttributes_spec hcc
  have k1 := fun x hx => (c1 x hx).1
  rw [setPage_eq hc hal ha hcc (hm.lt hr)] at h
  obtain ⟨r1, hw, hp1, hok⟩ := memoryErrorOf_some h hp
  obtain ⟨_, ⟨⟨upto, u1, u2, u3, u4, _⟩, hs⟩⟩ := walk_effect (len := count * 4096) (fun x hx => newAttributes_lt hx a3 fun y hy => (c1 y hy).2.1) hm hr hw hp1 href
  refine ⟨⟨_, upto, u1, u2, fun k => u4 (hok.2 k), u3, fun old ho => gets_new ha hcc ho, fun old ho => ?_⟩, fun k => hs k fun b d _ _ e => ?_⟩
  · rw [newAttributes_bits ho a1 k1, newAttributes_bits ho a1 k1, newAttributes_bits ho a1 k1,
      if_pos (by decide), if_pos (by decide), if_pos (by decide)]
    exact a5
  · rw [← ptMask]
    exact newAttributes_pt (reachable_wide hm.reach _ _ e) a1 a2 k1

theorem memoryErrorOf_none {x : Option (Outcome WalkError Unit × Mem)} (h : x ≠ none) : memoryErrorOf x ≠ none := by
  rcases x with _ | ⟨r1, m1⟩
  · exact absurd rfl h
  · cases r1 with
    | err e => cases e <;> simp [memoryErrorOf]
    | _ => simp [memoryErrorOf]

/-- C66: inside the memory space, setting returns. -/
theorem set_page_attributes_returns (hm : MemOk ns m) (hr : address + count * 4096 ≤ m.gcd.max) (hn : count * 4096 < rounds) :
    m.setPageAttributes dbg f rounds address count access caching ≠ none := by
  by_cases hb : count ≠ 0 ∧ address % 4096 = 0 ∧ Supported access caching
  · obtain ⟨a, c, ha, hcc⟩ := supported_some hb.2.2
    rw [setPage_eq hb.1 hb.2.1 ha hcc (hm.lt hr)]
    exact memoryErrorOf_none (walk_returns (fun x hx => newAttributes_lt hx (accessAttributes_spec ha).2.2.1 fun y hy => ((cacheAttributes_spec hcc).1 y hy).2.1)
      hm hr (by omega) (by omega))
  · have : access = .readWriteExecute ∨ caching = some .writeProtect ∨ count = 0 ∨ address % 4096 ≠ 0 := by
      apply Classical.byContradiction
      intro hh
      apply hb
      refine ⟨fun k => hh (Or.inr (Or.inr (Or.inl k))), Classical.byContradiction fun k => hh (Or.inr (Or.inr (Or.inr k))),
        fun k => hh (Or.inl k), fun k => hh (Or.inr (Or.inl k))⟩
    obtain ⟨e, he⟩ := set_page_attributes_refused (m := m) (dbg := dbg) (f := f) (rounds := rounds) this
    rw [he]; simp

/-- C66 (set): what the range supports is set, if the page table neither needs memory nor fails. (In debug builds not if it is access
that is taken away: see `no_access_twice_panics`.) -/
theorem set_page_attributes_succeeds (hm : MemOk ns m) (hsync : Sync m) (hr : address + count * 4096 ≤ m.gcd.max)
    (hc : count ≠ 0) (hal : address % 4096 = 0) (hsup : Supported access caching) (hpw : PageWise m.gcd address (count * 4096))
    (hroom : m.gcd.blocks.length + 8 ≤ 4096) (hf : ∀ a, f.refill a = false) (hfail : ∀ a, f.fail a = none)
    (hs : SupportsAccess m.gcd address (count * 4096) access caching) (hd : dbg = false ∨ access ≠ .noAccess)
    (hn : count * 4096 < rounds) :
    ∃ m', m.setPageAttributes dbg f rounds address count access caching = some (.ok (), m') ∧ m'.refusals = m.refusals := by
  obtain ⟨a, c, ha, hcc⟩ := supported_some hsup
  obtain ⟨a1, a2, a3, a4, a5⟩ := accessAttributes_spec ha
  obtain ⟨c1, c2, c3⟩ := cacheAttributes_spec hcc
  have k1 := fun x hx => (c1 x hx).1
  have hlt : ∀ x, x < W → newAttributes a c x < W := fun x hx => newAttributes_lt hx a3 fun y hy => (c1 y hy).2.1
  have hsu : SupportsUpd m.gcd address (count * 4096) (newAttributes a c) := fun x h1 h2 => by
    obtain ⟨d, e, n1, n2⟩ := hs x h1 h2
    have hw := reachable_wide hm.reach _ _ e
    exact ⟨d, e, n1, n2 _ (gets_new ha hcc hw) (hlt _ hw)⟩
  rw [setPage_eq hc hal ha hcc (hm.lt hr)]
  obtain ⟨m', h⟩ := walk_ok (dbg := dbg) (f := f) (n := rounds) hlt hm hsync (fun b d _ _ e => newAttributes_pt (reachable_wide hm.reach _ _ e) a1 a2 k1)
    hr hroom hf hfail (hd.imp id fun k b d _ _ e => by
      rw [newAttributes_bits (reachable_wide hm.reach _ _ e) a1 k1, if_pos (by decide)]
      cases access <;> first | exact absurd rfl k | (cases ha <;> decide)) hsu hpw
    (WPart.refl hm.reach hm.some) hm.table wexact_refl hal (by omega) (by omega)
  exact ⟨m', by rw [h]; rfl, (walk_accepted hlt (good_of hm.reach hm.some) hr hroom hf hsu hpw hm rfl wexact_refl (Nat.le_refl _)
      hal (by omega) h (by simp)).1⟩

/-- C66 (get): what is reported is the access and the cache type of every address of the range. -/
theorem get_page_attributes_correct {x : AccessType × CachingType} (hm : MemOk ns m) (hW : address + count * 4096 < W)
    (h : m.getPageAttributes dbg address count = .ok x) :
    ∀ a, address ≤ a → a < address + count * 4096 → ∃ c, cellAt m.gcd.blocks a = some c ∧ AccessType.ofAttributes c.attrs = x.1 ∧
      (CachingType.ofAttributes c.attrs).getD .writeBack = x.2 := by
  intro a h1 h2
  have hi := (reachable_inv hm.reach).inv
  have hg := good_of hm.reach hm.some
  obtain ⟨z, hz, hplug, hsk⟩ := seek_spec (k := address) hg.tiles hi.pos
  have hmem : z.cur ∈ m.gcd.blocks := by rw [← hplug]; unfold Zip.plug; simp
  have hend := (tiles_mem hg.tiles hmem).2.2
  have hd : m.gcd.descriptorFor address = .ok z.cur := by
    unfold Gcd.descriptorFor
    rw [if_neg (by have := hi.pos; omega), hz]
  unfold Mem.getPageAttributes at h
  by_cases c1 : count = 0
  · rw [if_pos c1] at h; cases h
  rw [if_neg c1] at h
  by_cases c2 : address % 4096 ≠ 0
  · rw [if_pos c2] at h; cases h
  rw [if_neg c2, if_neg (by omega), hd] at h
  dsimp only at h
  unfold addw at h
  rw [if_neg (by rw [Nat.mod_eq_of_lt (by omega)]; omega), Nat.mod_eq_of_lt hW, Nat.mod_eq_of_lt (by have := hi.ltW; omega)] at h
  by_cases c3 : z.cur.base + z.cur.len < address + count * 4096
  · rw [if_pos c3] at h; cases h
  rw [if_neg c3] at h
  injection h with h
  obtain ⟨d, hd', hmem', b1, b2, b3⟩ := descriptor_contains hm.reach hm.some (a := address) (by omega)
  rw [hd] at hd'; injection hd' with hd'; subst hd'
  exact ⟨_, cellAt_mem hg.tiles hmem (by omega) (by omega), by rw [← h], by rw [← h]⟩

theorem get_page_uniform {c : Cell} (hm : MemOk ns m) (hc : count ≠ 0) (hal : address % 4096 = 0) (hu : Uniform m.gcd.blocks address (count * 4096) c) :
    m.getPageAttributes dbg address count = .ok (AccessType.ofAttributes c.attrs, (CachingType.ofAttributes c.attrs).getD .writeBack) := by
  have hi := (reachable_inv hm.reach).inv
  have hg := good_of hm.reach hm.some
  have hbnd := uniform_bounds hg.tiles hu
  have hltW := hi.ltW
  obtain ⟨d, hd, hmem, b1, b2, b3⟩ := descriptor_contains hm.reach hm.some (a := address) (by omega)
  obtain ⟨⟨_, w1, w2⟩, w3⟩ := uniform_holds hg hu hmem b1 b2
  have hend := (tiles_mem hg.tiles hmem).2.2
  unfold Mem.getPageAttributes addw
  rw [if_neg hc, if_neg (by omega), if_neg (by omega), hd]
  dsimp only
  rw [if_neg (by rw [Nat.mod_eq_of_lt (by omega)]; omega), Nat.mod_eq_of_lt (by omega), Nat.mod_eq_of_lt (by omega), if_neg (by omega), w3]

/-- C66 (round trip): after access and cache type were set successfully, asking about any part of the range that was in one state before
reports what was set, if the page table does not need memory. -/
theorem set_then_get {a' n' : Nat} {k : CachingType} {c : Cell} (hm : MemOk ns m) (hr : address + count * 4096 ≤ m.gcd.max)
    (hc : count ≠ 0) (hal : address % 4096 = 0) (hsup : Supported access (some k)) (hpw : PageWise m.gcd address (count * 4096))
    (hroom : m.gcd.blocks.length + 8 ≤ 4096) (hf : ∀ a, f.refill a = false)
    (hs : SupportsAccess m.gcd address (count * 4096) access (some k))
    (h : m.setPageAttributes dbg f rounds address count access (some k) = some (.ok (), m'))
    (h1 : address ≤ a') (h2 : a' + n' * 4096 ≤ address + count * 4096) (h3 : n' ≠ 0) (h4 : a' % 4096 = 0)
    (hu : Uniform m.gcd.blocks a' (n' * 4096) c) :
    m'.getPageAttributes dbg a' n' = .ok (access, k) := by
  obtain ⟨a, cc, ha, hcc⟩ := supported_some hsup
  obtain ⟨a1, a2, a3, a4, a5⟩ := accessAttributes_spec ha
  obtain ⟨c1, c2, c3⟩ := cacheAttributes_spec hcc
  have hlt : ∀ x, x < W → newAttributes a cc x < W := fun x hx => newAttributes_lt hx a3 fun y hy => (c1 y hy).2.1
  have hsu : SupportsUpd m.gcd address (count * 4096) (newAttributes a cc) := fun x h1 h2 => by
    obtain ⟨d, e, n1, n2⟩ := hs x h1 h2
    have hw := reachable_wide hm.reach _ _ e
    exact ⟨d, e, n1, n2 _ (gets_new ha hcc hw) (hlt _ hw)⟩
  rw [setPage_eq hc hal ha hcc (hm.lt hr)] at h
  obtain ⟨r1, hw, hp1, hok⟩ := memoryErrorOf_some h (by simp)
  have hr1 : r1 = .ok () := hok.2 rfl
  subst hr1
  obtain ⟨href, hex⟩ := walk_accepted hlt (good_of hm.reach hm.some) hr hroom hf hsu hpw hm rfl wexact_refl (Nat.le_refl _)
      hal (by omega) hw hp1
  have hex := hex rfl
  obtain ⟨hto, hh⟩ := walk_spec hlt hm hr (WPart.refl hm.reach hm.some) hm.table (by omega) hw hp1 href
  have hpart : WPart ns m m' (newAttributes a cc) address (address + count * 4096) := by
    rcases hh with ⟨_, k⟩ | ⟨k, _⟩
    · exact k
    · cases k
  have hm' := wpart_ok hm hpart hto
  have hu' : Uniform m'.gcd.blocks a' (n' * 4096) { c with attrs := newAttributes a cc c.attrs } := ⟨by omega, fun b k1 k2 => by
    rw [hex b, hu.2 b k1 k2]
    simp only [Option.map_some]
    rw [if_pos (by omega)]⟩
  rw [get_page_uniform hm' h3 h4 hu']
  have hcw : c.attrs < W := reachable_wide hm.reach _ _ (hu.2 a' (Nat.le_refl _) (by omega))
  have g := gets_new ha hcc hcw
  show Outcome.ok (AccessType.ofAttributes (newAttributes a cc c.attrs), (CachingType.ofAttributes (newAttributes a cc c.attrs)).getD .writeBack) = _
  rw [g.given, g.cached k rfl]
  rfl

end Verif.Paging
