import Verif.Gcd.RangeProps
/-!
C19 and C20: what an allocation returns, that live allocations never overlap, and that allocation does not fail, or choose
another address, when a better range is free.
-/
namespace Verif.Gcd

variable {nodeSize : Nat} {g g' : Gcd} {ty : MemType} {shift len image addr : Nat} {device : Option Nat}

/-- The arguments are in range. -/
def ReqOk (at_ : AllocType) (shift len : Nat) : Prop :=
  Op.InRange (.allocate at_ .systemMemory shift len 0 none)

theorem reqOk_addr {at_ : AllocType} (h : ReqOk at_ shift len) : ∀ a, at_ = .address a → a < W := by
  intro a ha
  have := h.2.2
  rw [ha] at this
  exact this

/-- C19: a successful allocation returns an aligned address inside the limits of the request (and never 0, unless 0 was asked
for); the range was existing, unallocated memory of the type, not kept by another owner (unless asked for by address);
afterwards exactly that range is allocated to the caller. -/
theorem allocate_ok (hr : Reachable nodeSize g) {at_ : AllocType} (hq : ReqOk at_ shift len)
    (h : g.allocate at_ ty shift len image device = (.ok addr, g')) :
    addr % 2 ^ shift = 0 ∧ at_.Admits addr len ∧ (at_.chooses = true → addr ≠ 0) ∧ g.locked = false ∧ image ≠ 0 ∧
    ∃ c, Uniform g.blocks addr len c ∧ c.allocated = false ∧ c.type = ty ∧ ty ≠ .nonExistent ∧ ty ≠ .unaccepted ∧
      (at_.chooses = true → c.image = 0 ∨ c.image = image) ∧
      Updated g.blocks g'.blocks addr len { c with allocated := true, image := image, device := device.getD c.device } ∧
      SameBut g g' := by
  have he := allocate_spec (at_ := at_) (ty := ty) (image := image) (device := device) (reachable_inv hr).inv hq.2.1 hq.1 (reqOk_addr hq)
  rw [h] at he
  have hlk : g.locked = false := by
    cases hx : g.locked with
    | false => rfl
    | true =>
      unfold Gcd.allocate at h
      rw [if_pos hx] at h
      injection h with h; cases h
  cases he with
  | ok _ c _ a1 a2 a3 a4 a5 a6 a7 a8 a9 a10 a11 =>
    obtain ⟨b1, b2, b3, b4, d, b5, b6⟩ := a7
    have hd := uniform_unique b5 a2
    subst hd
    exact ⟨b1, b2, b4, hlk, by omega, d, a2, a3, b6, b6 ▸ a4, b6 ▸ a5, a6, a8, a9⟩

/-- A failed allocation changes nothing. -/
theorem allocate_err (hr : Reachable nodeSize g) {at_ : AllocType} (hq : ReqOk at_ shift len) {e : EfiError}
    (h : g.allocate at_ ty shift len image device = (.err e, g')) : g' = g := by
  have he := allocate_spec (at_ := at_) (ty := ty) (image := image) (device := device) (reachable_inv hr).inv hq.2.1 hq.1 (reqOk_addr hq)
  rw [h] at he
  cases he with
  | err er _ => rfl

theorem allocate_no_panic (hr : Reachable nodeSize g) {at_ : AllocType} (hq : ReqOk at_ shift len) :
    (g.allocate at_ ty shift len image device).1 ≠ .panic := by
  have he := allocate_spec (at_ := at_) (ty := ty) (image := image) (device := device) (reachable_inv hr).inv hq.2.1 hq.1 (reqOk_addr hq)
  revert he
  generalize g.allocate at_ ty shift len image device = r
  intro he
  cases he <;> simp

/-! ### Live allocations -/

theorem live_update {c c' : Cell} {base n lo sz im : Nat} (hl : Live g lo sz im) (hu : Uniform g.blocks base n c)
    (hup : Updated g.blocks g'.blocks base n c') (hc : c.allocated = true → c'.allocated = true ∧ c'.image = c.image) :
    Live g' lo sz im := by
  intro a h1 h2
  obtain ⟨x, hx, hx1, hx2⟩ := hl a h1 h2
  rw [hup a]
  by_cases ha : base ≤ a ∧ a < base + n
  · rw [if_pos ha]
    have := hu.2 a ha.1 ha.2
    rw [hx] at this
    injection this with this
    subst this
    have := hc hx1
    exact ⟨c', rfl, this.1, this.2.trans hx2⟩
  · rw [if_neg ha]; exact ⟨x, hx, hx1, hx2⟩

theorem live_disjoint {c' : Cell} {base n lo sz im : Nat} (hl : Live g lo sz im)
    (hup : Updated g.blocks g'.blocks base n c') (hno : ¬ Overlap lo sz base n) : Live g' lo sz im := by
  intro a h1 h2
  obtain ⟨x, hx⟩ := hl a h1 h2
  rw [hup a, if_neg (fun ha => hno ⟨a, h1, h2, ha.1, ha.2⟩)]
  exact ⟨x, hx⟩

theorem live_effect {base n lo sz im : Nat} {tr : Cell → Option Cell} {r : Ret Unit} (hl : Live g lo sz im)
    (he : Effect g base n tr r) (ht : ∀ c c', tr c = some c' → c.allocated = true → c'.allocated = true ∧ c'.image = c.image) :
    Live r.2 lo sz im := by
  cases he with
  | err er => exact hl
  | ok c c' g' h1 h2 h3 h4 h5 h6 => exact live_update hl h2 h4 (ht c c' h3)

/-- A call leaves an allocation alone, unless it is a free of a range that overlaps it. -/
theorem live_step {lo sz im : Nat} (hr : Reachable nodeSize g) (hsz : 0 < sz) (hl : Live g lo sz im) {op : Op} (ho : op.InRange)
    (hfree : ∀ b n p, op = .free b n p → ¬ Overlap lo sz b n) : Live (g.step nodeSize op) lo sz im := by
  have hi := (reachable_inv hr).inv
  cases op with
  | add ty base len caps =>
    have hne : g.blocks ≠ [] := by
      intro h
      obtain ⟨x, hx, _⟩ := hl lo (Nat.le_refl _) (by omega)
      rw [h] at hx; cases hx
    simp only [Gcd.step]
    rw [add_eq (cap_of_ne hr hne)]
    refine live_effect hl (addSpace_effect hi ho.2.1) fun c c' h ha => ?_
    rw [(addTr_some h).1] at ha; cases ha
  | remove base len =>
    refine live_effect hl (removeSpace_effect hi ho.2) fun c c' h ha => ?_
    rw [(removeTr_some h).1] at ha; cases ha
  | allocate at_ ty shift len image device =>
    have he := allocate_spec (at_ := at_) (ty := ty) (image := image) (device := device) hi ho.2.1 ho.1 fun a ha => by
      have := ho.2.2
      rw [ha] at this
      exact this
    show Live (g.allocate at_ ty shift len image device).2 lo sz im
    revert he
    generalize g.allocate at_ ty shift len image device = r
    intro he
    cases he with
    | err er _ => exact hl
    | ok addr c g' a1 a2 a3 a4 a5 a6 a7 a8 a9 a10 a11 =>
      exact live_update hl a2 a8 fun ha => by rw [a3] at ha; cases ha
  | free base len preserve =>
    show Live (g.freeSpace base len preserve).2 lo sz im
    unfold Gcd.freeSpace
    split
    · exact hl
    · have he := freeWorker_spec (base := base) (preserve := preserve) hi ho.2
      have hno := hfree base len preserve rfl
      revert he
      generalize g.freeWorker base len preserve = r
      intro he
      cases he with
      | err er _ => exact hl
      | ok c c' g' a1 _ _ a2 a3 a4 a5 a6 a7 => exact live_disjoint hl a5 hno
      | part c c' er g' a1 _ _ a2 a3 a4 _ a5 a6 a7 => exact live_disjoint hl a5 hno
  | setAttributes base len attrs =>
    refine live_effect hl (setAttributes_effect hi ho.2.1) fun c c' h ha => ?_
    rw [(attrTr_some h).2.2]; exact ⟨ha, rfl⟩
  | setCapabilities base len caps =>
    refine live_effect hl (setCapabilities_effect hi ho.2.1) fun c c' h ha => ?_
    rw [(capsTr_some h).2.2]; exact ⟨ha, rfl⟩
  | lock => exact hl
  | unlock => exact hl
  | prioritize32 b => exact hl

theorem reachable_run (hr : Reachable nodeSize g) {ops : List Op} (ho : ∀ op ∈ ops, Op.InRange op) :
    Reachable nodeSize (g.run nodeSize ops) := by
  obtain ⟨bits, prio, ops0, h0, rfl⟩ := hr
  refine ⟨bits, prio, ops0 ++ ops, ?_, ?_⟩
  · intro op hop
    rcases List.mem_append.1 hop with h | h
    · exact h0 op h
    · exact ho op h
  · unfold Gcd.run; rw [List.foldl_append]

theorem live_run {lo sz im : Nat} (hr : Reachable nodeSize g) (hsz : 0 < sz) (hl : Live g lo sz im) {ops : List Op}
    (ho : ∀ op ∈ ops, Op.InRange op) (hfree : ∀ b n p, Op.free b n p ∈ ops → ¬ Overlap lo sz b n) :
    Live (g.run nodeSize ops) lo sz im := by
  induction ops generalizing g with
  | nil => exact hl
  | cons op ops ih =>
    refine ih (reachable_run hr (ops := [op]) (by simpa using ho op (by simp))) ?_ (fun o h => ho o (by simp [h]))
      (fun b n p h => hfree b n p (by simp [h]))
    exact live_step hr hsz hl (ho op (by simp)) fun b n p h => hfree b n p (by simp [h])

/-- C19: an allocation stays allocated to its owner through any calls that free no part of it. -/
theorem allocation_stays (hr : Reachable nodeSize g) {at_ : AllocType} (hq : ReqOk at_ shift len)
    (h : g.allocate at_ ty shift len image device = (.ok addr, g')) {ops : List Op} (ho : ∀ op ∈ ops, Op.InRange op)
    (hfree : ∀ b n p, Op.free b n p ∈ ops → ¬ Overlap addr len b n) : Live (g'.run nodeSize ops) addr len image := by
  obtain ⟨_, _, _, _, _, c, hu, _, _, _, _, _, hup, _⟩ := allocate_ok hr hq h
  have hr' : Reachable nodeSize g' := by
    have := reachable_run hr (ops := [.allocate at_ ty shift len image device]) (by
      intro op hop
      simp only [List.mem_cons, List.not_mem_nil, or_false] at hop
      subst hop
      exact ⟨hq.1, hq.2.1, hq.2.2⟩)
    have e : g.run nodeSize [.allocate at_ ty shift len image device] = g' := by
      show (g.allocate at_ ty shift len image device).2 = g'
      rw [h]
    rw [e] at this; exact this
  refine live_run hr' hu.1 ?_ ho hfree
  intro a h1 h2
  rw [hup a, if_pos ⟨h1, h2⟩]
  exact ⟨_, rfl, rfl, rfl⟩

/-- C19: two live allocations never overlap: if one range is allocated, and later another, and no call in between frees any
part of the first, the two ranges have no address in common. -/
theorem live_allocations_disjoint (hr : Reachable nodeSize g) {at_ at2 : AllocType} (hq : ReqOk at_ shift len)
    (h : g.allocate at_ ty shift len image device = (.ok addr, g')) {ops : List Op} (ho : ∀ op ∈ ops, Op.InRange op)
    (hfree : ∀ b n p, Op.free b n p ∈ ops → ¬ Overlap addr len b n)
    {ty2 : MemType} {shift2 len2 image2 addr2 : Nat} {device2 : Option Nat} {g2 : Gcd} (hq2 : ReqOk at2 shift2 len2)
    (h2 : (g'.run nodeSize ops).allocate at2 ty2 shift2 len2 image2 device2 = (.ok addr2, g2)) :
    ¬ Overlap addr len addr2 len2 := by
  have hl := allocation_stays hr hq h ho hfree
  have hr' : Reachable nodeSize (g'.run nodeSize ops) := by
    have := reachable_run hr (ops := .allocate at_ ty shift len image device :: ops) (by
      intro op hop
      rcases List.mem_cons.1 hop with hop | hop
      · subst hop
        exact ⟨hq.1, hq.2.1, hq.2.2⟩
      · exact ho op hop)
    have e : g.run nodeSize (.allocate at_ ty shift len image device :: ops) = g'.run nodeSize ops := by
      show (g.allocate at_ ty shift len image device).2.run nodeSize ops = _
      rw [h]
    rw [e] at this; exact this
  obtain ⟨_, _, _, _, _, c, hu, hfr, _⟩ := allocate_ok hr' hq2 h2
  rintro ⟨a, a1, a2, a3, a4⟩
  obtain ⟨x, hx, hx1, _⟩ := hl a a1 a2
  have := hu.2 a a3 a4
  rw [hx] at this
  injection this with this
  rw [this, hfr] at hx1
  cases hx1

/-! ### C20: completeness and choice -/

theorem allocate_eq_up (hlk : g.locked = false) (hi : Inv g) (hp : 0 < len) (him : 0 < image) (hty : ty ≠ .unaccepted) (max : Option Nat) :
    g.allocate (.bottomUp max) ty shift len image device = g.allocUp ty shift len image device (max.getD (W - 1)) := by
  unfold Gcd.allocate
  rw [if_neg (by rw [hlk]; simp), if_neg (by have := hi.pos; omega), if_neg (fun h => h ⟨hp, him, hty⟩)]

theorem allocate_eq_down (hlk : g.locked = false) (hi : Inv g) (hp : 0 < len) (him : 0 < image) (hty : ty ≠ .unaccepted) (max : Option Nat) :
    g.allocate (.topDown max) ty shift len image device = g.allocDown ty shift len image device (max.getD (W - 1)) := by
  unfold Gcd.allocate
  rw [if_neg (by rw [hlk]; simp), if_neg (by have := hi.pos; omega), if_neg (fun h => h ⟨hp, him, hty⟩)]

/-- A range that bottom-up allocation below `max` has to take into account: a candidate outside page 0 that ends at or below
`max`; if the free block it lies in begins at address 0, it must end strictly below `max`. -/
def UpCandidate (g : Gcd) (ty : MemType) (shift len image max a : Nat) : Prop :=
  Candidate g ty shift len image a ∧ 4096 ≤ a ∧ (a + len < max ∨ (a + len = max ∧ ∀ c, ¬ Uniform g.blocks 0 (a + len) c))

theorem upCandidate_hit {max a : Nat} (h : UpCandidate g ty shift len image max a) : UpHit g ty shift len image max a := by
  obtain ⟨h1, h2, h3⟩ := h
  rcases h3 with h3 | h3
  · exact ⟨h1, h2, by omega, .inl h3⟩
  · exact ⟨h1, h2, by omega, .inr h3.2⟩

/-- C20 (bottom-up, completeness): if some range would do and the table has room, the allocation succeeds. -/
theorem bottom_up_succeeds (hr : Reachable nodeSize g) (hlk : g.locked = false) (hs : shift < 64) (hl : len < W) (him : image ≠ 0)
    (hroom : Room g) (max : Option Nat) {a : Nat} (ha : UpCandidate g ty shift len image (max.getD (W - 1)) a) :
    ∃ addr g', g.allocate (.bottomUp max) ty shift len image device = (.ok addr, g') := by
  have hi := (reachable_inv hr).inv
  obtain ⟨_, hty, c, hu, _⟩ := ha.1.free
  rw [allocate_eq_up hlk hi hu.1 (by omega) hty]
  have he := allocUp_spec (ty := ty) (image := image) (max := max.getD (W - 1)) (device := device) hi hs hu.1 hl
  revert he
  generalize g.allocUp ty shift len image device (max.getD (W - 1)) = r
  intro he
  cases he with
  | ok addr c g' => exact ⟨addr, g', rfl⟩
  | err er h =>
    have := h ⟨a, upCandidate_hit ha⟩
    unfold Room at hroom; unfold SLOTS at this; omega

/-- C20 (bottom-up, choice): no range that would do starts below the address returned. -/
theorem bottom_up_lowest (hr : Reachable nodeSize g) (hs : shift < 64) (hl : len < W) (max : Option Nat)
    (h : g.allocate (.bottomUp max) ty shift len image device = (.ok addr, g')) :
    Candidate g ty shift len image addr ∧ (∀ m, max = some m → addr + len ≤ m) ∧
      ∀ a, UpCandidate g ty shift len image (max.getD (W - 1)) a → addr ≤ a := by
  have hi := (reachable_inv hr).inv
  have hpar : g.locked = false ∧ (len > 0 ∧ image > 0 ∧ ty ≠ .unaccepted) := by
    unfold Gcd.allocate at h
    split at h
    · injection h with h; cases h
    split at h
    · injection h with h; cases h
    split at h
    · injection h with h; cases h
    · rename_i h1 _ h3
      exact ⟨by simpa using h1, Decidable.not_not.1 h3⟩
  rw [allocate_eq_up hpar.1 hi hpar.2.1 hpar.2.2.1 hpar.2.2.2] at h
  have he := allocUp_spec (ty := ty) (image := image) (max := max.getD (W - 1)) (device := device) hi hs hpar.2.1 hl
  rw [h] at he
  cases he with
  | ok _ c _ a1 a2 a3 a4 a5 a6 a7 a8 a9 a10 a11 =>
    refine ⟨a7.1, ?_, fun a ha => a11 a (upCandidate_hit ha)⟩
    rintro m rfl
    exact a7.2

/-- C20 (top-down, completeness): if some range ending at or below `max` (inclusive) would do and the table has room, the
allocation succeeds. -/
theorem top_down_succeeds (hr : Reachable nodeSize g) (hlk : g.locked = false) (hs : shift < 64) (hl : len < W) (him : image ≠ 0)
    (hroom : Room g) (max : Option Nat) {a : Nat} (ha : Candidate g ty shift len image a) (hmax : a + len - 1 ≤ max.getD (W - 1)) :
    ∃ addr g', g.allocate (.topDown max) ty shift len image device = (.ok addr, g') := by
  have hi := (reachable_inv hr).inv
  obtain ⟨_, hty, c, hu, _⟩ := ha.free
  have hp := hu.1
  rw [allocate_eq_down hlk hi hu.1 (by omega) hty]
  have he := allocDown_spec (ty := ty) (image := image) (max := max.getD (W - 1)) (device := device) hi hs hu.1 hl
  revert he
  generalize g.allocDown ty shift len image device (max.getD (W - 1)) = r
  intro he
  cases he with
  | ok addr c g' => exact ⟨addr, g', rfl⟩
  | err er h =>
    have := h ⟨a, ha, by omega⟩
    unfold Room at hroom; unfold SLOTS at this; omega

theorem topDown_result (hr : Reachable nodeSize g) (hs : shift < 64) (hl : len < W) (max : Option Nat)
    (h : g.allocate (.topDown max) ty shift len image device = (.ok addr, g')) :
    DownHit g ty shift len image (max.getD (W - 1)) addr ∧
      ∀ a, DownHit g ty shift len image (max.getD (W - 1)) a → DownBest g len (max.getD (W - 1)) addr a := by
  have hi := (reachable_inv hr).inv
  have hpar : g.locked = false ∧ (len > 0 ∧ image > 0 ∧ ty ≠ .unaccepted) := by
    unfold Gcd.allocate at h
    split at h
    · injection h with h; cases h
    split at h
    · injection h with h; cases h
    split at h
    · injection h with h; cases h
    · rename_i h1 _ h3
      exact ⟨by simpa using h1, Decidable.not_not.1 h3⟩
  rw [allocate_eq_down hpar.1 hi hpar.2.1 hpar.2.2.1 hpar.2.2.2] at h
  have he := allocDown_spec (ty := ty) (image := image) (max := max.getD (W - 1)) (device := device) hi hs hpar.2.1 hl
  rw [h] at he
  cases he with
  | ok _ c _ a1 a2 a3 a4 a5 a6 a7 a8 a9 a10 a11 => exact ⟨a7, a11⟩

/-- C20 (top-down, choice): no range that would do starts above the address returned. -/
theorem top_down_highest (hr : Reachable nodeSize g) (hs : shift < 64) (hl : len < W) (max : Option Nat) (hprio : g.prio32 = false)
    (h : g.allocate (.topDown max) ty shift len image device = (.ok addr, g')) :
    Candidate g ty shift len image addr ∧ addr + len - 1 ≤ max.getD (W - 1) ∧
      ∀ a, Candidate g ty shift len image a → a + len - 1 ≤ max.getD (W - 1) → a ≤ addr := by
  obtain ⟨h1, h2⟩ := topDown_result hr hs hl max h
  refine ⟨h1.1, by have := h1.2; omega, fun a ha hm => ?_⟩
  obtain ⟨_, _, c, hu, _⟩ := ha.free
  have hp := hu.1
  have := h2 a ⟨ha, by omega⟩
  unfold DownBest at this
  rw [if_neg (by rw [hprio]; simp)] at this
  exact this

/-- C20 (top-down, preferring 32-bit addresses): the highest range below 4 GiB is returned if there is one, and otherwise the
highest range. -/
theorem top_down_prefers_32 (hr : Reachable nodeSize g) (hs : shift < 64) (hl : len < W) (max : Option Nat)
    (hmax : 2 ^ 32 ≤ max.getD (W - 1)) (hprio : g.prio32 = true) (hroom : Room g)
    (h : g.allocate (.topDown max) ty shift len image device = (.ok addr, g')) :
    Candidate g ty shift len image addr ∧ addr + len - 1 ≤ max.getD (W - 1) ∧
      (∀ a, Candidate g ty shift len image a → a + len ≤ 2 ^ 32 → addr + len ≤ 2 ^ 32 ∧ a ≤ addr) ∧
      ((∀ a, Candidate g ty shift len image a → ¬ a + len ≤ 2 ^ 32) →
        ∀ a, Candidate g ty shift len image a → a + len - 1 ≤ max.getD (W - 1) → a ≤ addr) := by
  obtain ⟨h1, h2⟩ := topDown_result hr hs hl max h
  refine ⟨h1.1, by have := h1.2; omega, fun a ha hm => ?_, fun hno a ha hm => ?_⟩
  · have := h2 a ⟨ha, by omega⟩
    unfold DownBest at this
    rw [if_pos ⟨hprio, by omega⟩] at this
    exact this.1 hm hroom
  · obtain ⟨_, _, c, hu, _⟩ := ha.free
    have hp := hu.1
    have := h2 a ⟨ha, by omega⟩
    unfold DownBest at this
    rw [if_pos ⟨hprio, by omega⟩] at this
    exact this.2 (by have := hno addr h1.1; omega)

/-- C20 (by address): a free, aligned range of the type can be allocated by its address, even if another owner keeps it. -/
theorem by_address_succeeds (hr : Reachable nodeSize g) (hlk : g.locked = false) (hs : shift < 64) (hl : len < W) (him : image ≠ 0)
    (hroom : Room g) {c : Cell} (hu : Uniform g.blocks addr len c) (h1 : c.allocated = false) (h2 : c.type ≠ .nonExistent)
    (h3 : c.type ≠ .unaccepted) (h4 : addr % 2 ^ shift = 0) :
    ∃ g', g.allocate (.address addr) c.type shift len image device = (.ok addr, g') := by
  have hi := (reachable_inv hr).inv
  have hw := addw_le hi hu
  have hlt := uniform_lt hi hu
  unfold Gcd.allocate
  rw [if_neg (by rw [hlk]; simp), if_neg (by have := hi.pos; omega), if_neg (fun h => h ⟨hu.1, by omega, h3⟩)]
  simp only []
  rw [if_neg (by omega)]
  have he := allocAddress_spec (g := g) (ty := c.type) (image := image) (device := device) (addr := addr) hi hs hu.1 hl (by omega)
  revert he
  generalize g.allocAddress c.type shift len image device addr = r
  intro he
  cases he with
  | ok x d g' a1 a2 a3 a4 a5 a6 a7 a8 a9 a10 a11 => exact ⟨g', by rw [a7.1]⟩
  | err er h =>
    have := h ⟨addr, rfl, h4, h2, h3, c, hu, h1, rfl⟩
    unfold Room at hroom; unfold SLOTS at this; omega

/-! ### Concrete cases, and where the code falls short -/

example : (demoGcd.allocate (.bottomUp (some 0x100000)) .systemMemory 13 0x2000 5 none).1 = .ok 0x4000 ∧
    (demoGcd.allocate (.bottomUp (some 0x100000)) .systemMemory 12 0x2000 9 none).1 = .ok 0x1000 ∧
    (demoGcd.allocate (.topDown none) .systemMemory 12 0x2000 5 none).1 = .ok 0xFE000 ∧
    (demoGcd.allocate (.topDown none) .systemMemory 16 0x2000 5 none).1 = .ok 0xF0000 ∧
    (demoGcd.allocate (.address 0x2000) .systemMemory 12 0x1000 5 none).1 = .ok 0x2000 := by decide +kernel

/-- The candidates of `bottom_up_succeeds` and `top_down_succeeds` exist. -/
example : UpCandidate demoGcd .systemMemory 13 0x2000 5 0x100000 0x4000 := by
  have hb : (⟨0x4000, 0x4000, ⟨false, .systemMemory, 0x800000000002600F, 0x2008, 0, 0⟩⟩ : Block Cell) ∈ demoGcd.blocks := by
    decide +kernel
  have hg : Good demoGcd.blocks demoGcd.max := by
    rcases (reachable_inv demo_reachable).inv.map with ⟨_, h⟩ | ⟨_, h, _⟩
    · rw [h] at hb; cases hb
    · exact h
  refine ⟨⟨⟨by simp, by simp, _, holds_uniform hg.tiles hb ⟨by decide, by decide, by decide⟩, rfl, rfl, .inl rfl⟩, by decide, by omega⟩,
    by omega, .inl (by omega)⟩

/-- The bound of bottom-up allocation is off by one for a free block that begins at address 0: the range `[0x1000, 0x2000)`
ends at the limit, is free, and is refused. -/
theorem bottom_up_off_by_one :
    let g := (Gcd.start 36 false).run 1 [.add .systemMemory 0x8000 0x2000 8, .add .systemMemory 0 0x4000 8]
    Candidate g .systemMemory 12 0x1000 5 0x1000 ∧
      (g.allocate (.bottomUp (some 0x2000)) .systemMemory 12 0x1000 5 none).1 = .err .notFound := by
  intro g
  have hr : Reachable 1 g := by
    refine ⟨36, false, _, ?_, rfl⟩
    intro op hop
    simp only [List.mem_cons, List.not_mem_nil, or_false] at hop
    rcases hop with h | h <;> subst h <;> simp [Op.InRange, W]
  have hb : (⟨0, 0x4000, ⟨false, .systemMemory, 0x8000000000026008, 0x2000, 0, 0⟩⟩ : Block Cell) ∈ g.blocks := by
    decide +kernel
  have hg : Good g.blocks g.max := by
    rcases (reachable_inv hr).inv.map with ⟨_, h⟩ | ⟨_, h, _⟩
    · rw [h] at hb; cases hb
    · exact h
  refine ⟨⟨⟨by simp, by simp, _, holds_uniform hg.tiles hb ⟨by decide, by decide, by decide⟩, rfl, rfl, .inl rfl⟩, by decide, by omega⟩, ?_⟩
  decide +kernel

end Verif.Gcd
