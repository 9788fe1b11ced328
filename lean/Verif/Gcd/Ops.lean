import Verif.Gcd.Alloc
namespace Verif.Gcd

/-- The preference of top-down allocation between its result `r` and another candidate `a`. -/
def DownBest (g : Gcd) (len max r a : Nat) : Prop :=
  if g.prio32 = true ∧ max > 2 ^ 32 - 1 then
    (a + len ≤ 2 ^ 32 → g.blocks.length + 2 ≤ SLOTS → r + len ≤ 2 ^ 32 ∧ a ≤ r) ∧ (2 ^ 32 < r + len → a ≤ r)
  else a ≤ r

theorem allocDown_spec {g : Gcd} {ty : MemType} {shift len image max : Nat} {device : Option Nat} (hi : Inv g) (hs : shift < 64)
    (hp : 0 < len) (hl : len < W) :
    Alloc g len image device true (DownHit g ty shift len image max) (DownHit g ty shift len image max) (DownBest g len max)
      (g.allocDown ty shift len image device max) := by
  unfold Gcd.allocDown
  rw [if_neg (by omega)]
  have h2 := allocDownMax_spec (g := g) (ty := ty) (image := image) (max := max) (device := device) hi hs hp hl
  by_cases hpr : g.prio32 = true ∧ max > 2 ^ 32 - 1
  · rw [if_pos hpr]
    have h1 := allocDownMax_spec (g := g) (ty := ty) (image := image) (max := 2 ^ 32 - 1) (device := device) hi hs hp hl
    revert h1
    generalize g.allocDownMax ty shift len image device (2 ^ 32 - 1) = r1
    intro h1
    cases h1 with
    | ok addr c g' a1 a2 a3 a4 a5 a6 a7 a8 a9 a10 a11 =>
      simp only []
      refine .ok addr c g' a1 a2 a3 a4 a5 a6 ⟨a7.1, by have := a7.2; omega⟩ a8 a9 a10 ?_
      intro a ha
      unfold DownBest
      rw [if_pos hpr]
      refine ⟨fun hle _ => ⟨by have := a7.2; omega, a11 a ⟨ha.1, by omega⟩⟩, fun hlt => ?_⟩
      have := a7.2
      omega
    | err er he =>
      simp only []
      revert h2
      generalize g.allocDownMax ty shift len image device max = r2
      intro h2
      cases h2 with
      | err er he' => exact .err _ he'
      | ok addr c g' a1 a2 a3 a4 a5 a6 a7 a8 a9 a10 a11 =>
        refine .ok addr c g' a1 a2 a3 a4 a5 a6 a7 a8 a9 a10 ?_
        intro a ha
        unfold DownBest
        rw [if_pos hpr]
        refine ⟨fun hle hroom => ?_, fun _ => a11 a ha⟩
        have := he ⟨a, ha.1, by omega⟩
        omega
  · rw [if_neg hpr]
    revert h2
    generalize g.allocDownMax ty shift len image device max = r2
    intro h2
    cases h2 with
    | err er he' => exact .err _ he'
    | ok addr c g' a1 a2 a3 a4 a5 a6 a7 a8 a9 a10 a11 =>
      refine .ok addr c g' a1 a2 a3 a4 a5 a6 a7 a8 a9 a10 ?_
      intro a ha
      unfold DownBest
      rw [if_neg hpr]
      exact a11 a ha

/-- What is known about the result of any allocation. -/
def AllocOk (g : Gcd) (at_ : AllocType) (ty : MemType) (shift len image addr : Nat) : Prop :=
  addr % 2 ^ shift = 0 ∧ at_.Admits addr len ∧ 0 < image ∧ (at_.chooses = true → addr ≠ 0) ∧ ∃ c, Uniform g.blocks addr len c ∧ c.type = ty

theorem alloc_weaken {g : Gcd} {len image : Nat} {device : Option Nat} {respect : Bool} {ok hit ok' hit' : Nat → Prop}
    {best best' : Nat → Nat → Prop} {r : Ret Nat} (h : Alloc g len image device respect ok hit best r)
    (h1 : ∀ a, ok a → ok' a) (h2 : ∀ a, hit' a → hit a) (h3 : ∀ x a, hit' a → best x a → best' x a) :
    Alloc g len image device respect ok' hit' best' r := by
  cases h with
  | err er he => exact .err er fun ⟨a, ha⟩ => he ⟨a, h2 a ha⟩
  | ok addr c g' a1 a2 a3 a4 a5 a6 a7 a8 a9 a10 a11 =>
    exact .ok addr c g' a1 a2 a3 a4 a5 a6 (h1 addr a7) a8 a9 a10 fun a ha => h3 addr a ha (a11 a (h2 a ha))

theorem alloc_err {g : Gcd} {len image : Nat} {device : Option Nat} {respect : Bool} {ok hit : Nat → Prop}
    {best : Nat → Nat → Prop} (er : EfiError) (h : ∀ a, ¬ hit a) : Alloc g len image device respect ok hit best (.err er, g) :=
  .err er fun ⟨a, ha⟩ => absurd ha (h a)

theorem uniform_lt {g : Gcd} (hi : Inv g) {base len : Nat} {c : Cell} (hu : Uniform g.blocks base len c) : base + len < W := by
  have := (addw_le hi hu).1
  have := hi.ltW
  omega

/-- `allocate_memory_space`, whatever the request. -/
theorem allocate_spec {g : Gcd} {at_ : AllocType} {ty : MemType} {shift len image : Nat} {device : Option Nat} (hi : Inv g)
    (hs : shift < 64) (hl : len < W) (ha : ∀ a, at_ = .address a → a < W) :
    Alloc g len image device at_.chooses (AllocOk g at_ ty shift len image) (fun _ => False) (fun _ _ => True)
      (g.allocate at_ ty shift len image device) := by
  unfold Gcd.allocate
  by_cases hlock : g.locked = true
  · rw [if_pos hlock]; exact alloc_err _ fun _ h => h
  · rw [if_neg hlock, if_neg (by have := hi.pos; omega)]
    by_cases hpar : len > 0 ∧ image > 0 ∧ ty ≠ .unaccepted
    · rw [if_neg (fun h => h hpar)]
      cases at_ with
      | bottomUp max =>
        simp only []
        refine alloc_weaken (allocUp_spec (ty := ty) (image := image) (device := device) hi hs hpar.1 hl) ?_ (fun _ h => h.elim) (fun _ _ _ _ => trivial)
        rintro a ⟨⟨⟨_, _, c, hu, _, h2, _⟩, h3, h4⟩, h5⟩
        refine ⟨h3, ?_, hpar.2.1, fun _ => h4, c, hu, h2⟩
        cases max with
        | none => trivial
        | some m => exact h5
      | topDown max =>
        simp only []
        refine alloc_weaken (allocDown_spec (ty := ty) (image := image) (device := device) hi hs hpar.1 hl) ?_ (fun _ h => h.elim) (fun _ _ _ _ => trivial)
        rintro a ⟨⟨⟨_, _, c, hu, _, h2, _⟩, h3, h4⟩, h5⟩
        refine ⟨h3, ?_, hpar.2.1, fun _ => h4, c, hu, h2⟩
        cases max with
        | none => trivial
        | some m => exact h5
      | address addr =>
        simp only []
        by_cases hle : addw addr len ≤ g.max
        · rw [if_neg (fun h => h hle)]
          refine alloc_weaken (allocAddress_spec (ty := ty) (image := image) (device := device) hi hs hpar.1 hl (ha addr rfl)) ?_ (fun _ h => h.elim) (fun _ _ _ _ => trivial)
          rintro a ⟨h1, h2, h3⟩
          exact ⟨h2, h1, hpar.2.1, (fun h => by cases h), h3⟩
        · rw [if_pos hle]; exact alloc_err _ fun _ h => h
    · rw [if_pos hpar]; exact alloc_err _ fun _ h => h

/-- How a call that changes one range can end. -/
inductive Effect (g : Gcd) (base len : Nat) (tr : Cell → Option Cell) : Ret Unit → Prop
  | ok (c c' : Cell) (g' : Gcd) : g.cap = SLOTS → Uniform g.blocks base len c → tr c = some c' →
      Updated g.blocks g'.blocks base len c' → SameBut g g' → Inv g' → Effect g base len tr (.ok (), g')
  | err (er : EfiError) : Effect g base len tr (.err er, g)

theorem change_effect {g : Gcd} {base len : Nat} {tr : Cell → Option Cell} {onErr : Cell → BlockErr → EfiError} (hi : Inv g)
    (hl : len < W) : Effect g base len tr (g.change base len tr onErr) := by
  rcases change_cases (g := g) (base := base) (tr := tr) (onErr := onErr) hi hl with
    ⟨c, c', g', he, h1, h2, h3, h4, h5, h6, _⟩ | ⟨er, he, _⟩
  · rw [he]; exact .ok c c' g' h1 h2 h3 h4 h5 h6
  · rw [he]; exact .err er

theorem addSpace_effect {g : Gcd} {ty : MemType} {base len caps : Nat} (hi : Inv g) (hl : len < W) :
    Effect g base len (addTr ty (addCaps ty caps) MEMORY_RP) (g.addSpace ty base len caps) := by
  unfold Gcd.addSpace
  split
  · exact .err _
  · split
    · exact .err _
    · split
      · exact .err _
      · split
        · exact .err _
        · exact change_effect hi hl

theorem removeSpace_effect {g : Gcd} {base len : Nat} (hi : Inv g) (hl : len < W) :
    Effect g base len removeTr (g.removeSpace base len) := by
  unfold Gcd.removeSpace
  split
  · exact .err _
  · split
    · exact .err _
    · split
      · exact .err _
      · exact change_effect hi hl

theorem setAttrsCore_effect {g : Gcd} {base len attrs : Nat} (hi : Inv g) (hl : len < W) :
    Effect g base len (attrTr attrs) (g.setAttrsCore base len attrs) := change_effect hi hl

theorem setAttributes_effect {g : Gcd} {base len attrs : Nat} (hi : Inv g) (hl : len < W) :
    Effect g base len (attrTr attrs) (g.setAttributes base len attrs) := by
  unfold Gcd.setAttributes
  split
  · exact .err _
  · split
    · exact .err _
    · split
      · exact .err _
      · split
        · exact .err _
        · exact setAttrsCore_effect hi hl

theorem setCapabilities_effect {g : Gcd} {base len caps : Nat} (hi : Inv g) (hl : len < W) :
    Effect g base len (capsTr caps) (g.setCapabilities base len caps) := by
  unfold Gcd.setCapabilities
  split
  · exact .err _
  · split
    · exact .err _
    · split
      · exact .err _
      · split
        · exact .err _
        · exact change_effect hi hl

theorem descriptorFor_spec {g : Gcd} (hi : Inv g) (hc : g.cap = SLOTS) (a : Nat) (ha : a < g.max) :
    ∃ b, g.descriptorFor a = .ok b ∧ b ∈ g.blocks ∧ b.base ≤ a ∧ a < b.base + b.len ∧ cellAt g.blocks a = some b.st := by
  rcases hi.map with ⟨hc', _⟩ | ⟨_, hg, _⟩
  · rw [hc] at hc'; cases hc'
  · obtain ⟨z, hz, hplug, hbase, hin, _⟩ := seek_spec (k := a) hg.tiles hi.pos
    have hm : z.cur ∈ g.blocks := by rw [← hplug]; exact mem_plug z
    refine ⟨z.cur, ?_, hm, hbase, hin ha, cellAt_mem hg.tiles hm hbase (hin ha)⟩
    unfold Gcd.descriptorFor
    rw [if_neg (by have := hi.pos; omega), hz]

/-- The attributes given to freed memory. -/
def freedAttrs (c : Cell) : Nat := MEMORY_RP ||| (c.attrs &&& CACHE_ATTRIBUTE_MASK)

/-- How a free can end: as a change of the range (freed, with new attributes); freed only; refused. -/
inductive FreeRes (g : Gcd) (base len : Nat) (preserve : Bool) : Ret Unit → Prop
  | ok (c c' : Cell) (g' : Gcd) : g.cap = SLOTS → base % 4096 = 0 → len % 4096 = 0 → Uniform g.blocks base len c →
      freeTr preserve c = some c' → (c.caps ||| freedAttrs c = c.caps) →
      Updated g.blocks g'.blocks base len { c' with attrs := freedAttrs c } → SameBut g g' → Inv g' →
      FreeRes g base len preserve (.ok (), g')
  | part (c c' : Cell) (er : EfiError) (g' : Gcd) : g.cap = SLOTS → base % 4096 = 0 → len % 4096 = 0 →
      Uniform g.blocks base len c → freeTr preserve c = some c' →
      (c.caps ||| freedAttrs c ≠ c.caps ∨ SLOTS < g'.blocks.length + 2) → g'.blocks.length ≤ g.blocks.length + 2 →
      Updated g.blocks g'.blocks base len c' → SameBut g g' → Inv g' → FreeRes g base len preserve (.err er, g')
  | err (er : EfiError) :
      (base % 4096 = 0 → len % 4096 = 0 → Accepts g base len (freeTr preserve) → SLOTS < g.blocks.length + 2) →
      FreeRes g base len preserve (.err er, g)

theorem pageMask (a : Nat) : a &&& UEFI_PAGE_MASK = a % 4096 := by
  have h : UEFI_PAGE_MASK = 2 ^ 12 - 1 := rfl
  rw [h, Nat.and_two_pow_sub_one_eq_mod]

theorem freeTr_some {preserve : Bool} {c c' : Cell} (h : freeTr preserve c = some c') :
    c.allocated = true ∧ c.type ≠ .nonExistent ∧
      c' = { c with allocated := false, image := if preserve then c.image else 0, device := 0 } := by
  unfold freeTr at h
  split at h
  · rename_i h1; injection h with h; exact ⟨h1.1, h1.2, h.symm⟩
  · cases h

theorem attrTr_some {attrs : Nat} {c c' : Cell} (h : attrTr attrs c = some c') :
    c.type ≠ .nonExistent ∧ c.caps ||| attrs = c.caps ∧ c' = { c with attrs := attrs } := by
  unfold attrTr at h
  split at h
  · split at h
    · cases h
    · rename_i h1 h2; injection h with h; exact ⟨h1, Decidable.not_not.1 h2, h.symm⟩
  · cases h

theorem freeWorker_spec {g : Gcd} {base len : Nat} {preserve : Bool} (hi : Inv g) (hl : len < W) :
    FreeRes g base len preserve (g.freeWorker base len preserve) := by
  unfold Gcd.freeWorker
  by_cases h0 : len = 0
  · rw [if_neg (by have := hi.pos; omega), if_pos h0]
    refine .err _ fun _ _ ⟨c, c', hu, _⟩ => ?_
    have := hu.1; omega
  · rw [if_neg (by have := hi.pos; omega), if_neg h0]
    by_cases h1 : addw base len ≤ g.max
    · rw [if_neg (fun h => h h1)]
      simp only [pageMask]
      by_cases h2 : base % 4096 = 0 ∧ len % 4096 = 0
      · rw [if_neg (fun h => h h2)]
        rcases change_cases (g := g) (base := base) (tr := freeTr preserve) (onErr := fun _ _ => .notFound) hi hl with
          ⟨c, c', g1, he, a1, a2, a3, a4, a5, a6, a7⟩ | ⟨er, he, a1⟩
        · simp only [he]
          have hu1 := updated_uniform (by omega : 0 < len) a4
          have hb := (addw_le hi a2).1
          obtain ⟨b, hb1, _, _, _, hb2⟩ := descriptorFor_spec a6 (a5.cap.trans a1) base (by rw [a5.max]; omega)
          rw [hu1.2 base (Nat.le_refl _) (by omega)] at hb2
          injection hb2 with hb2
          simp only [hb1, ← hb2]
          obtain ⟨f1, f2, f3⟩ := freeTr_some a3
          have hat : MEMORY_RP ||| (c'.attrs &&& CACHE_ATTRIBUTE_MASK) = freedAttrs c := by rw [f3]; rfl
          have hcaps : c'.caps = c.caps := by rw [f3]
          have hty : c'.type = c.type := by rw [f3]
          rw [hat]
          unfold Gcd.setAttrsCore
          rcases change_cases (g := g1) (base := base) (tr := attrTr (freedAttrs c)) (onErr := fun _ _ => .unsupported) a6 hl with
            ⟨d, d', g2, he', b1, b2, b3, b4, b5, b6, _⟩ | ⟨er, he', b1⟩
          · rw [he']
            have hd := uniform_unique b2 hu1
            subst hd
            obtain ⟨t1, t2, t3⟩ := attrTr_some b3
            rw [hcaps] at t2
            rw [t3] at b4
            exact .ok c d g2 a1 h2.1 h2.2 a2 a3 t2 (updated_trans a4 b4) (a5.trans b5) b6
          · rw [he']
            refine .part c c' er g1 a1 h2.1 h2.2 a2 a3 ?_ a7 a4 a5 a6
            by_cases hc : c.caps ||| freedAttrs c = c.caps
            · refine .inr (b1 ⟨c', { c' with attrs := freedAttrs c }, hu1, ?_⟩)
              unfold attrTr
              rw [if_pos (by rw [hty]; exact f2), if_neg (by rw [hcaps]; exact fun h => h hc)]
            · exact .inl hc
        · simp only [he]
          exact .err _ fun _ _ h => a1 h
      · rw [if_pos h2]
        exact .err _ fun h3 h4 _ => absurd ⟨h3, h4⟩ h2
    · rw [if_pos h1]
      refine .err _ fun _ _ ⟨c, c', hu, _⟩ => ?_
      have := addw_le hi hu
      omega

end Verif.Gcd
