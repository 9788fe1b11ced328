import Verif.Pages.Model
import Verif.Alloc.PagesCore
/-!
Model of the core's memory manager, `patina_dxe_core/src/memory_manager.rs` lines 37-85 and 194-211, on top of the page services of the core,
and what it returns (C91).
-/
namespace Verif.Pages
open Verif.Alloc Verif.Gcd

/-- `allow_allocations_for_type`, lines 194-211. A type is its number; `EfiMemoryType` has no value for 16 to 0x6FFFFFFF
(sdk/patina/src/efi_types.rs lines 73-97). -/
def typeAllowed (t : Nat) : Bool := decide (t ≤ 6) || decide (9 ≤ t ∧ t ≤ 12) || decide (0x70000000 ≤ t)

/-- The kind of the allocation and the address it is given, lines 46-61; `none` for an address that is not a multiple of the alignment. -/
def request (o : Options) : Option (Nat × Nat) :=
  match o.strategy with
  | .any => some (0, 0)
  | .address a => if a % o.alignment ≠ 0 then none else some (2, a)
  | .maxAddress a => some (1, a)

/-- Lines 66-75. -/
def wrapAllocation {H : Heap} (pages : Nat) : Outcome EfiError Nat × Alloc.World H → Outcome MemErr Range × Alloc.World H
  | (.ok a, w) => match Range.new a pages with
    | .ok r => (.ok r, w)
    | _ => (.err .internalError, w)
  | (.err .outOfResources, w) => (.err .noAvailableMemory, w)
  | (.err _, w) => (.err .internalError, w)
  | (.panic, w) => (.panic, w)

/-- `CoreMemoryManager::allocate_pages`, lines 38-76. The handle is the one `handle_for_memory_type` gives for the type. -/
def managerAllocate (E : Env) (dbg : Bool) (rtGran : Nat) (w : Alloc.World E.H) (handle pages : Nat) (o : Options) : Outcome MemErr Range × Alloc.World E.H :=
  if typeAllowed o.memoryType then
    if !Base.isPowerOfTwo o.alignment || o.alignment &&& 0xFFF != 0 then (.err .invalidAlignment, w)
    else match request o with
      | none => (.err .unalignedAddress, w)
      | some (kind, m) => wrapAllocation pages (coreAllocatePages E dbg rtGran w kind o.memoryType handle pages (some m) (some o.alignment))
  else (.err .unsupportedMemoryType, w)

/-- Lines 80-84. -/
def wrapFree {H : Heap} : Outcome EfiError Unit × Alloc.World H → Outcome MemErr Unit × Alloc.World H
  | (.ok _, w) => (.ok (), w)
  | (.err .notFound, w) => (.err .invalidAddress, w)
  | (.err _, w) => (.err .internalError, w)
  | (.panic, w) => (.panic, w)

/-- `CoreMemoryManager::free_pages`, lines 78-85. -/
def managerFree {H : Heap} (dbg : Bool) (w : Alloc.World H) (a pages : Nat) : Outcome MemErr Unit × Alloc.World H := wrapFree (coreFreePages dbg w a pages)

variable {E : Env} {w w' : Alloc.World E.H} {h : History}

/-! ### Specification -/

/-- The memory types the documentation of the service lets a component allocate: all but conventional, unusable, processor code, persistent and
unaccepted memory. -/
def Allocatable (t : Nat) : Prop := t ∉ [7, 8, 13, 14, 15]

/-- The number is that of a memory type. -/
def IsType (t : Nat) : Prop := t < 16 ∨ 0x70000000 ≤ t ∧ t < 2 ^ 32

/-- A page aligned power of two. -/
def GoodAlignment (al : Nat) : Prop := ∃ k, 12 ≤ k ∧ al = 2 ^ k

/-! ### Proofs -/

theorem typeAllowed_iff {t : Nat} (ht : IsType t) : typeAllowed t = true ↔ Allocatable t := by
  unfold typeAllowed Allocatable IsType at *
  simp only [Bool.or_eq_true, decide_eq_true_eq, List.mem_cons, List.not_mem_nil, or_false]
  omega

theorem alignment_iff {al : Nat} : (!Base.isPowerOfTwo al || al &&& 0xFFF != 0) = false ↔ GoodAlignment al := by
  have e : al &&& 0xFFF = al % 4096 := Nat.and_two_pow_sub_one_eq_mod al 12
  rw [e]
  simp only [Bool.or_eq_false_iff, Bool.not_eq_false', bne_eq_false_iff_eq]
  rw [Base.isPowerOfTwo_iff]
  unfold GoodAlignment
  constructor
  · rintro ⟨⟨k, rfl⟩, h⟩
    refine ⟨k, Decidable.byContradiction fun hk => ?_, rfl⟩
    have h1 : 2 ^ k < 2 ^ 12 := Nat.pow_lt_pow_right (by omega) (by omega)
    rw [show (2 : Nat) ^ 12 = 4096 from rfl] at h1
    rw [Nat.mod_eq_of_lt h1] at h
    exact absurd h (by have := Nat.two_pow_pos k; omega)
  · rintro ⟨k, hk, rfl⟩
    exact ⟨⟨k, rfl⟩, Nat.mod_eq_zero_of_dvd (Nat.pow_dvd_pow 2 hk : 2 ^ 12 ∣ 2 ^ k)⟩

/-- What the manager asks of the core. -/
theorem managerAllocate_eq {dbg : Bool} {rtGran handle pages : Nat} {o : Options} (ht : IsType o.memoryType) :
    managerAllocate E dbg rtGran w handle pages o =
      open Classical in
      if ¬ Allocatable o.memoryType then (.err .unsupportedMemoryType, w)
      else if ¬ GoodAlignment o.alignment then (.err .invalidAlignment, w)
      else match request o with
        | none => (.err .unalignedAddress, w)
        | some (kind, m) => wrapAllocation pages (coreAllocatePages E dbg rtGran w kind o.memoryType handle pages (some m) (some o.alignment)) := by
  unfold managerAllocate
  have h1 := typeAllowed_iff ht
  have h2 := alignment_iff (al := o.alignment)
  by_cases ha : Allocatable o.memoryType
  · rw [if_pos (h1.2 ha), if_neg (not_not_intro ha)]
    by_cases hb : GoodAlignment o.alignment
    · rw [if_neg (by rw [h2.2 hb]; simp), if_neg (not_not_intro hb)]
    · rw [if_pos (by rw [← Bool.not_eq_false, h2]; exact hb), if_pos hb]
  · rw [if_neg (by rw [h1]; exact ha), if_pos ha]

theorem wrap_ok {pages : Nat} {x : Outcome EfiError Nat × Alloc.World E.H} {r : Range} (hx : wrapAllocation pages x = (.ok r, w')) :
    x = (.ok r.addr, w') ∧ r.pages = pages ∧ r.addr ≠ 0 ∧ r.addr % 4096 = 0 ∧ pages ≠ 0 := by
  obtain ⟨y, v⟩ := x
  cases y with
  | err e => cases e <;> simp [wrapAllocation] at hx
  | panic => simp [wrapAllocation] at hx
  | ok a =>
    unfold wrapAllocation Range.new at hx
    by_cases h1 : a = 0
    · simp [h1] at hx
    · by_cases h2 : a % 4096 ≠ 0
      · simp [h1, h2] at hx
      · by_cases h3 : pages = 0
        · simp [h1, h2, h3] at hx
        · simp only [h1, h2, h3, if_false, Prod.mk.injEq, Outcome.ok.injEq] at hx
          obtain ⟨rfl, rfl⟩ := hx
          exact ⟨rfl, rfl, h1, by simpa using h2, h3⟩

/-- C91: an allocation has the pages asked for, is aligned and placed as asked, and has no byte in common with anything else that is given out.
It is allocated to the allocator of its memory type, with the pages that come from rounding up to the granularity of the type. Memory is not
written. -/
theorem manager_allocates (hE : EnvOk E) (hp : Possible E (w, h)) {rtGran : Nat} (hrt : GranOk rtGran) (hgr : w.Grained rtGran) (hd : w.Distinct)
    (hh : w.Handles) {handle pages : Nat} {o : Options} (h0 : handle ≠ 0) (ht : IsType o.memoryType) (hal : o.alignment < W)
    (hm : ∀ a, o.strategy = .address a ∨ o.strategy = .maxAddress a → a < W)
    (hfresh : (∀ f ∈ w.fsbs, f.memType ≠ o.memoryType) → ∀ f ∈ w.fsbs, f.handle ≠ handle) (hsz : pages * 4096 + rtGran < W) {dbg : Bool} {r : Range}
    (hx : managerAllocate E dbg rtGran w handle pages o = (.ok r, w')) :
    Allocatable o.memoryType ∧ GoodAlignment o.alignment ∧ r.pages = pages ∧ 0 < pages ∧ r.addr ≠ 0 ∧ r.addr % o.alignment = 0 ∧
      (∀ a, o.strategy = .address a → r.addr = a) ∧ (∀ a, o.strategy = .maxAddress a → r.addr + r.pages * 4096 ≤ a + 1) ∧
      ∃ (n i : Nat) (f : Fsb E.H) (sp : List Span), pages ≤ n ∧ (¬ Persists o.memoryType → n = pages) ∧
        (Persists o.memoryType → Base.IsRoundUp pages (rtGran / 4096) n ∧ r.addr % rtGran = 0) ∧
        (∀ x ∈ h.grants, ¬ Overlap x.ptr x.layout.size r.addr (n * 4096)) ∧ (∀ s ∈ h.spans, ¬ Overlap s.base s.len r.addr (n * 4096)) ∧
        w'.fsbs[i]? = some f ∧ f.memType = o.memoryType ∧ Live w'.gcd r.addr (n * 4096) f.handle ∧ w'.mem = w.mem ∧
        Steps E (w, h) (w', ⟨h.grants, sp⟩) ∧ (∀ s ∈ h.spans, s ∈ sp) ∧ (⟨f.handle, r.addr, n * 4096⟩ : Span) ∈ sp ∧
        w'.Grained rtGran ∧ w'.Distinct ∧ w'.Handles := by
  rw [managerAllocate_eq ht] at hx
  by_cases ha : Allocatable o.memoryType
  · by_cases hb : GoodAlignment o.alignment
    · rw [if_neg (not_not_intro ha), if_neg (not_not_intro hb)] at hx
      have hreq : ∃ kind m, request o = some (kind, m) ∧ m < W ∧ (∀ a, o.strategy = .address a → kind = 2 ∧ m = a) ∧
          (∀ a, o.strategy = .maxAddress a → kind = 1 ∧ m = a) := by
        unfold request at hx ⊢
        cases hs : o.strategy with
        | any => exact ⟨0, 0, rfl, by decide, by simp, by simp⟩
        | address a =>
          simp only [hs] at hx ⊢
          by_cases hz : a % o.alignment = 0
          · exact ⟨2, a, by simp [hz], hm a (.inl hs), by simp, by simp⟩
          · simp [hz] at hx
        | maxAddress a => exact ⟨1, a, rfl, hm a (.inr hs), by simp, by simp⟩
      obtain ⟨kind, m, hr1, hr2, hr3, hr4⟩ := hreq
      rw [hr1] at hx
      obtain ⟨k1, k2, k3, k4, k5⟩ := wrap_ok hx
      have halok : ∀ al, some o.alignment = some al → AlignOk al := by
        intro al he
        injection he with he
        subst he
        obtain ⟨k, hk, he⟩ := hb
        refine ⟨k, Decidable.byContradiction fun hn => ?_, he⟩
        have : 2 ^ 64 ≤ 2 ^ k := Nat.pow_le_pow_right (by omega) (by omega)
        unfold W at hal
        omega
      obtain ⟨n, i, f, sp, c1, c2, c3, c4, c5, c6, c7, c8, c9⟩ := coreAllocatePages_ok hE hp hrt hgr hd hh h0 hr2 hfresh halok hsz k1
      refine ⟨ha, hb, k2, by omega, k3, c1.aligned _ rfl, ?_, ?_, n, i, f, sp, c1.enough, c1.exact, fun hq => ⟨c1.rounded hq, c1.unit hq⟩, c3, c4, c5, c6, c7, c8, c9⟩
      · intro a hs
        obtain ⟨e1, e2⟩ := hr3 a hs
        have := c1.place
        omega
      · intro a hs
        obtain ⟨e1, e2⟩ := hr4 a hs
        have := c1.place
        have h1 := c1.enough
        have h2 : r.pages * 4096 ≤ n * 4096 := Nat.mul_le_mul_right _ (by omega)
        omega
    · rw [if_neg (not_not_intro ha), if_pos hb] at hx
      simp at hx
  · rw [if_pos ha] at hx
    simp at hx

/-- C91: no allocation of the core is lost on the way: if the core allocated, the component gets it. -/
theorem manager_keeps (hE : EnvOk E) (hp : Possible E (w, h)) {rtGran : Nat} (hrt : GranOk rtGran) (hgr : w.Grained rtGran) (hd : w.Distinct)
    (hh : w.Handles) {handle pages kind m a : Nat} {o : Options} (h0 : handle ≠ 0) (hal : AlignOk o.alignment) (hm : m < W)
    (hfresh : (∀ f ∈ w.fsbs, f.memType ≠ o.memoryType) → ∀ f ∈ w.fsbs, f.handle ≠ handle) (hsz : pages * 4096 + rtGran < W) {dbg : Bool}
    (hx : coreAllocatePages E dbg rtGran w kind o.memoryType handle pages (some m) (some o.alignment) = (.ok a, w')) :
    wrapAllocation pages (coreAllocatePages E dbg rtGran w kind o.memoryType handle pages (some m) (some o.alignment)) = (.ok ⟨a, pages⟩, w') := by
  obtain ⟨n, i, f, sp, c1, c2, _⟩ := coreAllocatePages_ok hE hp hrt hgr hd hh h0 hm hfresh (by intro al he; injection he with he; subst he; exact hal) hsz hx
  rw [hx]
  have hpz : pages ≠ 0 := by
    rintro rfl
    by_cases hq : Persists o.memoryType
    · have h1 := (c1.rounded hq).2.2 0 (Nat.dvd_zero _) (Nat.le_refl _)
      omega
    · have := c1.exact hq; omega
  have hnew : Range.new a pages = .ok ⟨a, pages⟩ := by
    unfold Range.new
    rw [if_neg c1.nonzero, if_neg (by have := c1.page; simpa using this), if_neg hpz]
  unfold wrapAllocation
  simp only [hnew]

/-- C91: which error comes of what. Nothing is changed by the first three. -/
theorem manager_refuses {dbg : Bool} {rtGran handle pages : Nat} {o : Options} (ht : IsType o.memoryType) :
    (¬ Allocatable o.memoryType → managerAllocate E dbg rtGran w handle pages o = (.err .unsupportedMemoryType, w)) ∧
    (Allocatable o.memoryType → ¬ GoodAlignment o.alignment → managerAllocate E dbg rtGran w handle pages o = (.err .invalidAlignment, w)) ∧
    (Allocatable o.memoryType → GoodAlignment o.alignment → ∀ a, o.strategy = .address a → a % o.alignment ≠ 0 →
      managerAllocate E dbg rtGran w handle pages o = (.err .unalignedAddress, w)) ∧
    (∀ e, managerAllocate E dbg rtGran w handle pages o = (.err e, w') → Allocatable o.memoryType → GoodAlignment o.alignment →
      (∀ a, o.strategy = .address a → a % o.alignment = 0) →
      e = .noAvailableMemory ∧ (∃ kind m, coreAllocatePages E dbg rtGran w kind o.memoryType handle pages (some m) (some o.alignment) = (.err .outOfResources, w')) ∨
      e = .internalError) := by
  rw [managerAllocate_eq ht]
  refine ⟨fun h => by rw [if_pos h], fun h1 h2 => by rw [if_neg (not_not_intro h1), if_pos h2], fun h1 h2 a h3 h4 => ?_, fun e hx h1 h2 h3 => ?_⟩
  · rw [if_neg (not_not_intro h1), if_neg (not_not_intro h2)]
    unfold request
    rw [h3]
    simp [h4]
  · rw [if_neg (not_not_intro h1), if_neg (not_not_intro h2)] at hx
    have hreq : ∃ kind m, request o = some (kind, m) := by
      unfold request
      cases hs : o.strategy with
      | any => exact ⟨_, _, rfl⟩
      | address a => exact ⟨2, a, by simp [h3 a hs]⟩
      | maxAddress a => exact ⟨_, _, rfl⟩
    obtain ⟨kind, m, hr⟩ := hreq
    rw [hr] at hx
    simp only at hx
    rcases hc : coreAllocatePages E dbg rtGran w kind o.memoryType handle pages (some m) (some o.alignment) with ⟨y, v⟩
    rw [hc] at hx
    cases y with
    | ok a =>
      unfold wrapAllocation at hx
      simp only at hx
      split at hx
      · simp at hx
      · simp only [Prod.mk.injEq, Outcome.err.injEq] at hx
        exact .inr hx.1.symm
    | panic => simp [wrapAllocation] at hx
    | err e' =>
      by_cases hoor : e' = .outOfResources
      · subst hoor
        simp only [wrapAllocation, Prod.mk.injEq, Outcome.err.injEq] at hx
        obtain ⟨rfl, rfl⟩ := hx
        exact .inl ⟨rfl, kind, m, hc⟩
      · right
        cases e' <;> simp_all [wrapAllocation]

/-! ### Freeing -/

/-- The count of pages is rounded up first. -/
theorem freePages_round {H : Heap} {s : Machine H} {dbg : Bool} {a p n : Nat} (hg : GranOk s.fsb.gran) (hp : p < W) (hr : Base.IsRoundUp p (s.fsb.gran / 4096) n)
    (hn : n < W) : Machine.freePages dbg s a p = Machine.freePages dbg s a n := by
  have key : ∀ q, q < W → Base.IsRoundUp q (s.fsb.gran / 4096) n → Base.alignUp 64 q (sizeToPages s.fsb.gran) = .ok n := by
    intro q hq hrq
    obtain ⟨k, k1, k2, hk⟩ := hg
    have e : 2 ^ k / 4096 = 2 ^ (k - 12) := by
      have : 2 ^ k = 2 ^ (k - 12) * 4096 := by
        rw [show (4096 : Nat) = 2 ^ 12 from rfl, ← Nat.pow_add]; congr 1; omega
      rw [this, Nat.mul_div_cancel _ (by omega)]
    rw [hk, e] at hrq
    rw [hk, sizeToPages_gran k1]
    obtain ⟨r, hr', he⟩ := (Base.alignUp_spec 64 q (2 ^ (k - 12)) (by unfold W at hq; omega)).1 ⟨_, rfl⟩
    have : r = n := Nat.le_antisymm (hr'.2.2 n hrq.1 hrq.2.1) (hrq.2.2 r hr'.1 hr'.2.1)
    subst this
    rw [he, if_pos (by unfold W at hn; omega)]
  have h1 := key p hp hr
  have h2 := key n hn ⟨hr.1, Nat.le_refl _, fun m _ h => h⟩
  unfold Machine.freePages Machine.givePages
  have e1 : ({ s with fsb := s.fsb.countPageFree } : Machine H).fsb.gran = s.fsb.gran := rfl
  rw [e1, h1, h2]

/-- C91: pages that were given out can be freed with the count they were asked for: all pages that came from rounding up are free again, and
nothing else is. (The conditions are those of the GCD: room in its table, and read protection among the capabilities of the memory.) -/
theorem manager_frees (hr : Reachable E.gcdNode w.gcd) (hul : w.gcd.locked = false) {rtGran : Nat} (hrt : GranOk rtGran) (hgr : w.Grained rtGran)
    (hh : w.Handles) {r : Range} {n i : Nat} {f : Fsb E.H} (hf : w.fsbs[i]? = some f) (ha : r.addr % f.gran = 0)
    (hn : Base.IsRoundUp r.pages (f.gran / 4096) n)
    (hsz : r.addr + n * 4096 < W) {c : Cell} (hu : Uniform w.gcd.blocks r.addr (n * 4096) c) (hca : c.allocated = true) (hci : c.image = f.handle)
    (hroom : w.gcd.blocks.length + 4 ≤ 4096) (hrp : c.caps.testBit 13 = true) (hpos : 0 < n) :
    ∃ w' c', managerFree false w r.addr r.pages = (.ok (), w') ∧ w'.mem = w.mem ∧ c'.allocated = false ∧
      (f.Reserves r.addr → c'.image = f.handle) ∧ (¬ f.Reserves r.addr → c'.image = 0) ∧ Updated w.gcd.blocks w'.gcd.blocks r.addr (n * 4096) c' := by
  have hgf := grained_gran hrt hgr f (List.mem_of_getElem? hf)
  have hle : r.pages ≤ n := hn.2.1
  have hpW : r.pages < W := by omega
  have hnW : n < W := by omega
  have hsW : n * 4096 < W := by omega
  have hnm : n % (f.gran / 4096) = 0 := Nat.mod_eq_zero_of_dvd hn.1
  obtain ⟨s', hx⟩ := freePages_succeeds hr hul hgf hnW ha hnm hsW hu hca hci hroom hrp
  have hxp : Machine.freePages false (w.machine f) r.addr r.pages = (.ok (), s') := by
    rw [freePages_round (s := w.machine f) hgf hpW hn hnW]; exact hx
  have hrd : ∀ m, Base.IsRoundUp r.pages (f.gran / 4096) m → m = n := fun m hm =>
    Nat.le_antisymm (hm.2.2 n hn.1 hn.2.1) (hn.2.2 m hm.1 hm.2.1)
  obtain ⟨h1, _, m, c1, h3, h4, h5, h6, h7, c', h8, h9, h10, h11⟩ := freePages_ok hr hul hgf hpW (fun m hm => by rw [hrd m hm]; exact hsW) hxp
  have := hrd m h3
  subst this
  have ha4 : r.addr % 4096 = 0 := by
    obtain ⟨k, k1, k2, hk⟩ := hgf
    rw [hk] at ha
    exact Nat.mod_eq_zero_of_dvd (Nat.dvd_trans (Nat.pow_dvd_pow 2 k1 : 2 ^ 12 ∣ 2 ^ k) (Nat.dvd_of_mod_eq_zero ha))
  have hl : Live w.gcd r.addr 1 f.handle := by
    intro x x1 x2
    exact ⟨c, hu.2 x x1 (by omega), hca, hci⟩
  obtain ⟨w', m1, m2, m3, _⟩ := freePagesAny_owner hr hh hpW hf hl hxp
  have hle2 : r.pages * 4096 ≤ m * 4096 := Nat.mul_le_mul_right _ hle
  rw [← coreFreePages_eq ha4 (Nat.lt_of_le_of_lt (Nat.add_le_add_left hle2 _) hsz)] at m1
  refine ⟨w', c', ?_, m3.trans h1, h8, h9, h10, by rw [m2]; exact h11⟩
  unfold managerFree wrapFree
  rw [m1]

/-- C91: pages that are not whole, or go past the end of the address space, are an internal error; pages that no allocator gave out are an invalid
address. Nothing changes. -/
theorem manager_free_refuses {dbg : Bool} {a pages : Nat} :
    (a % 4096 ≠ 0 ∨ W ≤ a + pages * 4096 → managerFree dbg w a pages = (.err .internalError, w)) ∧
    (∀ k, Reachable E.gcdNode w.gcd → a % 4096 = 0 → a + pages * 4096 < W → Live w.gcd a 1 k → (∀ f ∈ w.fsbs, f.handle ≠ k) →
      ∃ w', managerFree dbg w a pages = (.err .invalidAddress, w') ∧ w'.gcd = w.gcd ∧ w'.mem = w.mem) := by
  refine ⟨fun hbad => ?_, fun k hr ha hsz hl hk => ?_⟩
  · unfold managerFree wrapFree
    rw [coreFreePages_invalid hbad]
  · obtain ⟨w', h1, h2, h3⟩ := coreFreePages_foreign (dbg := dbg) hr ha hsz hl hk
    refine ⟨w', ?_, h2, h3⟩
    unfold managerFree wrapFree
    rw [h1]

end Verif.Pages
