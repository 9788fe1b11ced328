import Verif.Alloc.Calls
/-!
C54: page allocations through an allocator.
-/
namespace Verif.Alloc
open Verif.Gcd
open Verif.Hob (Mem)

variable {E : Env} {w w' : World E.H} {h h' : History}

/-- What the GCD gives out was not given out before. -/
theorem gcdAllocate_fresh {hE : EnvOk E} {F : Nat → Nat → List Nat} (ok : WorldOk hE w h F) {at_ : AllocType} {shift len handle a : Nat}
    {g' : Gcd} (hq : ReqOk at_ shift len) (hx : gcdAllocate E w.gcd at_ shift len handle = (.ok a, g')) :
    0 < len ∧ ∀ s ∈ w.regions ++ h.spans, ¬ Overlap s.base s.len a len := by
  unfold gcdAllocate at hx
  rcases hz : w.gcd.allocate at_ .systemMemory shift len handle none with ⟨r2, g2⟩
  rw [hz] at hx
  cases r2 with
  | ok b =>
    simp only [Prod.mk.injEq] at hx
    obtain ⟨hb, _⟩ := hx
    injection hb with hb; subst hb
    obtain ⟨_, _, _, _, _, c, hu, hc, _⟩ := allocate_ok ok.reach hq hz
    refine ⟨hu.1, fun s hs => ?_⟩
    rintro ⟨y, y1, y2, y3, y4⟩
    obtain ⟨x, hx1, hx2, _⟩ := (ok.live s hs).2 y y1 y2
    have := hu.2 y y3 y4
    rw [hx1] at this
    injection this with this
    rw [this, hc] at hx2; cases hx2
  | err e => simp only [Prod.mk.injEq] at hx; cases hx.1
  | panic => simp only [Prod.mk.injEq] at hx; cases hx.1

theorem gcdAllocate_err (hr : Reachable E.gcdNode w.gcd) {at_ : AllocType} {shift len handle : Nat} {g' : Gcd} {e : EfiError} (hq : ReqOk at_ shift len)
    (hx : gcdAllocate E w.gcd at_ shift len handle = (.err e, g')) : g' = w.gcd := by
  unfold gcdAllocate at hx
  rcases hz : w.gcd.allocate at_ .systemMemory shift len handle none with ⟨r2, g2⟩
  rw [hz] at hx
  cases r2 with
  | ok b => simp only [Prod.mk.injEq] at hx; cases hx.1
  | err e =>
    simp only [Prod.mk.injEq] at hx
    obtain ⟨_, rfl⟩ := hx
    exact allocate_err hr hq hz
  | panic => simp only [Prod.mk.injEq] at hx; cases hx.1

/-- Alignments: powers of two. -/
def AlignOk (a : Nat) : Prop := ∃ j, j < 64 ∧ a = 2 ^ j

/-- The limit of a request is a `usize`. -/
def AllocType.InRange : AllocType → Prop
  | .bottomUp (some m) => m < W
  | .topDown (some m) => m < W
  | .address a => a < W
  | _ => True

theorem max_align {g a : Nat} (hg : GranOk g) (ha : AlignOk a) :
    ∃ k, 12 ≤ k ∧ k < 64 ∧ max g a = 2 ^ k ∧ pageShift (max g a) = .ok k ∧ g ∣ 2 ^ k ∧ a ∣ 2 ^ k := by
  obtain ⟨i, i1, i2, rfl⟩ := hg
  obtain ⟨j, j1, rfl⟩ := ha
  have key : ∀ k, 12 ≤ k → k < 64 → pageShift (2 ^ k) = .ok k := by
    intro k h1 h2
    unfold pageShift
    simp only
    rw [trailingZeros_pow h2, if_neg]
    rw [(Base.isPowerOfTwo_iff _).2 ⟨k, rfl⟩]
    unfold UEFI_PAGE_SHIFT
    simp only [not_true_eq_false, false_or]; omega
  rcases Nat.le_total i j with hij | hij
  · have : 2 ^ i ≤ 2 ^ j := Nat.pow_le_pow_right (by omega) hij
    exact ⟨j, by omega, j1, Nat.max_eq_right this, by rw [Nat.max_eq_right this]; exact key j (by omega) j1, Nat.pow_dvd_pow 2 hij, Nat.dvd_refl _⟩
  · have : 2 ^ j ≤ 2 ^ i := Nat.pow_le_pow_right (by omega) hij
    exact ⟨i, i1, by omega, Nat.max_eq_left this, by rw [Nat.max_eq_left this]; exact key i i1 (by omega), Nat.dvd_refl _, Nat.pow_dvd_pow 2 hij⟩

/-- The pages asked for, rounded up to the granularity: what the call works with. -/
theorem pages_rounded {g pages n : Nat} (hg : GranOk g) (hp : pages < W) (hx : Base.alignUp 64 pages (sizeToPages g) = .ok n) :
    Base.IsRoundUp pages (g / 4096) n := by
  obtain ⟨k, h1, h2, rfl⟩ := hg
  rw [sizeToPages_gran h1] at hx
  have e : 2 ^ k / 4096 = 2 ^ (k - 12) := by
    have : 2 ^ k = 2 ^ (k - 12) * 4096 := by
      rw [show (4096 : Nat) = 2 ^ 12 from rfl, ← Nat.pow_add]; congr 1; omega
    rw [this, Nat.mul_div_cancel _ (by omega)]
  rw [e]
  obtain ⟨r, hr, he⟩ := (Base.alignUp_spec 64 pages (2 ^ (k - 12)) (by unfold W at hp; omega)).1 ⟨_, rfl⟩
  rw [he] at hx
  split at hx
  · injection hx with hx; subst hx; exact hr
  · cases hx

theorem notePages_ok {H : Heap} {dbg : Bool} {s s' : Machine H} {a n : Nat} {r : Outcome EfiError Nat} (hnp : r ≠ .panic)
    (hx : Machine.notePages dbg s a n = (r, s')) :
    s'.gcd = s.gcd ∧ s'.mem = s.mem ∧ s'.fsb.regions = s.fsb.regions ∧ s'.fsb.heads = s.fsb.heads ∧ s'.fsb.handle = s.fsb.handle ∧
      s'.fsb.gran = s.fsb.gran ∧ s'.fsb.memType = s.fsb.memType ∧ ((a = 0 ∧ r = .err .outOfResources ∧ s' = s) ∨ (a ≠ 0 ∧ r = .ok a)) := by
  unfold Machine.notePages at hx
  by_cases h0 : a = 0
  · rw [if_pos h0] at hx
    simp only [Prod.mk.injEq] at hx
    obtain ⟨rfl, rfl⟩ := hx
    exact ⟨rfl, rfl, rfl, rfl, rfl, rfl, rfl, .inl ⟨h0, rfl, rfl⟩⟩
  · rw [if_neg h0] at hx
    rcases hy : s.fsb.pagesAllocated dbg a (pagesToSize n) with f1 | e | _
    · simp only [hy, Prod.mk.injEq] at hx
      obtain ⟨rfl, rfl⟩ := hx
      have e := updateInfo_alike hy
      rw [count_alike] at e
      dsimp only at e
      generalize (f1.numberOfPages) = np at e
      exact ⟨rfl, rfl, by rw [e], by rw [e], by rw [e], by rw [e], by rw [e], .inr ⟨h0, rfl⟩⟩
    · unfold Fsb.pagesAllocated Fsb.updateInfo at hy
      simp only at hy
      split at hy <;> cases hy
    · simp only [hy, Prod.mk.injEq] at hx
      exact absurd hx.1.symm hnp

/-- C54: a successful page allocation returns an address that is not 0, is a multiple of the granularity and of the alignment
asked for and within the limits of the request. The range is the pages asked for, rounded up to the granularity. It was not
given out before: it has no byte in common with any block or range that is. Afterwards the GCD has it allocated to this
allocator. No memory is written, nothing else is given out or taken back, and the state is a possible one. -/
theorem allocatePages_ok (hE : EnvOk E) (hp : Possible E (w, h)) {i : Nat} {f : Fsb E.H} (hf : w.fsbs[i]? = some f) (hg : GranOk f.gran)
    {at_ : AllocType} (hat : AllocType.InRange at_) {pages align : Nat} (hal : AlignOk align) (hpg : pages < W)
    (hfit : ∀ n, Base.IsRoundUp pages (f.gran / 4096) n → n * 4096 < W) {dbg : Bool} {a : Nat} {s' : Machine E.H}
    (hx : Machine.allocatePages E dbg (w.machine f) at_ pages align = (.ok a, s')) :
    a ≠ 0 ∧ a % f.gran = 0 ∧ a % align = 0 ∧ s'.mem = w.mem ∧
      ∃ n sp, Base.IsRoundUp pages (f.gran / 4096) n ∧ 0 < n ∧ at_.Admits a (n * 4096) ∧
        (∀ x ∈ h.grants, ¬ Overlap x.ptr x.layout.size a (n * 4096)) ∧ (∀ s ∈ h.spans, ¬ Overlap s.base s.len a (n * 4096)) ∧
        Live s'.gcd a (n * 4096) f.handle ∧
        Steps E (w, h) (w.put i s', ⟨h.grants, sp⟩) ∧ (∀ s ∈ h.spans, s ∈ sp) ∧ (⟨f.handle, a, n * 4096⟩ : Span) ∈ sp := by
  obtain ⟨F, (ok : WorldOk hE w h F)⟩ := possible_world (hE := hE) hp
  obtain ⟨k, k1, k2, k3, k4, k5, k6⟩ := max_align hg hal
  unfold Machine.allocatePages at hx
  generalize hs : ({ World.machine w f with fsb := (World.machine w f).fsb.countPageAlloc } : Machine E.H) = s at hx
  have e1 : s.fsb = f.countPageAlloc := by rw [← hs]; rfl
  have e2 : s.gcd = w.gcd := by rw [← hs]; rfl
  have e3 : s.mem = w.mem := by rw [← hs]; rfl
  have e4 : f.countPageAlloc.gran = f.gran := rfl
  have e5 : f.countPageAlloc.handle = f.handle := rfl
  unfold Machine.takePages at hx
  rw [e1, e2, e4, e5] at hx
  rcases hr : Base.alignUp 64 pages (sizeToPages f.gran) with n | e | _
  · simp only [hr, k4] at hx
    have hn := pages_rounded hg hpg hr
    have hnW := hfit n hn
    by_cases hm : misaligned at_ (max f.gran align) = true
    · rw [if_pos hm] at hx; simp only [Prod.mk.injEq] at hx; cases hx.1
    rw [if_neg hm] at hx
    by_cases hd : (dbg && decide (W ≤ n * UEFI_PAGE_SIZE)) = true
    · rw [if_pos hd] at hx; simp only [Prod.mk.injEq] at hx; cases hx.1
    rw [if_neg hd] at hx
    have hpz : pagesToSize n = n * 4096 := by unfold pagesToSize UEFI_PAGE_SIZE; exact Nat.mod_eq_of_lt hnW
    rw [hpz] at hx
    have hq : ReqOk at_ k (n * 4096) := ⟨hnW, k2, by cases at_ with | bottomUp m => cases m <;> exact hat | topDown m => cases m <;> exact hat | address a => exact hat⟩
    rcases hy : gcdAllocate E w.gcd at_ k (n * 4096) f.handle with ⟨r1, g1⟩
    rw [hy] at hx
    cases r1 with
    | ok b =>
      simp only at hx
      obtain ⟨n1, n2, n3, n4, n5, n6, n7, n8⟩ := notePages_ok (by simp) hx
      rcases n8 with ⟨_, hc, _⟩ | ⟨h0, hb⟩
      · cases hc
      injection hb with hb; subst hb
      obtain ⟨sp, h1, h2, h3⟩ := gcdAllocate_steps (h := h) hE hq hy
      obtain ⟨f1, f2, _⟩ := gcdAllocate_facts ok.reach hq hy
      obtain ⟨d1, d2⟩ := gcdAllocate_fresh ok hq hy
      have hacc : Step E ({ w with gcd := g1 }, { h with spans := sp }) ({ w with gcd := g1, fsbs := w.fsbs.set i s'.fsb }, { h with spans := sp }) :=
        Step.account (w := { w with gcd := g1 }) hf (n4.trans (by simp only [e1]; rfl)) (n3.trans (by simp only [e1]; rfl)) (n5.trans (by simp only [e1]; rfl))
          (n6.trans (by simp only [e1]; rfl)) (n7.trans (by simp only [e1]; rfl))
      replace n2 : s'.mem = w.mem := n2.trans e3
      have hput : w.put i s' = { w with gcd := g1, fsbs := w.fsbs.set i s'.fsb } := by
        unfold World.put; rw [n1, n2]
      have hst : Steps E (w, h) (w.put i s', ⟨h.grants, sp⟩) := by
        rw [hput]; exact h1.steps.trans (Steps.one hacc)
      refine ⟨h0, Nat.mod_eq_zero_of_dvd (Nat.dvd_trans k5 (Nat.dvd_of_mod_eq_zero f1)), Nat.mod_eq_zero_of_dvd (Nat.dvd_trans k6 (Nat.dvd_of_mod_eq_zero f1)), n2,
        n, sp, hn, by omega, f2, ?_, fun s hs => d2 s (List.mem_append_right _ hs), ?_, hst, h2, h3 _ rfl⟩
      · intro x hx'
        rintro ⟨y, y1, y2, y3, y4⟩
        obtain ⟨g, _, hg', _, _⟩ := ok.grant hx'
        obtain ⟨r, hr', r1, r2⟩ := ok.grant_in hx' hg' (in_heapLayout ⟨y1, y2⟩)
        exact d2 _ (List.mem_append_left _ (mem_regions hg' hr')) ⟨y, by simp only; omega, r2, y3, y4⟩
      · have := (block_apart_from_pages hE (hp.steps hst)).2.2 _ (h3 _ rfl)
        exact this
    | err e => simp only [Prod.mk.injEq] at hx; cases hx.1
    | panic => simp only [Prod.mk.injEq] at hx; cases hx.1
  · simp only [hr, Prod.mk.injEq] at hx; cases hx.1
  · simp only [hr, Prod.mk.injEq] at hx; cases hx.1

/-- C54: a page allocation that fails gives out nothing and takes nothing back: the GCD is as it was, unless the request was for
address 0 (`zero_page_lost`). -/
theorem allocatePages_err (hE : EnvOk E) (hp : Possible E (w, h)) {i : Nat} {f : Fsb E.H} (hf : w.fsbs[i]? = some f) (hg : GranOk f.gran)
    {at_ : AllocType} (hat : AllocType.InRange at_) {pages align : Nat} (hal : AlignOk align) {dbg : Bool} {e : EfiError} {s' : Machine E.H}
    (hx : Machine.allocatePages E dbg (w.machine f) at_ pages align = (.err e, s')) :
    s'.mem = w.mem ∧ s'.fsb = f.countPageAlloc ∧
      (s'.gcd = w.gcd ∨ at_ = .address 0) := by
  obtain ⟨F, (ok : WorldOk hE w h F)⟩ := possible_world (hE := hE) hp
  obtain ⟨k, k1, k2, k3, k4, k5, k6⟩ := max_align hg hal
  unfold Machine.allocatePages at hx
  generalize hs : ({ World.machine w f with fsb := (World.machine w f).fsb.countPageAlloc } : Machine E.H) = s at hx
  have e1 : s.fsb = f.countPageAlloc := by rw [← hs]; rfl
  have e2 : s.gcd = w.gcd := by rw [← hs]; rfl
  have e3 : s.mem = w.mem := by rw [← hs]; rfl
  have e4 : f.countPageAlloc.gran = f.gran := rfl
  have e5 : f.countPageAlloc.handle = f.handle := rfl
  unfold Machine.takePages at hx
  rw [e1, e2, e4, e5] at hx
  rcases hr : Base.alignUp 64 pages (sizeToPages f.gran) with n | e9 | _
  · simp only [hr, k4] at hx
    by_cases hm : misaligned at_ (max f.gran align) = true
    · rw [if_pos hm] at hx
      simp only [Prod.mk.injEq] at hx
      obtain ⟨_, rfl⟩ := hx
      exact ⟨e3, e1, .inl e2⟩
    rw [if_neg hm] at hx
    by_cases hd : (dbg && decide (W ≤ n * UEFI_PAGE_SIZE)) = true
    · rw [if_pos hd] at hx; simp only [Prod.mk.injEq] at hx; cases hx.1
    rw [if_neg hd] at hx
    have hq : ReqOk at_ k (pagesToSize n) :=
      ⟨Nat.mod_lt _ (by decide), k2, by cases at_ with | bottomUp m => cases m <;> exact hat | topDown m => cases m <;> exact hat | address a => exact hat⟩
    rcases hy : gcdAllocate E w.gcd at_ k (pagesToSize n) f.handle with ⟨r1, g1⟩
    rw [hy] at hx
    cases r1 with
    | ok b =>
      simp only at hx
      obtain ⟨n1, n2, n3, n4, n5, n6, n7, n8⟩ := notePages_ok (by simp) hx
      rcases n8 with ⟨h0, _, rfl⟩ | ⟨h0, hb⟩
      · refine ⟨e3, rfl, .inr ?_⟩
        obtain ⟨_, f2, f3⟩ := gcdAllocate_facts ok.reach hq hy
        cases at_ with
        | address a => rw [h0] at f2; rw [show a = 0 from (f2 : (0 : Nat) = a).symm]
        | bottomUp m => exact absurd h0 (f3 rfl)
        | topDown m => exact absurd h0 (f3 rfl)
      · cases hb
    | err e9 =>
      simp only [Prod.mk.injEq] at hx
      obtain ⟨_, rfl⟩ := hx
      exact ⟨e3, rfl, .inl (gcdAllocate_err ok.reach hq hy)⟩
    | panic => simp only [Prod.mk.injEq] at hx; cases hx.1
  · simp only [hr, Prod.mk.injEq] at hx
    obtain ⟨_, rfl⟩ := hx
    exact ⟨e3, e1, .inl e2⟩
  · simp only [hr, Prod.mk.injEq] at hx; cases hx.1

/-! ### Freeing -/

/-- C54: an allocator does not free what is allocated to another: nothing changes. -/
theorem freePages_foreign (hr : Reachable E.gcdNode w.gcd) {f : Fsb E.H} {dbg : Bool} {a pages k : Nat} (hpg : pages < W) (hl : Live w.gcd a 1 k) (hk : k ≠ f.handle) :
    ∃ e s', Machine.freePages dbg (w.machine f) a pages = (.err e, s') ∧ s'.gcd = w.gcd ∧ s'.mem = w.mem ∧
      s'.fsb = f.countPageFree := by
  unfold Machine.freePages
  generalize hs : ({ World.machine w f with fsb := (World.machine w f).fsb.countPageFree } : Machine E.H) = s
  have e1 : s.fsb = f.countPageFree := by rw [← hs]; rfl
  have e2 : s.gcd = w.gcd := by rw [← hs]; rfl
  have e3 : s.mem = w.mem := by rw [← hs]; rfl
  have e4 : f.countPageFree.gran = f.gran := rfl
  have e5 : f.countPageFree.handle = f.handle := rfl
  unfold Machine.givePages
  rw [e1, e2, e4, e5]
  obtain ⟨c, hc, _, hc2⟩ := hl a (Nat.le_refl _) (by omega)
  have hi := (reachable_inv hr).inv
  rcases hi.map with ⟨_, hb⟩ | ⟨hcap, hg, _⟩
  · rw [hb] at hc; cases hc
  have ha := (cellAt_bounds hg.tiles hc).2
  obtain ⟨d, hd1, _, _, _, hd2⟩ := descriptorFor_spec hi hcap a ha
  have hdk : d.st.image ≠ f.handle := by
    rw [hd2] at hc
    injection hc with hc
    rw [hc, hc2]; exact hk
  rcases hr : Base.alignUp 64 pages (sizeToPages f.gran) with n | e1' | _
  · simp only [hd1]
    by_cases hm : a % f.gran ≠ 0
    · rw [if_pos hm]; exact ⟨_, _, rfl, e2, e3, e1⟩
    · rw [if_neg hm, if_pos hdk]; exact ⟨_, _, rfl, e2, e3, e1⟩
  · exact ⟨_, _, rfl, e2, e3, e1⟩
  · obtain ⟨h1, h2⟩ := Base.alignUp_spec 64 pages (sizeToPages f.gran) (by unfold W at hpg; omega)
    by_cases hk : ∃ k, sizeToPages f.gran = 2 ^ k
    · obtain ⟨r, _, h3⟩ := h1 hk
      rw [hr] at h3
      split at h3 <;> cases h3
    · rw [h2 hk] at hr; cases hr

theorem changeAt_err {α : Type} [DecidableEq α] {cap : Nat} {l l' : List (Block α)} {base len : Nat} {tr : α → Option α} {e0 e : EfiError}
    (hx : changeAt cap l base len tr (fun _ _ => e0) = (Outcome.err e, l')) : e = e0 ∨ e = .notFound ∨ e = .outOfResources := by
  unfold changeAt at hx
  split at hx
  · simp only [Prod.mk.injEq, Outcome.err.injEq] at hx; exact .inr (.inl hx.1.symm)
  · split at hx
    · simp only [Prod.mk.injEq] at hx; cases hx.1
    · simp only [Prod.mk.injEq, Outcome.err.injEq] at hx; exact .inl hx.1.symm
    · simp only [Prod.mk.injEq, Outcome.err.injEq] at hx; exact .inr (.inr hx.1.symm)
    · simp only [Prod.mk.injEq] at hx; cases hx.1

/-- The GCD does not refuse a free with `AccessDenied`. -/
theorem free_not_denied {g g' : Gcd} {base len : Nat} {p : Bool} : g.freeSpace base len p ≠ (.err .accessDenied, g') := by
  intro hx
  unfold Gcd.freeSpace at hx
  split at hx
  · simp only [Prod.mk.injEq] at hx; cases hx.1
  unfold Gcd.freeWorker at hx
  split at hx
  · simp only [Prod.mk.injEq] at hx; cases hx.1
  split at hx
  · simp only [Prod.mk.injEq] at hx; cases hx.1
  split at hx
  · simp only [Prod.mk.injEq] at hx; cases hx.1
  split at hx
  · simp only [Prod.mk.injEq] at hx; cases hx.1
  unfold Gcd.change at hx
  rcases hy : changeAt g.cap g.blocks base len (freeTr p) (fun _ _ => .notFound) with ⟨r, l⟩
  rw [hy] at hx
  cases r with
  | ok u =>
    simp only at hx
    split at hx
    · unfold Gcd.setAttrsCore Gcd.change at hx
      simp only [Prod.mk.injEq] at hx
      have := changeAt_err (Prod.ext hx.1 rfl)
      revert this; decide
    · rename_i e he
      simp only [Prod.mk.injEq, Outcome.err.injEq] at hx
      unfold Gcd.descriptorFor at he
      split at he
      · injection he with he; rw [← he] at hx; cases hx.1
      · split at he
        · injection he with he; rw [← he] at hx; cases hx.1
        · cases he
    · simp only [Prod.mk.injEq] at hx; cases hx.1
  | err e =>
    simp only [Prod.mk.injEq, Outcome.err.injEq] at hx
    have := changeAt_err hy
    rw [hx.1] at this
    revert this; decide
  | panic => simp only [Prod.mk.injEq] at hx; cases hx.1

theorem gcdFree_eq (g : Gcd) (base len : Nat) : gcdFree g base len = g.freeSpace base len false := by
  unfold gcdFree
  split
  · rename_i h; exact absurd h free_not_denied
  · rfl

theorem freeRange_eq {H : Heap} (s : Machine H) (base len : Nat) : freeRange s base len = s.gcd.freeSpace base len (s.fsb.inReserved base) := by
  unfold freeRange
  split
  · rename_i h; rw [h]
  · rename_i h; rw [gcdFree_eq, Bool.eq_false_iff.2 h]

/-- Whether the address is in the range reserved for the allocator -/
def Fsb.Reserves {H : Heap} (f : Fsb H) (a : Nat) : Prop := ∃ b e, f.reserved = some (b, e) ∧ b ≤ a ∧ a < e

end Verif.Alloc
