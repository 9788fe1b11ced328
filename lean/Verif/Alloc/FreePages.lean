import Verif.Alloc.Pages
/-!
C54: giving pages back.
-/
namespace Verif.Alloc
open Verif.Gcd
open Verif.Hob (Mem)

variable {E : Env} {w w' : World E.H} {h h' : History}

theorem inReserved_iff {H : Heap} {f : Fsb H} {a : Nat} : f.inReserved a = true ↔ f.Reserves a := by
  unfold Fsb.inReserved Fsb.Reserves
  cases hr : f.reserved with
  | none => simp
  | some x =>
    obtain ⟨b, e⟩ := x
    simp only [decide_eq_true_eq, Option.some.injEq, Prod.mk.injEq]
    constructor
    · rintro ⟨h1, h2⟩; exact ⟨b, e, ⟨rfl, rfl⟩, h1, h2⟩
    · rintro ⟨b', e', ⟨rfl, rfl⟩, h1, h2⟩; exact ⟨h1, h2⟩

theorem pagesFreed_alike {H : Heap} {dbg : Bool} {f f' : Fsb H} {a n : Nat} (hx : f.pagesFreed dbg a n = .ok f') :
    f'.regions = f.regions ∧ f'.heads = f.heads ∧ f'.handle = f.handle ∧ f'.gran = f.gran ∧ f'.memType = f.memType := by
  unfold Fsb.pagesFreed at hx
  have e := updateInfo_alike hx
  generalize f'.numberOfPages = np at e
  by_cases hr : f.inReserved a
  · rw [if_pos hr] at e; subst e; exact ⟨rfl, rfl, rfl, rfl, rfl⟩
  · rw [if_neg hr] at e; subst e; exact ⟨rfl, rfl, rfl, rfl, rfl⟩

theorem pagesFreed_release {H : Heap} {f : Fsb H} {a n : Nat} : ∃ f', f.pagesFreed false a n = .ok f' := by
  unfold Fsb.pagesFreed Fsb.updateInfo
  simp only [Bool.false_and, Bool.false_eq_true, if_false]
  exact ⟨_, rfl⟩

theorem updateInfo_not_err {H : Heap} {f : Fsb H} {dbg : Bool} {e : EfiError} : f.updateInfo dbg ≠ .err e := by
  intro hx
  unfold Fsb.updateInfo at hx
  simp only at hx
  split at hx <;> cases hx

theorem pagesFreed_not_err {H : Heap} {f : Fsb H} {dbg : Bool} {e : EfiError} {a n : Nat} : f.pagesFreed dbg a n ≠ .err e := updateInfo_not_err

/-- The call, taken apart. -/
theorem freePages_cases {dbg : Bool} {f : Fsb E.H} {a pages : Nat} {r : Outcome EfiError Unit} {s' : Machine E.H}
    (hx : Machine.freePages dbg (w.machine f) a pages = (r, s')) (hnp : r ≠ .panic) :
    s'.mem = w.mem ∧ ((∃ e, r = .err e ∧ s'.gcd = w.gcd ∧ s'.fsb = f.countPageFree) ∨
      ∃ n, Base.alignUp 64 pages (sizeToPages f.gran) = .ok n ∧ a % f.gran = 0 ∧
        (∃ d, w.gcd.descriptorFor a = .ok d ∧ d.st.image = f.handle) ∧
        s'.gcd = (w.gcd.freeSpace a (pagesToSize n) (f.inReserved a)).2 ∧
        ((∃ e e', w.gcd.freeSpace a (pagesToSize n) (f.inReserved a) = (.err e', s'.gcd) ∧ r = .err e ∧ s'.fsb = f.countPageFree) ∨
          (w.gcd.freeSpace a (pagesToSize n) (f.inReserved a) = (.ok (), s'.gcd) ∧ r = .ok () ∧
            f.countPageFree.pagesFreed dbg a n = .ok s'.fsb))) := by
  unfold Machine.freePages at hx
  generalize hs : ({ World.machine w f with fsb := (World.machine w f).fsb.countPageFree } : Machine E.H) = s at hx
  have e1 : s.fsb = f.countPageFree := by rw [← hs]; rfl
  have e2 : s.gcd = w.gcd := by rw [← hs]; rfl
  have e3 : s.mem = w.mem := by rw [← hs]; rfl
  have e4 : f.countPageFree.gran = f.gran := rfl
  have e5 : f.countPageFree.handle = f.handle := rfl
  have e6 : f.countPageFree.inReserved a = f.inReserved a := rfl
  unfold Machine.givePages at hx
  rw [e1, e2, e4, e5] at hx
  rcases hr : Base.alignUp 64 pages (sizeToPages f.gran) with n | e9 | _
  · simp only [hr] at hx
    by_cases hm : a % f.gran ≠ 0
    · rw [if_pos hm] at hx
      simp only [Prod.mk.injEq] at hx
      obtain ⟨rfl, rfl⟩ := hx
      exact ⟨e3, .inl ⟨_, rfl, e2, e1⟩⟩
    rw [if_neg hm] at hx
    rcases hd : w.gcd.descriptorFor a with d | e9 | _
    · simp only [hd] at hx
      by_cases hi : d.st.image ≠ f.handle
      · rw [if_pos hi] at hx
        simp only [Prod.mk.injEq] at hx
        obtain ⟨rfl, rfl⟩ := hx
        exact ⟨e3, .inl ⟨_, rfl, e2, e1⟩⟩
      rw [if_neg hi] at hx
      by_cases hb : (dbg && decide (W ≤ n * UEFI_PAGE_SIZE)) = true
      · rw [if_pos hb] at hx
        simp only [Prod.mk.injEq] at hx
        exact absurd hx.1.symm hnp
      rw [if_neg hb] at hx
      unfold Machine.releasePages at hx
      rw [freeRange_eq, e1, e2, e6] at hx
      rcases hz : w.gcd.freeSpace a (pagesToSize n) (f.inReserved a) with ⟨r1, g1⟩
      simp only [hz] at hx
      refine ⟨?_, .inr ⟨n, rfl, Decidable.not_not.1 hm, ⟨d, rfl, Decidable.not_not.1 hi⟩, ?_⟩⟩
      · cases r1 with
        | ok u =>
          simp only at hx
          rcases hp : f.countPageFree.pagesFreed dbg a n with f1 | e9 | _
          · simp only [hp, Prod.mk.injEq] at hx; obtain ⟨_, rfl⟩ := hx; exact e3
          · simp only [hp, Prod.mk.injEq] at hx; obtain ⟨_, rfl⟩ := hx; exact e3
          · simp only [hp, Prod.mk.injEq] at hx; exact absurd hx.1.symm hnp
        | err e9 => simp only [Prod.mk.injEq] at hx; obtain ⟨_, rfl⟩ := hx; exact e3
        | panic => simp only [Prod.mk.injEq] at hx; exact absurd hx.1.symm hnp
      · cases r1 with
        | ok u =>
          simp only at hx
          rcases hp : f.countPageFree.pagesFreed dbg a n with f1 | e9 | _
          · simp only [hp, Prod.mk.injEq] at hx
            obtain ⟨rfl, rfl⟩ := hx
            exact ⟨by rw [hz], .inr ⟨hz, rfl, rfl⟩⟩
          · exact absurd hp pagesFreed_not_err
          · simp only [hp, Prod.mk.injEq] at hx; exact absurd hx.1.symm hnp
        | err e9 =>
          simp only [Prod.mk.injEq] at hx
          obtain ⟨rfl, rfl⟩ := hx
          exact ⟨by rw [hz], .inl ⟨_, _, hz, rfl, rfl⟩⟩
        | panic => simp only [Prod.mk.injEq] at hx; exact absurd hx.1.symm hnp
    · simp only [hd, Prod.mk.injEq] at hx
      obtain ⟨rfl, rfl⟩ := hx
      exact ⟨e3, .inl ⟨_, rfl, e2, e1⟩⟩
    · simp only [hd, Prod.mk.injEq] at hx; exact absurd hx.1.symm hnp
  · simp only [hr, Prod.mk.injEq] at hx
    obtain ⟨rfl, rfl⟩ := hx
    exact ⟨e3, .inl ⟨_, rfl, e2, e1⟩⟩
  · simp only [hr, Prod.mk.injEq] at hx; exact absurd hx.1.symm hnp

theorem pagesToSize_lt (n : Nat) : pagesToSize n < W := Nat.mod_lt _ (by decide)

/-- C54: giving pages back, whatever the result, is a step of a possible history if the range is not memory that an allocator
manages its blocks in. What was given out outside the range still is. -/
theorem freePages_steps (hE : EnvOk E) {i : Nat} {f : Fsb E.H} (hf : w.fsbs[i]? = some f) {dbg : Bool} {a pages : Nat} (ha : a < W)
    (hfree : ∀ n, ∀ s ∈ w.regions, s.touches a (pagesToSize n) = false)
    {r : Outcome EfiError Unit} {s' : Machine E.H} (hx : Machine.freePages dbg (w.machine f) a pages = (r, s')) (hnp : r ≠ .panic) :
    ∃ sp, Steps E (w, h) (w.put i s', ⟨h.grants, sp⟩) ∧
      ∀ n, Base.alignUp 64 pages (sizeToPages f.gran) = .ok n → ∀ s ∈ h.spans, s.touches a (pagesToSize n) = false → s ∈ sp := by
  obtain ⟨hm, hc⟩ := freePages_cases hx hnp
  have acc : ∀ (g : Gcd) (h' : History) (f' : Fsb E.H), f'.heads = f.heads → f'.regions = f.regions → f'.handle = f.handle → f'.gran = f.gran → f'.memType = f.memType →
      s'.gcd = g → s'.fsb = f' → Step E ({ w with gcd := g }, h') (w.put i s', h') := by
    intro g h' f' h1 h2 h3 h4 h5 h6 h7
    have : w.put i s' = { w with gcd := g, fsbs := w.fsbs.set i f' } := by unfold World.put; rw [h6, h7, hm]
    rw [this]
    exact Step.account (w := { w with gcd := g }) hf h1 h2 h3 h4 h5
  rcases hc with ⟨e, _, hg, hs⟩ | ⟨n, hn, _, _, hg, hc⟩
  · exact ⟨h.spans, Steps.one (acc w.gcd h f.countPageFree rfl rfl rfl rfl rfl hg hs), fun _ _ s hs _ => hs⟩
  · have hst : Step E (w, h) ({ w with gcd := w.gcd.step E.gcdNode (.free a (pagesToSize n) (f.inReserved a)) },
        { h with spans := spansAfter w.gcd h.spans (.free a (pagesToSize n) (f.inReserved a)) }) :=
      .gcd ⟨ha, pagesToSize_lt n⟩ fun b l p he => by injection he with h1 h2; subst h1; subst h2; exact hfree n
    have hge : w.gcd.step E.gcdNode (.free a (pagesToSize n) (f.inReserved a)) = s'.gcd := by rw [hg]; rfl
    rw [hge] at hst
    refine ⟨spansAfter w.gcd h.spans (.free a (pagesToSize n) (f.inReserved a)), ?_, ?_⟩
    · rcases hc with ⟨_, _, _, _, hs⟩ | ⟨_, _, hs⟩
      · exact (Steps.one hst).trans (Steps.one (acc s'.gcd _ f.countPageFree rfl rfl rfl rfl rfl rfl hs))
      · obtain ⟨p1, p2, p3, p4, p5⟩ := pagesFreed_alike hs
        exact (Steps.one hst).trans (Steps.one (acc s'.gcd _ s'.fsb p2 p1 p3 p4 p5 rfl rfl))
    · intro n' hn' s hs hno
      rw [hn] at hn'
      injection hn' with hn'; subst hn'
      refine List.mem_filter.2 ⟨hs, ?_⟩
      rw [hno]; rfl

/-- C54: a free that succeeds takes back exactly the pages, rounded up to the granularity. They were allocated to this allocator.
Afterwards they are not allocated, and they are kept for the allocator exactly if the address is in its reserved range. No memory
is written, and nothing changes at any other address. -/
theorem freePages_ok (hr : Reachable E.gcdNode w.gcd) (hul : w.gcd.locked = false) {f : Fsb E.H} (hg : GranOk f.gran) {dbg : Bool} {a pages : Nat}
    (hpg : pages < W) (hfit : ∀ n, Base.IsRoundUp pages (f.gran / 4096) n → n * 4096 < W) {s' : Machine E.H}
    (hx : Machine.freePages dbg (w.machine f) a pages = (.ok (), s')) :
    s'.mem = w.mem ∧ a % f.gran = 0 ∧ ∃ n c, Base.IsRoundUp pages (f.gran / 4096) n ∧ 0 < n ∧
      Uniform w.gcd.blocks a (n * 4096) c ∧ c.allocated = true ∧ c.image = f.handle ∧
      ∃ c', c'.allocated = false ∧ (f.Reserves a → c'.image = f.handle) ∧ (¬ f.Reserves a → c'.image = 0) ∧
        Updated w.gcd.blocks s'.gcd.blocks a (n * 4096) c' := by
  obtain ⟨hm, hc⟩ := freePages_cases hx (by simp)
  rcases hc with ⟨e, he, _⟩ | ⟨n, hn, ha, ⟨d, hd1, hd2⟩, hgc, hc⟩
  · cases he
  have hn' := pages_rounded hg hpg hn
  have hnW := hfit n hn'
  have hpz : pagesToSize n = n * 4096 := by unfold pagesToSize UEFI_PAGE_SIZE; exact Nat.mod_eq_of_lt hnW
  rw [hpz] at hc
  rcases hc with ⟨e, _, _, he, _⟩ | ⟨hfs, _, _⟩
  · cases he
  obtain ⟨c, hu, hca, _, _, hup, _⟩ := free_ok hr hul hnW hfs
  have hpos := hu.1
  have hi := (reachable_inv hr).inv
  have hca0 := hu.2 a (Nat.le_refl _) (by omega)
  have hci : c.image = f.handle := by
    rcases hi.map with ⟨_, hb⟩ | ⟨hcap, hg', _⟩
    · rw [hb] at hca0; cases hca0
    obtain ⟨d', hd', _, _, _, hd3⟩ := descriptorFor_spec hi hcap a (cellAt_bounds hg'.tiles hca0).2
    rw [hd1] at hd'
    injection hd' with hd'; subst hd'
    rw [hca0] at hd3
    injection hd3 with hd3
    rw [hd3, hd2]
  refine ⟨hm, ha, n, c, hn', by omega, hu, hca, hci, _, rfl, ?_, ?_, hup⟩
  · intro hR
    show (if f.inReserved a = true then c.image else 0) = _
    rw [if_pos (inReserved_iff.2 hR), hci]
  · intro hR
    show (if f.inReserved a = true then c.image else 0) = _
    rw [if_neg fun hh => hR (inReserved_iff.1 hh)]

/-- C54: an allocator can give back what it was given: a range of whole units of its granularity that is allocated to it. (The
conditions are those of the GCD: room in its table, and read protection among the capabilities of the memory. A debug build also
checks the counts, see C53.) -/
theorem freePages_succeeds (hr : Reachable E.gcdNode w.gcd) (hul : w.gcd.locked = false) {f : Fsb E.H} (hg : GranOk f.gran) {a pages : Nat}
    (hpg : pages < W) (ha : a % f.gran = 0) (hpm : pages % (f.gran / 4096) = 0) (hsz : pages * 4096 < W) {c : Cell}
    (hu : Uniform w.gcd.blocks a (pages * 4096) c) (hca : c.allocated = true) (hci : c.image = f.handle)
    (hroom : w.gcd.blocks.length + 4 ≤ 4096) (hrp : c.caps.testBit 13 = true) :
    ∃ s', Machine.freePages false (w.machine f) a pages = (.ok (), s') := by
  have hal : Base.alignUp 64 pages (sizeToPages f.gran) = .ok pages := by
    obtain ⟨k, k1, k2, hk⟩ := hg
    rw [hk, sizeToPages_gran k1]
    obtain ⟨r, hr', he⟩ := (Base.alignUp_spec 64 pages (2 ^ (k - 12)) (by unfold W at hpg; omega)).1 ⟨_, rfl⟩
    have e : 2 ^ k / 4096 = 2 ^ (k - 12) := by
      have : 2 ^ k = 2 ^ (k - 12) * 4096 := by
        rw [show (4096 : Nat) = 2 ^ 12 from rfl, ← Nat.pow_add]; congr 1; omega
      rw [this, Nat.mul_div_cancel _ (by omega)]
    rw [hk, e] at hpm
    have : r = pages := Nat.le_antisymm (hr'.2.2 pages (Nat.dvd_of_mod_eq_zero hpm) (Nat.le_refl _)) hr'.2.1
    subst this
    rw [he, if_pos (by unfold W at hpg; omega)]
  have hpos := hu.1
  have hi := (reachable_inv hr).inv
  have hca0 := hu.2 a (Nat.le_refl _) (by omega)
  rcases hi.map with ⟨_, hb⟩ | ⟨hcap, hg', _⟩
  · rw [hb] at hca0; cases hca0
  obtain ⟨d, hd1, _, _, _, hd2⟩ := descriptorFor_spec hi hcap a (cellAt_bounds hg'.tiles hca0).2
  rw [hca0] at hd2
  injection hd2 with hd2
  have ha4 : a % 4096 = 0 := by
    obtain ⟨k, k1, k2, hk⟩ := hg
    rw [hk] at ha
    exact Nat.mod_eq_zero_of_dvd (Nat.dvd_trans (Nat.pow_dvd_pow 2 k1 : 2 ^ 12 ∣ 2 ^ k) (Nat.dvd_of_mod_eq_zero ha))
  obtain ⟨g', hfr, _⟩ := free_succeeds hr hul hsz hroom (f.inReserved a) ha4 (by omega) hu hca
  have hfr' : w.gcd.freeSpace a (pages * 4096) (f.inReserved a) = (.ok (), g') := by
    rcases hfr with h1 | ⟨h1, _⟩
    · exact h1
    · rw [hrp] at h1; cases h1
  have hpz : pagesToSize pages = pages * 4096 := by unfold pagesToSize UEFI_PAGE_SIZE; exact Nat.mod_eq_of_lt hsz
  unfold Machine.freePages
  generalize hs : ({ World.machine w f with fsb := (World.machine w f).fsb.countPageFree } : Machine E.H) = s
  have e1 : s.fsb = f.countPageFree := by rw [← hs]; rfl
  have e2 : s.gcd = w.gcd := by rw [← hs]; rfl
  have e4 : f.countPageFree.gran = f.gran := rfl
  have e5 : f.countPageFree.handle = f.handle := rfl
  have e6 : f.countPageFree.inReserved a = f.inReserved a := rfl
  unfold Machine.givePages
  rw [e1, e2, e4, e5, hal, hd1]
  simp only
  rw [if_neg (by omega), if_neg (by rw [← hd2, hci]; simp), if_neg (by simp)]
  unfold Machine.releasePages
  rw [freeRange_eq, e1, e2, e6, hpz, hfr']
  obtain ⟨f', hf'⟩ := pagesFreed_release (f := f.countPageFree) (a := a) (n := pages)
  simp only [hf']
  exact ⟨_, rfl⟩

end Verif.Alloc
