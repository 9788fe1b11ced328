import Verif.Alloc.FreePages
import Verif.Gcd.Kept
/-!
C55: ranges reserved for a memory type (`reserve_memory_pages`), from which its allocations are to come so that the memory map
of one boot resembles that of the next.
-/
namespace Verif.Alloc
open Verif.Gcd
open Verif.Hob (Mem)

variable {E : Env} {w w' : World E.H} {h h' : History}

theorem gran_align {gran : Nat} (hg : GranOk gran) : ∃ k, k < 64 ∧ 12 ≤ k ∧ gran = 2 ^ k ∧ pageShift gran = .ok k := by
  obtain ⟨k, k1, k2, k3, k4⟩ := pageShift_ok hg
  exact ⟨k, by omega, k2, k4, k1⟩

/-- What the GCD has just allocated, after its attributes have been set. -/
theorem gcdAllocate_cells (hE : EnvOk E) {at_ : AllocType} {shift len handle a : Nat} {g g' : Gcd} (hr : Reachable E.gcdNode g)
    (hq : ReqOk at_ shift len) (hx : gcdAllocate E g at_ shift len handle = (.ok a, g')) :
    Reachable E.gcdNode g' ∧ g'.locked = false ∧ handle ≠ 0 ∧
      ∀ b, a ≤ b → b < a + len → ∃ c, cellAt g'.blocks b = some c ∧ c.allocated = true ∧ c.image = handle ∧ c.type = .systemMemory := by
  unfold gcdAllocate at hx
  rcases hy : g.allocate at_ .systemMemory shift len handle none with ⟨r1, g1⟩
  rw [hy] at hx
  cases r1 with
  | ok b =>
    simp only [Prod.mk.injEq] at hx
    obtain ⟨hb, rfl⟩ := hx
    injection hb with hb; subst hb
    obtain ⟨_, _, _, h4, h5, c, hu, hc, ht, _, _, _, hup, hsame⟩ := allocate_ok hr hq hy
    have hr1 : Reachable E.gcdNode g1 := by
      have := reachable_run hr (ops := [.allocate at_ .systemMemory shift len handle none]) (by
        intro op hop
        simp only [List.mem_cons, List.not_mem_nil, or_false] at hop
        subst hop
        exact ⟨hq.1, hq.2.1, hq.2.2⟩)
      have e : g.run E.gcdNode [.allocate at_ .systemMemory shift len handle none] = g1 := by
        show (g.allocate at_ .systemMemory shift len handle none).2 = g1
        rw [hy]
      rw [e] at this; exact this
    obtain ⟨ops, ho, he⟩ := hE.protect g1 b len
    have hlk : g1.locked = false := by
      have := hsame.locked
      rw [this]; exact h4
    refine ⟨he ▸ reachable_run hr1 fun op hop => (ho op hop).1, by rw [hE.protectLock]; exact hlk, h5, fun x x1 x2 => ?_⟩
    rw [he]
    refine allocated_run hr1 ?_ (fun op hop => (ho op hop).1) (fun p n q hop => by have := (ho _ hop).2.1; cases this) x1 x2
    intro y y1 y2
    exact ⟨{ c with allocated := true, image := handle, device := c.device }, by rw [hup y, if_pos ⟨y1, y2⟩]; rfl, rfl, rfl, ht⟩
  | err e => simp only [Prod.mk.injEq] at hx; cases hx.1
  | panic => simp only [Prod.mk.injEq] at hx; cases hx.1

theorem setReserved_ok {H : Heap} {f f' : Fsb H} {dbg : Bool} {a len : Nat} (hx : f.setReserved dbg a len = .ok f') :
    f'.reserved = some (a, a + len) ∧ f'.regions = f.regions ∧ f'.heads = f.heads ∧ f'.handle = f.handle ∧ f'.gran = f.gran ∧ f'.memType = f.memType := by
  unfold Fsb.setReserved at hx
  split at hx
  · cases hx
  · have e := updateInfo_alike hx
    generalize f'.numberOfPages = np at e
    subst e
    exact ⟨rfl, rfl, rfl, rfl, rfl, rfl⟩

/-- C55: if a range is reserved for a memory type, it has the pages asked for, rounded up to the granularity; it is aligned to the
granularity and nobody had been given any of it. Afterwards it is still free for the allocator, but kept for it. Everything that
was given out still is, nothing is written, and nothing changes at other addresses that setting attributes does not change. -/
theorem reserve_ok (hE : EnvOk E) (hp : Possible E (w, h)) {i : Nat} {f : Fsb E.H} (hf : w.fsbs[i]? = some f) (hg : GranOk f.gran) {dbg : Bool}
    {pages : Nat} (hpg : pages < W) (hfit : ∀ n, Base.IsRoundUp pages (f.gran / 4096) n → n * 4096 < W) {s' : Machine E.H}
    (hx : Machine.reserve E dbg (w.machine f) pages = (.ok (), s')) :
    f.reserved = none ∧ s'.mem = w.mem ∧ ∃ a n sp, Base.IsRoundUp pages (f.gran / 4096) n ∧ 0 < n ∧ a % f.gran = 0 ∧ a ≠ 0 ∧
      s'.fsb.reserved = some (a, a + n * 4096) ∧
      Gcd.Kept s'.gcd a (n * 4096) f.handle ∧ Candidate s'.gcd .systemMemory 12 (n * 4096) f.handle a ∧
      (∀ x ∈ h.grants, ¬ Overlap x.ptr x.layout.size a (n * 4096)) ∧ (∀ s ∈ h.spans, ¬ Overlap s.base s.len a (n * 4096)) ∧
      Steps E (w, h) (w.put i s', ⟨h.grants, sp⟩) ∧ (∀ s ∈ h.spans, s ∈ sp) := by
  obtain ⟨F, (ok : WorldOk hE w h F)⟩ := possible_world (hE := hE) hp
  obtain ⟨k, k1, k2, k3, k4⟩ := gran_align hg
  unfold Machine.reserve at hx
  have e1 : (w.machine f).fsb = f := rfl
  have e2 : (w.machine f).gcd = w.gcd := rfl
  rw [e1, e2] at hx
  by_cases hres : f.reserved.isSome
  · rw [if_pos hres] at hx; simp only [Prod.mk.injEq] at hx; cases hx.1
  rw [if_neg hres] at hx
  rcases hr : Base.alignUp 64 pages (sizeToPages f.gran) with n | e | _
  · simp only [hr, k4] at hx
    have hn := pages_rounded hg hpg hr
    have hnW := hfit n hn
    by_cases hd : (dbg && decide (W ≤ n * UEFI_PAGE_SIZE)) = true
    · rw [if_pos hd] at hx; simp only [Prod.mk.injEq] at hx; cases hx.1
    rw [if_neg hd] at hx
    have hpz : pagesToSize n = n * 4096 := by unfold pagesToSize UEFI_PAGE_SIZE; exact Nat.mod_eq_of_lt hnW
    rw [hpz] at hx
    have hq : ReqOk (.topDown none) k (n * 4096) := ⟨hnW, k1, trivial⟩
    rcases hy : gcdAllocate E w.gcd (.topDown none) k (n * 4096) f.handle with ⟨r1, g1⟩
    rw [hy] at hx
    cases r1 with
    | ok a =>
      simp only at hx
      unfold Machine.noteReserved at hx
      simp only at hx
      obtain ⟨sp, h1, h2, h3⟩ := gcdAllocate_steps (h := h) hE hq hy
      obtain ⟨f1, f2, f3⟩ := gcdAllocate_facts ok.reach hq hy
      obtain ⟨d1, d2⟩ := gcdAllocate_fresh ok hq hy
      obtain ⟨c1, c2, c3, c4⟩ := gcdAllocate_cells hE ok.reach hq hy
      have a0 : a ≠ 0 := f3 rfl
      rcases hz : g1.freeSpace a (n * 4096) true with ⟨r2, g2⟩
      rw [hz] at hx
      cases r2 with
      | ok u =>
        simp only at hx
        rw [if_neg a0] at hx
        rcases hs : f.setReserved dbg a (n * 4096) with f' | e | _
        · simp only [hs, Prod.mk.injEq, true_and] at hx
          subst hx
          obtain ⟨t1, t2, t3, t4, t5, t6⟩ := setReserved_ok hs
          obtain ⟨c, hu, hca, hm1, hm2, hup, _⟩ := free_ok c1 c2 hnW hz
          obtain ⟨x, hx1, hx2, hx3, hx4⟩ := c4 a (Nat.le_refl _) (by omega)
          rw [hu.2 a (Nat.le_refl _) (by omega)] at hx1
          injection hx1 with hx1; subst hx1
          have hcells : ∀ b, a ≤ b → b < a + n * 4096 → cellAt g2.blocks b = some { c with
              allocated := false, image := if true = true then c.image else 0, device := 0, attrs := 0x2000 ||| (c.attrs &&& 0x101F) } := by
            intro b b1 b2
            rw [hup b, if_pos ⟨b1, b2⟩]
          have hgr := (Steps.one (Step.gcd (E := E) (w := { w with gcd := g1 }) (h := { h with spans := sp })
            (op := .free a (n * 4096) true) ⟨by have := uniform_lt (reachable_inv c1).inv hu; omega, hnW⟩ (by
              intro b l p he s hs'
              injection he with q1 q2
              subst q1; subst q2
              have := d2 s (List.mem_append_left _ hs')
              unfold Span.touches
              rw [decide_eq_false_iff_not]
              rintro ⟨t1, t2⟩
              obtain ⟨u1, _⟩ := ok.live s (List.mem_append_left _ hs')
              refine this ⟨max s.base a, by omega, by omega, by omega, by omega⟩)))
          have hge : Gcd.step E.gcdNode g1 (.free a (n * 4096) true) = g2 := by
            show (g1.freeSpace a (n * 4096) true).2 = g2
            rw [hz]
          simp only [hge] at hgr
          have hacc : Step E ({ w with gcd := g2 }, { h with spans := spansAfter g1 sp (.free a (n * 4096) true) })
              ({ w with gcd := g2, fsbs := w.fsbs.set i f' }, { h with spans := spansAfter g1 sp (.free a (n * 4096) true) }) :=
            Step.account (w := { w with gcd := g2 }) hf t3 t2 t4 t5 t6
          refine ⟨by cases hh : f.reserved with | none => rfl | some _ => rw [hh] at hres; exact absurd rfl hres, rfl, a, n,
            spansAfter g1 sp (.free a (n * 4096) true), hn, by omega, ?_, a0, t1, ?_, ?_, ?_,
            fun s hs => d2 s (List.mem_append_right _ hs), ?_, ?_⟩
          · rw [k3]; exact f1
          · intro b b1 b2
            exact ⟨_, hcells b b1 b2, hx3⟩
          · exact ⟨⟨by decide, by decide, _, ⟨hu.1, hcells⟩, rfl, hx4, .inr hx3⟩, hm1, a0⟩
          · intro x hx'
            rintro ⟨y, y1, y2, y3, y4⟩
            obtain ⟨g, _, hg', _, _⟩ := ok.grant hx'
            obtain ⟨r, hr', r1, r2⟩ := ok.grant_in hx' hg' (in_heapLayout ⟨y1, y2⟩)
            exact d2 _ (List.mem_append_left _ (mem_regions hg' hr')) ⟨y, by simp only; omega, r2, y3, y4⟩
          · exact (h1.steps.trans hgr).trans (Steps.one hacc)
          · intro s hs
            refine List.mem_filter.2 ⟨h2 s hs, ?_⟩
            have := d2 s (List.mem_append_right _ hs)
            obtain ⟨u1, _⟩ := ok.live s (List.mem_append_right _ hs)
            have : s.touches a (n * 4096) = false := by
              unfold Span.touches
              rw [decide_eq_false_iff_not]
              rintro ⟨t1, t2⟩
              exact this ⟨max s.base a, by omega, by omega, by omega, by omega⟩
            rw [this]; rfl
        · simp only [hs, Prod.mk.injEq] at hx; cases hx.1
        · simp only [hs, Prod.mk.injEq] at hx; cases hx.1
      | err e => simp only [Prod.mk.injEq] at hx; cases hx.1
      | panic => simp only [Prod.mk.injEq] at hx; cases hx.1
    | err e => simp only [Prod.mk.injEq] at hx; cases hx.1
    | panic => simp only [Prod.mk.injEq] at hx; cases hx.1
  · simp only [hr, Prod.mk.injEq] at hx; cases hx.1
  · simp only [hr, Prod.mk.injEq] at hx; cases hx.1

/-- C55: a second range is refused, and nothing changes. -/
theorem reserve_once {s : Machine E.H} {dbg : Bool} {pages : Nat} (hs : s.fsb.reserved ≠ none) :
    Machine.reserve E dbg s pages = (.err .alreadyStarted, s) := by
  unfold Machine.reserve
  rw [if_pos (by cases hr : s.fsb.reserved with | none => exact absurd hr hs | some _ => rfl)]

/-! ### The range stays reserved -/

theorem gcdAllocate_kept (hE : EnvOk E) {at_ : AllocType} {shift len handle lo sz im : Nat} {g : Gcd} (hr : Reachable E.gcdNode g)
    (hq : ReqOk at_ shift len) (hk : Gcd.Kept g lo sz im) (him : im ≠ 0) (hch : at_.chooses = true ∨ handle = im) :
    Reachable E.gcdNode (gcdAllocate E g at_ shift len handle).2 ∧ Gcd.Kept (gcdAllocate E g at_ shift len handle).2 lo sz im := by
  have hin : ∀ op ∈ [Op.allocate at_ .systemMemory shift len handle none], Op.InRange op := by
    intro op hop
    simp only [List.mem_cons, List.not_mem_nil, or_false] at hop
    subst hop
    exact ⟨hq.1, hq.2.1, hq.2.2⟩
  have h1 := reachable_run hr hin
  have h2 := kept_run hr hk him hin (by
    intro op hop
    simp only [List.mem_cons, List.not_mem_nil, or_false] at hop
    subst hop
    cases at_ with
    | bottomUp m => exact id
    | topDown m => exact id
    | address a =>
      rcases hch with h | h
      · cases h
      · exact fun ht => ht.1 h)
  have e : g.run E.gcdNode [Op.allocate at_ .systemMemory shift len handle none] = (g.allocate at_ .systemMemory shift len handle none).2 := rfl
  rw [e] at h1 h2
  unfold gcdAllocate
  revert h1 h2
  generalize g.allocate at_ .systemMemory shift len handle none = y
  obtain ⟨r, g1⟩ := y
  intro h1 h2
  cases r with
  | ok a =>
    obtain ⟨ops, ho, he⟩ := hE.protect g1 a len
    simp only [he]
    refine ⟨reachable_run h1 fun op hop => (ho op hop).1, kept_run h1 h2 him (fun op hop => (ho op hop).1) fun op hop ht => ?_⟩
    obtain ⟨_, q1, q2⟩ := ho op hop
    cases op with
    | free => cases q1
    | allocate at_ => cases at_ with | address a => cases q2 | _ => exact ht
    | _ => exact ht
  | err e => exact ⟨h1, h2⟩
  | panic => exact ⟨h1, h2⟩

theorem retry_gcd {s : Machine E.H} {dbg : Bool} {lay : Layout} : (Machine.retry E dbg s lay).2.gcd = s.gcd := by
  unfold Machine.retry
  rcases s.fsb.alloc E s.mem lay with ⟨r, f, m⟩
  cases r <;> rfl

theorem grow_gcd {s : Machine E.H} {dbg : Bool} {lay : Layout} {a len : Nat} : (Machine.grow E dbg s lay a len).2.gcd = s.gcd := by
  unfold Machine.grow
  split
  · rfl
  · rcases s.fsb.expand E dbg s.mem a len with ⟨r, m⟩
    cases r with
    | ok f => simp only [retry_gcd]
    | err e => rfl
    | panic => rfl

theorem needMore_gcd {s : Machine E.H} {dbg : Bool} {lay : Layout} {req : Nat} : (Machine.needMore E dbg s lay req).2.gcd = s.gcd ∨
    ∃ k len, pageShift s.fsb.gran = .ok k ∧ growth E s.fsb.gran req = .ok len ∧
      (Machine.needMore E dbg s lay req).2.gcd = (gcdAllocate E s.gcd (.topDown none) k len s.fsb.handle).2 := by
  unfold Machine.needMore
  rcases h1 : growth E s.fsb.gran req with len | e | _
  · rcases h2 : pageShift s.fsb.gran with k | e | _
    · right
      refine ⟨k, len, rfl, rfl, ?_⟩
      simp only
      rcases gcdAllocate E s.gcd (.topDown none) k len s.fsb.handle with ⟨r, g⟩
      cases r with
      | ok a => simp only [grow_gcd]
      | err e => rfl
      | panic => rfl
    · exact .inl rfl
    · exact .inl rfl
  · exact .inl rfl
  · exact .inl rfl

theorem growth_lt {gran req len : Nat} (hx : growth E gran req = .ok len) : len < W := by
  unfold growth at hx
  rcases hy : Base.alignUp 64 (sizeToPages (max req MIN_EXPANSION)) (sizeToPages gran) with n | e | _
  · rw [hy] at hx
    simp only [Outcome.bind, Outcome.ok.injEq] at hx
    rw [← hx]; exact Nat.mod_lt _ (by decide)
  · rw [hy] at hx; cases hx
  · rw [hy] at hx; cases hx

theorem alloc_gran {f f' : Fsb E.H} {m m' : Mem} {lay : Layout} {r : AllocRes} (hx : f.alloc E m lay = (r, f', m')) : f'.gran = f.gran := by
  unfold Fsb.alloc at hx
  simp only at hx
  split at hx
  · split at hx
    · simp only [Prod.mk.injEq] at hx
      obtain ⟨_, rfl, _⟩ := hx
      rfl
    · unfold Fsb.fallbackAlloc at hx
      split at hx <;> simp only [Prod.mk.injEq] at hx <;> obtain ⟨_, rfl, _⟩ := hx <;> rfl
  · unfold Fsb.fallbackAlloc at hx
    split at hx <;> simp only [Prod.mk.injEq] at hx <;> obtain ⟨_, rfl, _⟩ := hx <;> rfl

/-- The memory a call leaves as it was, as far as the reservation of `[lo, lo + sz)` for `im` is concerned. -/
def Holds (E : Env) (lo sz im : Nat) (g : Gcd) : Prop := Reachable E.gcdNode g ∧ Gcd.Kept g lo sz im

variable {lo sz im : Nat} {s : Machine E.H} {dbg : Bool}

theorem allocate_keeps (hE : EnvOk E) (him : im ≠ 0) (hg : GranOk s.fsb.gran) (hk : Holds E lo sz im s.gcd) (lay : Layout) :
    Holds E lo sz im (Machine.allocate E dbg s lay).2.gcd := by
  unfold Machine.allocate
  rcases hy : s.fsb.alloc E s.mem lay with ⟨r, f, m⟩
  cases r with
  | ok p => exact hk
  | outOfMemory req =>
    have hgr := alloc_gran hy
    simp only
    rcases needMore_gcd (s := ⟨s.gcd, m, f⟩) (dbg := dbg) (lay := lay) (req := req) with h | ⟨k, len, h1, h2, h3⟩
    · rw [h]; exact hk
    · rw [h3]
      obtain ⟨j, j1, j2, j3, j4⟩ := pageShift_ok hg
      rw [hgr] at h1
      rw [j1] at h1
      injection h1 with h1; subst h1
      exact gcdAllocate_kept hE hk.1 ⟨growth_lt h2, by omega, trivial⟩ hk.2 him (.inl rfl)

theorem allocatePages_keeps (hE : EnvOk E) (him : im ≠ 0) (hg : GranOk s.fsb.gran) (hk : Holds E lo sz im s.gcd) {at_ : AllocType}
    (hat : AllocType.InRange at_) (hch : at_.chooses = true ∨ s.fsb.handle = im) {pages align : Nat} (hal : AlignOk align) :
    Holds E lo sz im (Machine.allocatePages E dbg s at_ pages align).2.gcd := by
  obtain ⟨k, k1, k2, k3, k4, k5, k6⟩ := max_align hg hal
  unfold Machine.allocatePages
  generalize hs : ({ s with fsb := s.fsb.countPageAlloc } : Machine E.H) = t
  have e1 : t.fsb = s.fsb.countPageAlloc := by rw [← hs]
  have e2 : t.gcd = s.gcd := by rw [← hs]
  have e4 : s.fsb.countPageAlloc.gran = s.fsb.gran := rfl
  have e5 : s.fsb.countPageAlloc.handle = s.fsb.handle := rfl
  unfold Machine.takePages
  rw [e1, e2, e4, e5, k4]
  rcases Base.alignUp 64 pages (sizeToPages s.fsb.gran) with n | e | _
  · simp only
    split
    · rw [e2]; exact hk
    split
    · rw [e2]; exact hk
    have hq : ReqOk at_ k (pagesToSize n) :=
      ⟨pagesToSize_lt n, k2, by cases at_ with | bottomUp m => cases m <;> exact hat | topDown m => cases m <;> exact hat | address a => exact hat⟩
    have := gcdAllocate_kept hE hk.1 hq hk.2 him hch
    revert this
    generalize gcdAllocate E s.gcd at_ k (pagesToSize n) s.fsb.handle = y
    obtain ⟨r, g⟩ := y
    intro this
    cases r with
    | ok a =>
      simp only
      unfold Machine.notePages
      split
      · exact this
      · split <;> exact this
    | err e => exact this
    | panic => exact this
  · simp only [e2]; exact hk
  · simp only [e2]; exact hk

theorem free_kept {g : Gcd} {a len : Nat} {p : Bool} (him : im ≠ 0) (hk : Holds E lo sz im g) (ha : a < W) (hl : len < W)
    (hp : p = true ∨ ∀ c, cellAt g.blocks a = some c → c.image ≠ im) : Holds E lo sz im (g.freeSpace a len p).2 := by
  have hin : ∀ op ∈ [Op.free a len p], Op.InRange op := by
    intro op hop
    simp only [List.mem_cons, List.not_mem_nil, or_false] at hop
    subst hop
    exact ⟨ha, hl⟩
  have h1 : Reachable E.gcdNode (g.freeSpace a len p).2 := reachable_run hk.1 hin
  refine ⟨h1, ?_⟩
  rcases hp with rfl | hp
  · refine kept_run hk.1 hk.2 him hin ?_
    intro op hop
    simp only [List.mem_cons, List.not_mem_nil, or_false] at hop
    subst hop
    exact id
  · unfold Gcd.freeSpace
    split
    · exact hk.2
    · have he := freeWorker_spec (base := a) (preserve := p) (reachable_inv hk.1).inv hl
      revert he
      generalize g.freeWorker a len p = y
      intro he
      have key : ∀ (c c' : Cell) (g' : Gcd), Uniform g.blocks a len c → Updated g.blocks g'.blocks a len c' → Gcd.Kept g' lo sz im := by
        intro c c' g' hu hup b b1 b2
        obtain ⟨d, hd, hi⟩ := hk.2 b b1 b2
        rw [hup b]
        by_cases hb : a ≤ b ∧ b < a + len
        · have hc := hu.2 b hb.1 hb.2
          rw [hd] at hc
          injection hc with hc; subst hc
          exact absurd hi (hp _ (hu.2 a (Nat.le_refl _) (by have := hu.1; omega)))
        · rw [if_neg hb]; exact ⟨d, hd, hi⟩
      cases he with
      | err er _ => exact hk.2
      | ok c c' g' a1 _ _ a2 a3 a4 a5 a6 a7 => exact key c _ g' a2 a5
      | part c c' er g' a1 _ _ a2 a3 a4 _ a5 a6 a7 => exact key c _ g' a2 a5

theorem freePages_keeps (him : im ≠ 0) (hk : Holds E lo sz im s.gcd) {a pages : Nat} (ha : a < W)
    (hch : s.fsb.handle ≠ im ∨ s.fsb.Reserves a) : Holds E lo sz im (Machine.freePages dbg s a pages).2.gcd := by
  unfold Machine.freePages
  generalize hs : ({ s with fsb := s.fsb.countPageFree } : Machine E.H) = t
  have e1 : t.fsb = s.fsb.countPageFree := by rw [← hs]
  have e2 : t.gcd = s.gcd := by rw [← hs]
  have e4 : s.fsb.countPageFree.gran = s.fsb.gran := rfl
  have e5 : s.fsb.countPageFree.handle = s.fsb.handle := rfl
  have e6 : s.fsb.countPageFree.inReserved a = s.fsb.inReserved a := rfl
  have hk' : Holds E lo sz im t.gcd := e2 ▸ hk
  unfold Machine.givePages
  rw [e1, e4, e5, e2]
  rcases Base.alignUp 64 pages (sizeToPages s.fsb.gran) with n | e | _
  · simp only
    split
    · exact hk'
    rcases hd : s.gcd.descriptorFor a with d | e9 | _
    · simp only
      split
      · exact hk'
      rename_i hi
      split
      · exact hk'
      unfold Machine.releasePages
      rw [freeRange_eq, e1, e2, e6]
      have hfk := free_kept (p := s.fsb.inReserved a) him hk ha (pagesToSize_lt n) (by
        rcases hch with h | h
        · right
          intro c hc
          have hi' := (reachable_inv hk.1).inv
          rcases hi'.map with ⟨_, hb⟩ | ⟨hcap, hg', _⟩
          · rw [hb] at hc; cases hc
          obtain ⟨d', hd', _, _, _, hd3⟩ := descriptorFor_spec hi' hcap a (cellAt_bounds hg'.tiles hc).2
          rw [hd] at hd'
          injection hd' with hd'; subst hd'
          rw [hc] at hd3
          injection hd3 with hd3
          rw [hd3, Decidable.not_not.1 hi]; exact h
        · exact .inl (inReserved_iff.2 h))
      revert hfk
      generalize s.gcd.freeSpace a (pagesToSize n) (s.fsb.inReserved a) = y
      obtain ⟨r, g⟩ := y
      intro hfk
      cases r with
      | ok u => simp only; split <;> exact hfk
      | err e => exact hfk
      | panic => exact hfk
    · exact hk'
    · exact hk'
  · exact hk'
  · exact hk'

theorem reserve_keeps (hE : EnvOk E) (him : im ≠ 0) (hg : GranOk s.fsb.gran) (hk : Holds E lo sz im s.gcd) {pages : Nat} :
    Holds E lo sz im (Machine.reserve E dbg s pages).2.gcd := by
  obtain ⟨k, k1, k2, k3, k4⟩ := gran_align hg
  unfold Machine.reserve
  rw [k4]
  split
  · exact hk
  rcases Base.alignUp 64 pages (sizeToPages s.fsb.gran) with n | e | _
  · simp only
    split
    · exact hk
    have hq : ReqOk (.topDown none) k (pagesToSize n) := ⟨pagesToSize_lt n, k1, trivial⟩
    have hck := gcdAllocate_kept (handle := s.fsb.handle) hE hk.1 hq hk.2 him (.inl rfl)
    have hlt : ∀ a g', gcdAllocate E s.gcd (.topDown none) k (pagesToSize n) s.fsb.handle = (.ok a, g') → a < W := by
      intro a g' hx
      unfold gcdAllocate at hx
      rcases hy : s.gcd.allocate (.topDown none) .systemMemory k (pagesToSize n) s.fsb.handle none with ⟨r1, g1⟩
      rw [hy] at hx
      cases r1 with
      | ok b =>
        simp only [Prod.mk.injEq] at hx
        obtain ⟨hb, _⟩ := hx
        injection hb with hb; subst hb
        obtain ⟨_, _, _, _, _, c, hu, _⟩ := allocate_ok hk.1 hq hy
        have := uniform_lt (reachable_inv hk.1).inv hu
        omega
      | err e => simp only [Prod.mk.injEq] at hx; cases hx.1
      | panic => simp only [Prod.mk.injEq] at hx; cases hx.1
    revert hck hlt
    generalize gcdAllocate E s.gcd (.topDown none) k (pagesToSize n) s.fsb.handle = y
    obtain ⟨r, g⟩ := y
    intro hck hlt
    cases r with
    | ok a =>
      simp only
      unfold Machine.noteReserved
      have := free_kept (p := true) him hck (hlt a g rfl) (pagesToSize_lt n) (.inl rfl)
      simp only
      revert this
      generalize g.freeSpace a (pagesToSize n) true = z
      obtain ⟨r2, g2⟩ := z
      intro this
      cases r2 with
      | ok u =>
        simp only
        split
        · exact this
        · split <;> exact this
      | err e => exact this
      | panic => exact this
    | err e => exact hck
    | panic => exact hck
  · exact hk
  · exact hk

/-- The calls of the page and block services, on any allocator: everything but asking for particular addresses on behalf of
another memory type than `im`, and giving back pages of `im` from an address outside its reserved range. -/
inductive Served (E : Env) (dbg : Bool) (im : Nat) : World E.H → World E.H → Prop where
  | refl {w : World E.H} : Served E dbg im w w
  | allocate {w w' : World E.H} {i : Nat} {f : Fsb E.H} {lay : Layout} : Served E dbg im w w' → w'.fsbs[i]? = some f → GranOk f.gran →
      Served E dbg im w (w'.put i (Machine.allocate E dbg (w'.machine f) lay).2)
  | deallocate {w w' : World E.H} {i : Nat} {f : Fsb E.H} {p : Nat} {lay : Layout} : Served E dbg im w w' → w'.fsbs[i]? = some f →
      Served E dbg im w (w'.put i (Machine.deallocate E (w'.machine f) p lay))
  | allocatePages {w w' : World E.H} {i : Nat} {f : Fsb E.H} {at_ : AllocType} {pages align : Nat} : Served E dbg im w w' →
      w'.fsbs[i]? = some f → GranOk f.gran → AllocType.InRange at_ → AlignOk align → at_.chooses = true ∨ f.handle = im →
      Served E dbg im w (w'.put i (Machine.allocatePages E dbg (w'.machine f) at_ pages align).2)
  | freePages {w w' : World E.H} {i : Nat} {f : Fsb E.H} {a pages : Nat} : Served E dbg im w w' → w'.fsbs[i]? = some f → a < W →
      f.handle ≠ im ∨ f.Reserves a → Served E dbg im w (w'.put i (Machine.freePages dbg (w'.machine f) a pages).2)
  | reserve {w w' : World E.H} {i : Nat} {f : Fsb E.H} {pages : Nat} : Served E dbg im w w' → w'.fsbs[i]? = some f → GranOk f.gran →
      Served E dbg im w (w'.put i (Machine.reserve E dbg (w'.machine f) pages).2)

/-- C55: through any such calls, whatever their results, the range stays reserved. -/
theorem stays_reserved (hE : EnvOk E) (him : im ≠ 0) (hk : Holds E lo sz im w.gcd) (hs : Served E dbg im w w') : Holds E lo sz im w'.gcd := by
  induction hs with
  | refl => exact hk
  | allocate _ _ hg ih => exact allocate_keeps hE him hg ih _
  | deallocate _ _ ih => exact ih
  | allocatePages _ _ hg hat hal hch ih => exact allocatePages_keeps hE him hg ih hat hch hal
  | freePages _ _ ha hch ih => exact freePages_keeps him ih ha hch
  | reserve _ _ hg ih => exact reserve_keeps hE him hg ih

/-- C55: while a range is reserved for a memory type, nothing that is in use for another type is in it: no block of a heap, and no
pages. -/
theorem reserved_exclusive (hE : EnvOk E) (hp : Possible E (w, h)) (hk : Gcd.Kept w.gcd lo sz im) :
    (∀ x ∈ h.grants, ∀ f, w.fsbs[x.owner]? = some f → f.handle ≠ im → ¬ Overlap lo sz x.ptr x.layout.size) ∧
      ∀ s ∈ h.spans, s.handle ≠ im → ¬ Overlap lo sz s.base s.len := by
  obtain ⟨F, (ok : WorldOk hE w h F)⟩ := possible_world (hE := hE) hp
  have key : ∀ s ∈ w.regions ++ h.spans, s.handle ≠ im → ¬ Overlap lo sz s.base s.len := by
    rintro s hs hne ⟨y, y1, y2, y3, y4⟩
    obtain ⟨c, hc, _, hi⟩ := (ok.live s hs).2 y y3 y4
    obtain ⟨d, hd, hi'⟩ := hk y y1 y2
    rw [hc] at hd
    injection hd with hd; subst hd
    omega
  refine ⟨fun x hx f hf hne => ?_, fun s hs => key s (List.mem_append_right _ hs)⟩
  rintro ⟨y, y1, y2, y3, y4⟩
  obtain ⟨r, hr', r1, r2⟩ := ok.grant_in hx hf (in_heapLayout ⟨y3, y4⟩)
  exact key _ (List.mem_append_left _ (mem_regions hf hr')) hne ⟨y, y1, y2, by simp only; omega, r2⟩

/-- C55: pages asked for without saying where, for another memory type, are never in the reserved range. -/
theorem reserved_not_given (hk : Holds E lo sz im w.gcd) (him : im ≠ 0) {f : Fsb E.H} (hg : GranOk f.gran) (hne : f.handle ≠ im)
    {at_ : AllocType} (hat : AllocType.InRange at_) (hch : at_.chooses = true) {pages align a : Nat} (hal : AlignOk align) (hpg : pages < W)
    {s' : Machine E.H} (hx : Machine.allocatePages E dbg (w.machine f) at_ pages align = (.ok a, s')) :
    ∃ n, Base.IsRoundUp pages (f.gran / 4096) n ∧ ¬ Overlap lo sz a (n * 4096 % W) := by
  obtain ⟨k, k1, k2, k3, k4, k5, k6⟩ := max_align hg hal
  unfold Machine.allocatePages at hx
  generalize hs : ({ World.machine w f with fsb := (World.machine w f).fsb.countPageAlloc } : Machine E.H) = s at hx
  have e1 : s.fsb = f.countPageAlloc := by rw [← hs]; rfl
  have e2 : s.gcd = w.gcd := by rw [← hs]; rfl
  have e4 : f.countPageAlloc.gran = f.gran := rfl
  have e5 : f.countPageAlloc.handle = f.handle := rfl
  unfold Machine.takePages at hx
  rw [e1, e2, e4, e5] at hx
  rcases hr : Base.alignUp 64 pages (sizeToPages f.gran) with n | e | _
  · simp only [hr, k4] at hx
    have hn := pages_rounded hg hpg hr
    by_cases hm : misaligned at_ (max f.gran align) = true
    · rw [if_pos hm] at hx; simp only [Prod.mk.injEq] at hx; cases hx.1
    rw [if_neg hm] at hx
    by_cases hd : (dbg && decide (W ≤ n * UEFI_PAGE_SIZE)) = true
    · rw [if_pos hd] at hx; simp only [Prod.mk.injEq] at hx; cases hx.1
    rw [if_neg hd] at hx
    have hq : ReqOk at_ k (pagesToSize n) :=
      ⟨pagesToSize_lt n, k2, by cases at_ with | bottomUp m => cases m <;> exact hat | topDown m => cases m <;> exact hat | address a => exact hat⟩
    unfold gcdAllocate at hx
    rcases hy : w.gcd.allocate at_ .systemMemory k (pagesToSize n) f.handle none with ⟨r1, g1⟩
    rw [hy] at hx
    cases r1 with
    | ok b =>
      simp only at hx
      obtain ⟨n1, n2, n3, n4, n5, n6, n7, n8⟩ := notePages_ok (by simp) hx
      rcases n8 with ⟨_, hc, _⟩ | ⟨h0, hb⟩
      · cases hc
      injection hb with hb; subst hb
      exact ⟨n, hn, choice_avoids_kept hk.1 hk.2 him hne hch hq hy⟩
    | err e => simp only [Prod.mk.injEq] at hx; cases hx.1
    | panic => simp only [Prod.mk.injEq] at hx; cases hx.1
  · simp only [hr, Prod.mk.injEq] at hx; cases hx.1
  · simp only [hr, Prod.mk.injEq] at hx; cases hx.1

end Verif.Alloc
