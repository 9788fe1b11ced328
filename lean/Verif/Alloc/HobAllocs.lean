import Verif.Alloc.PagesCore
/-!
Model of `process_hob_allocations` (patina_dxe_core/src/allocator.rs lines 782-993): the memory that was in use before the core
started, as the HOB list describes it, is taken out of the free memory (C59).
-/
namespace Verif.Alloc
open Verif.Gcd

/-! ### The model -/

/-- `protocol_db::DXE_CORE_HANDLE`, protocol_db.rs line 28 -/
def DXE_CORE_HANDLE : Nat := 1

/-- The HOBs that matter: memory allocations (with or without a module: type, base and length) and firmware volumes (of the three
kinds: base and length). -/
inductive UseHob where
  | memory (type base len : Nat)
  | volume (base len : Nat)
  | other
deriving DecidableEq, Repr

/-- `SpinLockedGcd::allocate_memory_space`, spin_locked_gcd.rs lines 2262-2333, for any type of memory (`gcdAllocate` is this for
system memory). -/
def gcdAllocateAs (E : Env) (g : Gcd) (at_ : AllocType) (ty : MemType) (shift len handle : Nat) : Outcome EfiError Nat × Gcd :=
  match g.allocate at_ ty shift len handle none with
  | (.ok a, g') => (.ok a, E.protect g' a len)
  | r => r

/-- What is left after a call whose result is only logged; a panic ends it all. -/
def goOn {H : Heap} {α : Type} : Outcome EfiError α × World H → Option (World H)
  | (.panic, _) => none
  | (_, w) => some w

/-- Lines 825-895 of `process_hob_allocations`: a memory allocation that passed the checks, given the descriptor of the block its
base is in. -/
def takeUsed (E : Env) (dbg : Bool) (rtGran : Nat) (hdl : Nat → Nat) (w : World E.H) (type base len : Nat) (d : Block Cell) : Option (World E.H) :=
  if d.base = base ∧ d.len = len ∧ d.st.image ≠ 0 then some w
  else if d.st.type = .systemMemory then
    goOn (coreAllocatePages E dbg rtGran w 2 type (hdl type) (sizeToPages len) (some base) none)
  else if d.st.type = .nonExistent ∨ d.st.type = .unaccepted then some w
  else
    let x := gcdAllocateAs E w.gcd (.address base) d.st.type 0 len DXE_CORE_HANDLE
    goOn (x.1, { w with gcd := x.2 })

/-- Lines 941-954 of `process_hob_allocations`: the memory of a firmware volume. -/
def takeVolume (E : Env) (w : World E.H) (base len : Nat) : Option (World E.H) :=
  let x := gcdAllocateAs E w.gcd (.address base) .memoryMappedIo 0 len DXE_CORE_HANDLE
  goOn (x.1, { w with gcd := x.2 })

/-- `process_hob_allocations`, lines 784-959: one HOB. The result is `none` for a panic. `hdl` gives the handle that
`handle_for_memory_type` gives for a memory type. -/
def takeHob (E : Env) (dbg : Bool) (rtGran : Nat) (hdl : Nat → Nat) (w : World E.H) : UseHob → Option (World E.H)
  | .memory type base len =>
    if type = 7 then some w
    else if len = 0 then some w
    else if base = 0 then some w
    else if base &&& UEFI_PAGE_MASK ≠ 0 ∨ len &&& UEFI_PAGE_MASK ≠ 0 then some w
    else match w.gcd.descriptorFor base with
      | .ok d => takeUsed E dbg rtGran hdl w type base len d
      | .err _ => some w
      | .panic => none
  | .volume base len =>
    match w.gcd.descriptorFor base with
      | .ok d => if d.st.type ≠ .memoryMappedIo ∨ d.st.image ≠ 0 then some w else takeVolume E w base len
      | .err _ => takeVolume E w base len
      | .panic => none
  | .other => some w

/-- Lines 961-993: page 0 is taken for the detection of null pointers, if it is system memory. -/
def takeZero (E : Env) (dbg : Bool) (rtGran : Nat) (hdl : Nat → Nat) (w : World E.H) : Option (World E.H) :=
  match w.gcd.descriptorFor 0 with
  | .ok d => if d.st.type = .systemMemory then goOn (coreAllocatePages E dbg rtGran w 2 4 (hdl 4) 1 (some 0) none) else some w
  | .err _ => some w
  | .panic => none

/-- The loop over the HOBs -/
def takeHobs (E : Env) (dbg : Bool) (rtGran : Nat) (hdl : Nat → Nat) : List UseHob → World E.H → Option (World E.H)
  | [], w => some w
  | b :: bs, w => (takeHob E dbg rtGran hdl w b).bind (takeHobs E dbg rtGran hdl bs)

/-- `process_hob_allocations` -/
def processHobs (E : Env) (dbg : Bool) (rtGran : Nat) (hdl : Nat → Nat) (bs : List UseHob) (w : World E.H) : Option (World E.H) :=
  (takeHobs E dbg rtGran hdl bs w).bind (takeZero E dbg rtGran hdl)

/-! ### What the previous phase relies on -/

/-- The numbers in the HOBs are 64-bit, and the memory types 32-bit. -/
def UseHob.InRange : UseHob → Prop
  | .memory type base len => type < 2 ^ 32 ∧ base < W ∧ len < W
  | .volume base len => base < W ∧ len < W
  | .other => True

/-- The end of the range that a HOB claims: a memory allocation of a type that persists is rounded up to its granularity. -/
def UseHob.Within (rtGran : Nat) : UseHob → Nat → Prop
  | .memory type base len, x => base ≤ x ∧ (x < base + len ∨ Persists type ∧ x < base + (len + rtGran - 1) / rtGran * rtGran)
  | .volume base len, x => base ≤ x ∧ x < base + len
  | .other, _ => False

/-- The memory types for which pages can be allocated: not conventional memory, and not the types the specification keeps to itself. -/
def TypeAllowed (type : Nat) : Prop := type ≠ 7 ∧ ¬ (14 ≤ type ∧ type ≤ 0x6FFFFFFF)

/-- The range is free, is all alike and of the given type, and nobody keeps it; and the GCD can record that it is taken. -/
def FreeAs (g : Gcd) (base len : Nat) (ty : MemType) : Prop :=
  g.locked = false ∧ Room g ∧ ∃ c, Uniform g.blocks base len c ∧ c.allocated = false ∧ c.image = 0 ∧ c.type = ty

/-- The range that the previous phase can count on being taken for its HOB, given the state when it is the HOB's turn, and in whose name:
for a memory allocation in system memory, the handle of its memory type (the range being whole units of the granularity if
it persists); for one in other memory, and for a firmware volume in MMIO, the core's. -/
def UseHob.Owed {H : Heap} (rtGran : Nat) (hdl : Nat → Nat) (w : World H) : UseHob → Span → Prop
  | .memory type base len, s => base ≠ 0 ∧ base % 4096 = 0 ∧ len % 4096 = 0 ∧ s.base = base ∧ s.len = len ∧ type ≠ 7 ∧
      (FreeAs w.gcd base len .systemMemory ∧ TypeAllowed type ∧ (Persists type → base % rtGran = 0 ∧ len % rtGran = 0) ∧ s.handle = hdl type ∨
        (∃ ty, ty ≠ .systemMemory ∧ ty ≠ .nonExistent ∧ ty ≠ .unaccepted ∧ FreeAs w.gcd base len ty) ∧ s.handle = DXE_CORE_HANDLE)
  | .volume base len, s => FreeAs w.gcd base len .memoryMappedIo ∧ s = ⟨DXE_CORE_HANDLE, base, len⟩
  | .other, _ => False

/-- The handles for memory types: not null, and different for different types; the allocators there are have
these handles. -/
structure HandlesOk {H : Heap} (hdl : Nat → Nat) (w : World H) : Prop where
  nonzero : ∀ t, hdl t ≠ 0
  inj : ∀ t u, hdl t = hdl u → t = u
  given : ∀ f ∈ w.fsbs, f.handle = hdl f.memType

/-- Setting the attributes of a range changes nothing outside it. (So it is until the page tables are set up, which is later.) -/
def Contained (E : Env) : Prop :=
  ∀ g a n x, ¬ (a ≤ x ∧ x < a + n) → cellAt (E.protect g a n).blocks x = cellAt g.blocks x

variable {E : Env} {w w' : World E.H} {h : History}

theorem gcdAllocate_as (g : Gcd) (at_ : AllocType) (shift len handle : Nat) :
    gcdAllocate E g at_ shift len handle = gcdAllocateAs E g at_ .systemMemory shift len handle := rfl

theorem gcdAllocateAs_steps (hE : EnvOk E) {at_ : AllocType} {ty : MemType} {shift len handle : Nat} {r : Outcome EfiError Nat} {g' : Gcd}
    (hq : ReqOk at_ shift len) (hx : gcdAllocateAs E w.gcd at_ ty shift len handle = (r, g')) :
    ∃ sp, Steps E (w, h) ({ w with gcd := g' }, ⟨h.grants, sp⟩) ∧ (∀ s ∈ h.spans, s ∈ sp) ∧
      ∀ a, r = .ok a → (⟨handle, a, len⟩ : Span) ∈ sp := by
  have hs : Step E (w, h) ({ w with gcd := w.gcd.step E.gcdNode (.allocate at_ ty shift len handle none) },
      { h with spans := spansAfter w.gcd h.spans (.allocate at_ ty shift len handle none) }) :=
    .gcd hq (fun b n p he => by cases he)
  have hsub := spansAfter_sub w.gcd h.spans (op := .allocate at_ ty shift len handle none) rfl
  have hg : w.gcd.step E.gcdNode (.allocate at_ ty shift len handle none) = (w.gcd.allocate at_ ty shift len handle none).2 := rfl
  unfold gcdAllocateAs at hx
  rcases hy : w.gcd.allocate at_ ty shift len handle none with ⟨r1, g1⟩
  rw [hg, hy] at hs
  rw [hy] at hx
  cases r1 with
  | ok a =>
    simp only [Prod.mk.injEq] at hx
    obtain ⟨rfl, rfl⟩ := hx
    obtain ⟨ops, ho, he⟩ := hE.protect g1 a len
    obtain ⟨sp, h1, h2⟩ := run_steps (w := { w with gcd := g1 })
      (h := { h with spans := spansAfter w.gcd h.spans (.allocate at_ ty shift len handle none) })
      fun op hop => ⟨(ho op hop).1, (ho op hop).2.1⟩
    rw [he]
    refine ⟨sp, (Steps.one hs).trans h1.steps, fun s hs => h2 s (hsub s hs), ?_⟩
    intro b hb
    injection hb with hb; subst hb
    refine h2 _ ?_
    simp only [spansAfter, hy]
    exact List.mem_cons_self
  | err e =>
    simp only [Prod.mk.injEq] at hx
    obtain ⟨rfl, rfl⟩ := hx
    exact ⟨_, Steps.one hs, hsub, fun a ha => by cases ha⟩
  | panic =>
    simp only [Prod.mk.injEq] at hx
    obtain ⟨rfl, rfl⟩ := hx
    exact ⟨_, Steps.one hs, hsub, fun a ha => by cases ha⟩

/-- A request for an address changes nothing outside the range asked for. -/
theorem gcdAllocateAs_outside (hC : Contained E) {g g' : Gcd} (hr : Reachable E.gcdNode g) {ty : MemType} {shift len handle a x : Nat} {r : Outcome EfiError Nat}
    (hq : ReqOk (.address a) shift len) (hx : gcdAllocateAs E g (.address a) ty shift len handle = (r, g')) (hout : ¬ (a ≤ x ∧ x < a + len)) :
    cellAt g'.blocks x = cellAt g.blocks x := by
  unfold gcdAllocateAs at hx
  rcases hy : g.allocate (.address a) ty shift len handle none with ⟨r1, g1⟩
  rw [hy] at hx
  cases r1 with
  | ok b =>
    simp only [Prod.mk.injEq] at hx
    obtain ⟨rfl, rfl⟩ := hx
    obtain ⟨_, had, _, _, _, c, _, _, _, _, _, _, hup, _⟩ := allocate_ok hr hq hy
    have : b = a := had
    subst this
    rw [hC g1 b len x hout, hup x, if_neg hout]
  | err e =>
    simp only [Prod.mk.injEq] at hx
    obtain ⟨_, rfl⟩ := hx
    rw [allocate_err hr hq hy]
  | panic => exact absurd (by rw [hy]) (allocate_no_panic hr hq (ty := ty) (image := handle) (device := none))

theorem gcdAllocateAs_lock (hE : EnvOk E) {g g' : Gcd} (hr : Reachable E.gcdNode g) {at_ : AllocType} {ty : MemType} {shift len handle : Nat}
    {r : Outcome EfiError Nat} (hq : ReqOk at_ shift len) (hx : gcdAllocateAs E g at_ ty shift len handle = (r, g')) : g'.locked = g.locked := by
  unfold gcdAllocateAs at hx
  rcases hy : g.allocate at_ ty shift len handle none with ⟨r1, g1⟩
  rw [hy] at hx
  cases r1 with
  | ok b =>
    simp only [Prod.mk.injEq] at hx
    obtain ⟨rfl, rfl⟩ := hx
    obtain ⟨_, _, _, _, _, c, _, _, _, _, _, _, _, hs⟩ := allocate_ok hr hq hy
    rw [hE.protectLock]; exact hs.locked
  | err e =>
    simp only [Prod.mk.injEq] at hx
    obtain ⟨_, rfl⟩ := hx
    rw [allocate_err hr hq hy]
  | panic => exact absurd (by rw [hy]) (allocate_no_panic hr hq (ty := ty) (image := handle) (device := none))

/-- A free range can be taken by its address. -/
theorem gcdAllocateAs_at {g : Gcd} (hr : Reachable E.gcdNode g) (hlk : g.locked = false) {shift len handle a : Nat} (hs : shift < 64) (hl : len < W)
    (hh : handle ≠ 0) (hroom : Room g) {c : Cell} (hu : Uniform g.blocks a len c) (h1 : c.allocated = false) (h2 : c.type ≠ .nonExistent)
    (h3 : c.type ≠ .unaccepted) (h4 : a % 2 ^ shift = 0) : ∃ g', gcdAllocateAs E g (.address a) c.type shift len handle = (.ok a, g') := by
  obtain ⟨g', hx⟩ := by_address_succeeds (device := none) hr hlk hs hl hh hroom hu h1 h2 h3 h4
  unfold gcdAllocateAs
  rw [hx]
  exact ⟨_, rfl⟩

/-! ### Pages at an address -/

/-- Whatever becomes of a page allocation, short of a panic: it is a history in which nothing is taken back, no memory is written,
and a request for an address changes nothing outside the pages asked for, rounded up. -/
theorem allocatePages_steps (hE : EnvOk E) (hr : Reachable E.gcdNode w.gcd) {i : Nat} {f : Fsb E.H} (hf : w.fsbs[i]? = some f) (hg : GranOk f.gran)
    {at_ : AllocType} (hat : AllocType.InRange at_) {pages align : Nat} (hal : AlignOk align) {dbg : Bool}
    {r : Outcome EfiError Nat} {s' : Machine E.H} (hx : Machine.allocatePages E dbg (w.machine f) at_ pages align = (r, s')) (hnp : r ≠ .panic) :
    s'.mem = w.mem ∧ s'.gcd.locked = w.gcd.locked ∧ (∃ sp, Steps E (w, h) (w.put i s', ⟨h.grants, sp⟩) ∧ (∀ s ∈ h.spans, s ∈ sp) ∧
        ∀ a n, at_ = .address a → f.handle ≠ 0 → Base.alignUp 64 pages (sizeToPages f.gran) = .ok n → n * 4096 < W → a % max f.gran align = 0 →
          FreeAs w.gcd a (n * 4096) .systemMemory → (⟨f.handle, a, n * 4096⟩ : Span) ∈ sp) ∧
      ∀ a, at_ = .address a → Contained E → ∀ x, (∀ n, Base.alignUp 64 pages (sizeToPages f.gran) = .ok n → ¬ (a ≤ x ∧ x < a + n * 4096)) →
        cellAt s'.gcd.blocks x = cellAt w.gcd.blocks x := by
  obtain ⟨k, k1, k2, k3, k4, k5, k6⟩ := max_align hg hal
  have acc : ∀ (g : Gcd) (h' : History) (s' : Machine E.H), s'.mem = w.mem → s'.fsb.heads = f.heads → s'.fsb.regions = f.regions →
      s'.fsb.handle = f.handle → s'.fsb.gran = f.gran → s'.fsb.memType = f.memType → s'.gcd = g → Step E ({ w with gcd := g }, h') (w.put i s', h') := by
    intro g h' s' h0 h1 h2 h3 h4 h5 h6
    have : w.put i s' = { w with gcd := g, fsbs := w.fsbs.set i s'.fsb } := by unfold World.put; rw [h6, h0]
    rw [this]
    exact Step.account (w := { w with gcd := g }) hf h1 h2 h3 h4 h5
  unfold Machine.allocatePages at hx
  generalize hs : ({ World.machine w f with fsb := (World.machine w f).fsb.countPageAlloc } : Machine E.H) = s at hx
  have e1 : s.fsb = f.countPageAlloc := by rw [← hs]; rfl
  have e2 : s.gcd = w.gcd := by rw [← hs]; rfl
  have e3 : s.mem = w.mem := by rw [← hs]; rfl
  have e4 : f.countPageAlloc.gran = f.gran := rfl
  have e5 : f.countPageAlloc.handle = f.handle := rfl
  have same : s' = s → (∀ a n, at_ = .address a → Base.alignUp 64 pages (sizeToPages f.gran) = .ok n → ¬ a % max f.gran align = 0) →
      s'.mem = w.mem ∧ s'.gcd.locked = w.gcd.locked ∧ (∃ sp, Steps E (w, h) (w.put i s', ⟨h.grants, sp⟩) ∧ (∀ s ∈ h.spans, s ∈ sp) ∧
        ∀ a n, at_ = .address a → f.handle ≠ 0 → Base.alignUp 64 pages (sizeToPages f.gran) = .ok n → n * 4096 < W → a % max f.gran align = 0 →
          FreeAs w.gcd a (n * 4096) .systemMemory → (⟨f.handle, a, n * 4096⟩ : Span) ∈ sp) ∧
      ∀ a, at_ = .address a → Contained E → ∀ x, (∀ n, Base.alignUp 64 pages (sizeToPages f.gran) = .ok n → ¬ (a ≤ x ∧ x < a + n * 4096)) →
        cellAt s'.gcd.blocks x = cellAt w.gcd.blocks x := by
    rintro rfl hno
    refine ⟨e3, by rw [e2], ⟨h.spans, ?_, fun _ h => h, fun a n h1 _ h2 _ h3 _ => absurd h3 (hno a n h1 h2)⟩, fun _ _ _ _ _ => by rw [e2]⟩
    exact Steps.one (acc w.gcd h s' e3 (by rw [e1]; rfl) (by rw [e1]; rfl) (by rw [e1]; rfl) (by rw [e1]; rfl) (by rw [e1]; rfl) e2)
  unfold Machine.takePages at hx
  rw [e1, e2, e4, e5] at hx
  rcases hrr : Base.alignUp 64 pages (sizeToPages f.gran) with n | e9 | _
  · simp only [hrr, k4] at hx
    by_cases hm : misaligned at_ (max f.gran align) = true
    · rw [if_pos hm] at hx
      simp only [Prod.mk.injEq] at hx
      rw [hrr] at same
      refine same hx.2.symm ?_
      rintro a n rfl _
      unfold misaligned at hm
      exact of_decide_eq_true hm
    rw [if_neg hm] at hx
    by_cases hd : (dbg && decide (W ≤ n * UEFI_PAGE_SIZE)) = true
    · rw [if_pos hd] at hx; simp only [Prod.mk.injEq] at hx; exact absurd hx.1.symm hnp
    rw [if_neg hd] at hx
    have hq : ReqOk at_ k (pagesToSize n) :=
      ⟨Nat.mod_lt _ (by decide), k2, by cases at_ with | bottomUp m => cases m <;> exact hat | topDown m => cases m <;> exact hat | address a => exact hat⟩
    rcases hy : gcdAllocate E w.gcd at_ k (pagesToSize n) f.handle with ⟨r1, g1⟩
    rw [hy] at hx
    rw [gcdAllocate_as] at hy
    obtain ⟨sp, q1, q2, q3⟩ := gcdAllocateAs_steps (h := h) hE hq hy
    have hmust : ∀ a m, at_ = .address a → f.handle ≠ 0 → (Outcome.ok n : Outcome EfiError Nat) = .ok m → m * 4096 < W → a % max f.gran align = 0 →
          FreeAs w.gcd a (m * 4096) .systemMemory → (⟨f.handle, a, m * 4096⟩ : Span) ∈ sp := by
      rintro a m rfl hh hnm hmW ham ⟨f1, f2, c, f3, f4, f5, f6⟩
      injection hnm with hnm
      subst hnm
      have hpz : pagesToSize n = n * 4096 := by unfold pagesToSize UEFI_PAGE_SIZE; exact Nat.mod_eq_of_lt hmW
      obtain ⟨g', hg'⟩ := gcdAllocateAs_at (E := E) hr f1 k2 hmW hh f2 f3 f4 (by rw [f6]; simp) (by rw [f6]; simp) (by rw [← k3]; exact ham)
      rw [hpz, ← f6, hg'] at hy
      simp only [Prod.mk.injEq] at hy
      have := q3 a hy.1.symm
      rw [hpz] at this
      exact this
    have hlk := gcdAllocateAs_lock hE hr hq hy
    have hout : ∀ a, at_ = .address a → Contained E → ∀ x, (∀ m, (Outcome.ok n : Outcome EfiError Nat) = .ok m → ¬ (a ≤ x ∧ x < a + m * 4096)) →
        cellAt g1.blocks x = cellAt w.gcd.blocks x := by
      intro a he hC x hno
      subst he
      refine gcdAllocateAs_outside hC hr hq hy fun hin => hno n rfl ⟨hin.1, ?_⟩
      have : pagesToSize n ≤ n * 4096 := Nat.mod_le _ _
      omega
    cases r1 with
    | ok b =>
      simp only at hx
      obtain ⟨n1, n2, n3, n4, n5, n6, n7, _⟩ := notePages_ok hnp hx
      refine ⟨n2.trans e3, by rw [n1]; exact hlk, ⟨sp, q1.trans (Steps.one ?_), q2, hmust⟩, fun a he hC x hno => by rw [n1]; exact hout a he hC x hno⟩
      exact acc g1 _ s' (n2.trans e3) (n4.trans (by simp only; rfl)) (n3.trans (by simp only; rfl)) (n5.trans (by simp only; rfl))
        (n6.trans (by simp only; rfl)) (n7.trans (by simp only; rfl)) n1
    | err e =>
      simp only [Prod.mk.injEq] at hx
      obtain ⟨_, rfl⟩ := hx
      exact ⟨e3, hlk, ⟨sp, q1.trans (Steps.one (acc g1 _ _ e3 rfl rfl rfl rfl rfl rfl)), q2, hmust⟩, hout⟩
    | panic => simp only [Prod.mk.injEq] at hx; exact absurd hx.1.symm hnp
  · simp only [hrr, Prod.mk.injEq] at hx
    rw [hrr] at same
    exact same hx.2.symm (fun a n _ h => by cases h)
  · simp only [hrr, Prod.mk.injEq] at hx; exact absurd hx.1.symm hnp

/-- The allocators are as they should be: one for each type, with the granularity and the handle of the type. -/
structure Allocators {H : Heap} (rtGran : Nat) (hdl : Nat → Nat) (w : World H) : Prop where
  grained : w.Grained rtGran
  distinct : w.Distinct
  handles : HandlesOk hdl w

theorem Allocators.to_handles {rtGran : Nat} {hdl : Nat → Nat} (ha : Allocators rtGran hdl w) : w.Handles := by
  refine ⟨fun i j f g hf hg he => ha.distinct i j f g hf hg (ha.handles.inj _ _ ?_), fun f hf => ?_⟩
  · rw [← ha.handles.given f (List.mem_of_getElem? hf), ← ha.handles.given g (List.mem_of_getElem? hg), he]
  · rw [ha.handles.given f hf]; exact ha.handles.nonzero _

theorem getOrCreate_allocators {rtGran type : Nat} {hdl : Nat → Nat} {i : Nat} (ha : Allocators rtGran hdl w)
    (hg : w.getOrCreate E rtGran type (hdl type) = (i, w')) : Allocators rtGran hdl w' := by
  refine ⟨getOrCreate_grained ha.grained hg, getOrCreate_distinct ha.distinct hg, ha.handles.nonzero, ha.handles.inj, ?_⟩
  rcases getOrCreate_spec hg with ⟨rfl, _⟩ | ⟨_, _, rfl⟩
  · exact ha.handles.given
  · intro f hf
    simp only [List.mem_append, List.mem_singleton] at hf
    rcases hf with hf | rfl
    · exact ha.handles.given f hf
    · rfl

theorem put_allocators {rtGran : Nat} {hdl : Nat → Nat} {i : Nat} {f : Fsb E.H} {s : Machine E.H} (ha : Allocators rtGran hdl w)
    (hf : w.fsbs[i]? = some f) (h1 : s.fsb.memType = f.memType) (h2 : s.fsb.handle = f.handle) (h3 : s.fsb.gran = f.gran) :
    Allocators rtGran hdl (w.put i s) := by
  refine ⟨put_grained ha.grained hf h1 h2 h3, put_distinct ha.distinct hf h1, ha.handles.nonzero, ha.handles.inj, ?_⟩
  intro g hg
  obtain ⟨j, hj⟩ := List.getElem?_of_mem hg
  obtain ⟨g', k1, k2, k3, _⟩ := put_get hf h1 h2 h3 hj
  rw [← k2, ← k3]
  exact ha.handles.given g' (List.mem_of_getElem? k1)

/-- What one HOB, or page 0, leads to: it changes nothing outside `within`, and the ranges for which `must` holds are taken. -/
structure Took (E : Env) (rtGran : Nat) (hdl : Nat → Nat) (w : World E.H) (h : History) (within : Nat → Prop) (must : Span → Prop) (w' : World E.H) : Prop where
  mem : w'.mem = w.mem
  lock : w'.gcd.locked = w.gcd.locked
  steps : ∃ sp, Steps E (w, h) (w', ⟨h.grants, sp⟩) ∧ (∀ s ∈ h.spans, s ∈ sp) ∧ ∀ s, must s → s ∈ sp
  allocators : Allocators rtGran hdl w'
  outside : Contained E → ∀ x, ¬ within x → cellAt w'.gcd.blocks x = cellAt w.gcd.blocks x

theorem Took.refl {rtGran : Nat} {hdl : Nat → Nat} (ha : Allocators rtGran hdl w) (within : Nat → Prop) {must : Span → Prop} (hm : ∀ s, ¬ must s) :
    Took E rtGran hdl w h within must w :=
  ⟨rfl, rfl, ⟨h.spans, .refl, fun _ h => h, fun s hs => absurd hs (hm s)⟩, ha, fun _ _ _ => rfl⟩

theorem sizeToPages_mul {len : Nat} (h : len % 4096 = 0) : sizeToPages len * 4096 = len := by
  unfold sizeToPages UEFI_PAGE_SIZE UEFI_PAGE_MASK
  omega

theorem rounded_bytes {g p n : Nat} (hg : GranOk g) (hn : Base.IsRoundUp p (g / 4096) n) : n * 4096 ≤ (p * 4096 + g - 1) / g * g := by
  obtain ⟨q, hq, rfl⟩ : ∃ q, 0 < q ∧ g = q * 4096 := by
    obtain ⟨k, k1, k2, rfl⟩ := hg
    refine ⟨2 ^ (k - 12), Nat.two_pow_pos _, ?_⟩
    rw [show (4096 : Nat) = 2 ^ 12 from rfl, ← Nat.pow_add]; congr 1; omega
  rw [Nat.mul_div_cancel _ (by omega)] at hn
  have hlt : p * 4096 + q * 4096 - 1 < q * 4096 * ((p * 4096 + q * 4096 - 1) / (q * 4096) + 1) := Nat.lt_mul_div_succ _ (by omega)
  generalize (p * 4096 + q * 4096 - 1) / (q * 4096) = z at hlt ⊢
  have e : q * 4096 * (z + 1) = z * q * 4096 + q * 4096 := by
    rw [Nat.mul_add, Nat.mul_one, Nat.mul_comm (q * 4096) z, Nat.mul_assoc]
  rw [e] at hlt
  have := hn.2.2 (z * q) ⟨z, Nat.mul_comm _ _⟩ (by generalize z * q = y at hlt; omega)
  rw [← Nat.mul_assoc]
  exact Nat.mul_le_mul_right _ this

theorem alignUp_whole {g p : Nat} (hg : GranOk g) (hp : p < W) (hd : p * 4096 % g = 0) : Base.alignUp 64 p (sizeToPages g) = .ok p := by
  have hg' := hg
  obtain ⟨k, k1, k2, rfl⟩ := hg'
  obtain ⟨r, hr, he⟩ := (Base.alignUp_spec 64 p (2 ^ (k - 12)) (by unfold W at hp; omega)).1 ⟨_, rfl⟩
  have hdvd : 2 ^ (k - 12) ∣ p := by
    have e : 2 ^ k = 2 ^ (k - 12) * 4096 := by
      rw [show (4096 : Nat) = 2 ^ 12 from rfl, ← Nat.pow_add]; congr 1; omega
    rw [e] at hd
    exact Nat.dvd_of_mul_dvd_mul_right (by decide : 0 < 4096) (Nat.dvd_of_mod_eq_zero hd)
  have hrp : r = p := Nat.le_antisymm (hr.2.2 p hdvd (Nat.le_refl _)) hr.2.1
  subst hrp
  rw [sizeToPages_gran k1, he, if_pos (by unfold W at hp; omega)]

theorem reachable_of (hE : EnvOk E) (hp : Possible E (w, h)) : Reachable E.gcdNode w.gcd := by
  obtain ⟨F, (ok : WorldOk hE w h F)⟩ := possible_world (hE := hE) hp
  exact ok.reach

theorem typeOk_allowed {type : Nat} (ht : TypeAllowed type) : typeOk type = true := by
  unfold TypeAllowed at ht
  unfold typeOk
  simp only [Bool.not_eq_true', Bool.or_eq_false_iff, beq_eq_false_iff_ne, decide_eq_false_iff_not]
  omega

/-- `core_allocate_pages` at an address, short of a panic. -/
theorem coreAllocatePages_took (hE : EnvOk E) (hp : Possible E (w, h)) {rtGran : Nat} (hrt : GranOk rtGran) {hdl : Nat → Nat}
    (ha : Allocators rtGran hdl w) {dbg : Bool} {type pages m : Nat} (hm : m < W) (hpg : pages < W) {r : Outcome EfiError Nat}
    (hx : coreAllocatePages E dbg rtGran w 2 type (hdl type) pages (some m) none = (r, w')) (hnp : r ≠ .panic) :
    Took E rtGran hdl w h (fun x => m ≤ x ∧ (x < m + pages * 4096 ∨ Persists type ∧ x < m + (pages * 4096 + rtGran - 1) / rtGran * rtGran))
      (fun s => s = ⟨hdl type, m, pages * 4096⟩ ∧ FreeAs w.gcd m (pages * 4096) .systemMemory ∧ TypeAllowed type ∧ m % 4096 = 0 ∧ pages * 4096 < W ∧
        (Persists type → m % rtGran = 0 ∧ pages * 4096 % rtGran = 0)) w' := by
  unfold coreAllocatePages at hx
  simp only at hx
  split at hx
  · rcases hg : w.getOrCreate E rtGran type (hdl type) with ⟨i, w1⟩
    simp only [hg] at hx
    obtain ⟨h1, f, h2, h3, h4, h5⟩ := getOrCreate_found (h := h) hg
    have a1 := getOrCreate_allocators ha hg
    have hf1 := List.mem_of_getElem? h2
    have hgf := grained_gran hrt a1.grained f hf1
    obtain ⟨g1, g2⟩ := a1.grained f hf1
    have hs : strategy 2 m = some (.address m) := rfl
    simp only [h2, hs] at hx
    rcases hy : Machine.allocatePages E dbg (w1.machine f) (.address m) pages ((none : Option Nat).getD UEFI_PAGE_SIZE) with ⟨r1, s'⟩
    have hy' : Machine.allocatePages E dbg ⟨w1.gcd, w1.mem, f⟩ (.address m) pages ((none : Option Nat).getD UEFI_PAGE_SIZE) = (r1, s') := hy
    simp only [hy', Prod.mk.injEq] at hx
    obtain ⟨rfl, rfl⟩ := hx
    have hp1 := hp.steps h1
    obtain ⟨b1, b2, ⟨sp, b3, b4, b6⟩, b5⟩ := allocatePages_steps (h := h) hE (reachable_of hE hp1) h2 hgf (at_ := .address m) hm ⟨12, by omega, rfl⟩ hy hnp
    obtain ⟨f', c1, c2, c3, c4⟩ := steps_ident b3 h2
    simp only at c1
    have hput : (w1.put i s').fsbs[i]? = some s'.fsb := List.getElem?_set_self (List.getElem?_eq_some_iff.1 h2).1
    rw [hput] at c1
    injection c1 with c1
    subst c1
    refine ⟨b1.trans h5, b2.trans (by rw [h4]), ⟨sp, h1.trans b3, b4, ?_⟩, put_allocators a1 h2 c2 c3 c4, ?_⟩
    · rintro s ⟨rfl, m1, m2, m3, m4, m5⟩
      have hh : f.handle = hdl type := by rw [a1.handles.given f hf1, h3]
      rw [← hh]
      rw [h3] at g1 g2
      have hgr : f.gran ≤ rtGran ∧ 4096 ≤ f.gran ∧ m % f.gran = 0 ∧ pages * 4096 % f.gran = 0 := by
        have h12 : 4096 ≤ rtGran := by
          obtain ⟨k, k1, k2, rfl⟩ := hrt
          exact Nat.pow_le_pow_right (n := 2) (by omega) k1
        by_cases hP : Persists type
        · rw [g1 hP]; exact ⟨Nat.le_refl _, h12, m5 hP⟩
        · rw [g2 hP]; exact ⟨h12, Nat.le_refl _, m3, Nat.mul_mod_left _ _⟩
      refine b6 m pages rfl (by rw [hh]; exact ha.handles.nonzero _) (alignUp_whole hgf hpg hgr.2.2.2) m4 ?_ (by rw [h4]; exact m1)
      rw [Nat.max_eq_left (by have := hgr.2.1; omega)]; exact hgr.2.2.1
    intro hC x hno
    rw [← h4]
    refine b5 m rfl hC x fun n hn hin => hno ⟨hin.1, ?_⟩
    rw [h3] at g1 g2
    by_cases hP : Persists type
    · right
      refine ⟨hP, ?_⟩
      rw [g1 hP] at hn
      have := rounded_bytes hrt (pages_rounded hrt hpg hn)
      omega
    · left
      rw [g2 hP] at hn
      have := roundUp_one (pages_rounded (g := 4096) ⟨12, by omega, by omega, rfl⟩ hpg hn)
      subst this
      exact hin.2
  · rename_i hno
    simp only [Prod.mk.injEq] at hx
    obtain ⟨_, rfl⟩ := hx
    refine Took.refl ha _ ?_
    rintro s ⟨_, _, m2, _⟩
    exact hno (typeOk_allowed m2)

theorem goOn_some {H : Heap} {α : Type} {x : Outcome EfiError α × World H} {w' : World H} (hx : goOn x = some w') : x.1 ≠ .panic ∧ w' = x.2 := by
  obtain ⟨r, w1⟩ := x
  cases r with
  | ok a => injection hx with hx; exact ⟨by simp, hx.symm⟩
  | err e => injection hx with hx; exact ⟨by simp, hx.symm⟩
  | panic => cases hx

theorem gcdAllocateAs_took (hE : EnvOk E) (hp : Possible E (w, h)) {rtGran : Nat} {hdl : Nat → Nat} (ha : Allocators rtGran hdl w) {ty : MemType}
    {base len handle : Nat} (hb : base < W) (hl : len < W) {r : Outcome EfiError Nat} {g' : Gcd}
    (hx : gcdAllocateAs E w.gcd (.address base) ty 0 len handle = (r, g')) :
    Took E rtGran hdl w h (fun x => base ≤ x ∧ x < base + len)
      (fun s => s = ⟨handle, base, len⟩ ∧ handle ≠ 0 ∧ ty ≠ .nonExistent ∧ ty ≠ .unaccepted ∧ FreeAs w.gcd base len ty) { w with gcd := g' } := by
  have hq : ReqOk (.address base) 0 len := ⟨hl, by omega, hb⟩
  obtain ⟨sp, h1, h2, h3⟩ := gcdAllocateAs_steps (h := h) hE hq hx
  refine ⟨rfl, gcdAllocateAs_lock hE (reachable_of hE hp) hq hx, ⟨sp, h1, h2, ?must⟩, ⟨ha.grained, ha.distinct, ha.handles.nonzero, ha.handles.inj, ha.handles.given⟩,
    fun hC x hno => gcdAllocateAs_outside hC (reachable_of hE hp) hq hx hno⟩
  rintro s ⟨rfl, m1, m2, m3, m4, m5, c, m6, m7, m8, rfl⟩
  obtain ⟨g2, hg2⟩ := gcdAllocateAs_at (E := E) (reachable_of hE hp) m4 (shift := 0) (by omega) hl m1 m5 m6 m7 m2 m3 (Nat.mod_one _)
  rw [hg2] at hx
  simp only [Prod.mk.injEq] at hx
  exact h3 base hx.1.symm

theorem Took.mono {rtGran : Nat} {hdl : Nat → Nat} {p q : Nat → Prop} {m n : Span → Prop} (ht : Took E rtGran hdl w h p m w') (hpq : ∀ x, p x → q x)
    (hmn : ∀ s, n s → m s) : Took E rtGran hdl w h q n w' :=
  ⟨ht.mem, ht.lock, ht.steps.imp fun _ h => ⟨h.1, h.2.1, fun s hs => h.2.2 s (hmn s hs)⟩, ht.allocators, fun hC x hno => ht.outside hC x fun hp => hno (hpq x hp)⟩

theorem page_mask {n : Nat} : n &&& UEFI_PAGE_MASK = n % 4096 := Nat.and_two_pow_sub_one_eq_mod n 12

theorem pages_lt {len : Nat} (hl : len < W) : sizeToPages len < W := by
  unfold sizeToPages UEFI_PAGE_SIZE UEFI_PAGE_MASK
  unfold W at *
  omega

/-- The descriptor of an address in a range that is all alike. -/
theorem descriptorFor_in (hE : EnvOk E) (hp : Possible E (w, h)) {base len : Nat} {ty : MemType} (hf : FreeAs w.gcd base len ty) :
    ∃ d, w.gcd.descriptorFor base = .ok d ∧ d.st.type = ty ∧ d.st.image = 0 := by
  obtain ⟨_, _, c, hu, _, h2, h3⟩ := hf
  have hi := (reachable_inv (reachable_of hE hp)).inv
  have hpos := hu.1
  have hc := hu.2 base (Nat.le_refl _) (by omega)
  have hlt := (addw_le hi hu).1
  have hcap : w.gcd.cap = SLOTS := by
    rcases hi.map with ⟨_, hb⟩ | ⟨hc, _⟩
    · rw [hb] at hu; exact absurd hu uniform_nil
    · exact hc
  obtain ⟨d, h1, _, _, _, h5⟩ := descriptorFor_spec hi hcap base (by omega)
  rw [hc] at h5
  injection h5 with h5
  exact ⟨d, h1, by rw [← h5]; exact h3, by rw [← h5]; exact h2⟩

/-- C59: one HOB takes memory only in the range it claims, and takes it if it is free (`Owed`). Nothing that was given out is taken
back, no memory is written. -/
theorem takeHob_took (hE : EnvOk E) (hp : Possible E (w, h)) {rtGran : Nat} (hrt : GranOk rtGran) {hdl : Nat → Nat} (ha : Allocators rtGran hdl w)
    {dbg : Bool} {b : UseHob} (hb : b.InRange) (hx : takeHob E dbg rtGran hdl w b = some w') :
    Took E rtGran hdl w h (b.Within rtGran) (b.Owed rtGran hdl w) w' := by
  have same : some w = some w' → (∀ s, ¬ b.Owed rtGran hdl w s) → Took E rtGran hdl w h (b.Within rtGran) (b.Owed rtGran hdl w) w' := by
    intro e hno; injection e with e; subst e; exact Took.refl ha _ hno
  cases b with
  | other => exact same hx fun _ h => h
  | volume base len =>
    unfold takeHob at hx
    simp only at hx
    have vol : takeVolume E w base len = some w' →
        Took E rtGran hdl w h (UseHob.Within rtGran (.volume base len)) (UseHob.Owed rtGran hdl w (.volume base len)) w' := by
      intro hx
      unfold takeVolume at hx
      rcases hy : gcdAllocateAs E w.gcd (.address base) .memoryMappedIo 0 len DXE_CORE_HANDLE with ⟨r, g'⟩
      simp only [hy] at hx
      obtain ⟨_, rfl⟩ := goOn_some hx
      exact (gcdAllocateAs_took hE hp ha hb.1 hb.2 hy).mono (fun _ h => h)
        fun s hs => ⟨hs.2, by decide, by decide, by decide, hs.1⟩
    split at hx
    · rename_i d hd
      split at hx
      · rename_i hsk
        refine same hx fun s hs => ?_
        obtain ⟨d', h1, h2, h3⟩ := descriptorFor_in hE hp hs.1
        rw [hd] at h1
        injection h1 with h1; subst h1
        rcases hsk with h | h
        · exact h h2
        · exact h h3
      · exact vol hx
    · exact vol hx
    · cases hx
  | memory type base len =>
    obtain ⟨hb1, hb2, hb3⟩ := hb
    unfold takeHob at hx
    simp only at hx
    split at hx
    · rename_i h7
      exact same hx fun s hs => hs.2.2.2.2.2.1 h7
    split at hx
    · rename_i h0
      refine same hx fun s hs => ?_
      subst h0
      rcases hs.2.2.2.2.2.2 with ⟨⟨_, _, c, hu, _⟩, _⟩ | ⟨⟨_, _, _, _, _, _, c, hu, _⟩, _⟩ <;> exact absurd hu.1 (by omega)
    split at hx
    · rename_i h0
      exact same hx fun s hs => hs.1 h0
    split at hx
    · rename_i hmask
      refine same hx fun s hs => ?_
      rw [page_mask, page_mask] at hmask
      have := hs.2.1
      have := hs.2.2.1
      omega
    rename_i hmask
    have hlen : base % 4096 = 0 ∧ len % 4096 = 0 := by rw [page_mask, page_mask] at hmask; omega
    have found : ∀ s, UseHob.Owed rtGran hdl w (.memory type base len) s →
        ∃ d, w.gcd.descriptorFor base = .ok d ∧ d.st.image = 0 ∧
          (d.st.type = .systemMemory ∧ FreeAs w.gcd base len .systemMemory ∧ TypeAllowed type ∧ (Persists type → base % rtGran = 0 ∧ len % rtGran = 0) ∧
              s = ⟨hdl type, base, len⟩ ∨
            d.st.type ≠ .systemMemory ∧ d.st.type ≠ .nonExistent ∧ d.st.type ≠ .unaccepted ∧ FreeAs w.gcd base len d.st.type ∧
              s = ⟨DXE_CORE_HANDLE, base, len⟩) := by
      rintro ⟨sh, sb, sl⟩ ⟨_, _, _, rfl, rfl, _, ⟨o1, o2, o3, o4⟩ | ⟨⟨ty, o1, o2, o3, o4⟩, o5⟩⟩
      · obtain ⟨d, h1, h2, h3⟩ := descriptorFor_in hE hp o1
        exact ⟨d, h1, h3, .inl ⟨h2, o1, o2, o3, by rw [← o4]⟩⟩
      · obtain ⟨d, h1, h2, h3⟩ := descriptorFor_in hE hp o4
        subst h2
        exact ⟨d, h1, h3, .inr ⟨o1, o2, o3, o4, by rw [← o5]⟩⟩
    split at hx
    · rename_i d hd
      have found' : ∀ s, UseHob.Owed rtGran hdl w (.memory type base len) s → d.st.image = 0 ∧
          (d.st.type = .systemMemory ∧ FreeAs w.gcd base len .systemMemory ∧ TypeAllowed type ∧ (Persists type → base % rtGran = 0 ∧ len % rtGran = 0) ∧
              s = ⟨hdl type, base, len⟩ ∨
            d.st.type ≠ .systemMemory ∧ d.st.type ≠ .nonExistent ∧ d.st.type ≠ .unaccepted ∧ FreeAs w.gcd base len d.st.type ∧
              s = ⟨DXE_CORE_HANDLE, base, len⟩) := fun s hs => by
        obtain ⟨d', h1, h2⟩ := found s hs
        rw [hd] at h1
        injection h1 with h1; subst h1
        exact h2
      unfold takeUsed at hx
      split at hx
      · rename_i hdup
        exact same hx fun s hs => hdup.2.2 (found' s hs).1
      split at hx
      · rename_i hsys
        rcases hy : coreAllocatePages E dbg rtGran w 2 type (hdl type) (sizeToPages len) (some base) none with ⟨r, w1⟩
        rw [hy] at hx
        obtain ⟨hnp, rfl⟩ := goOn_some hx
        refine (coreAllocatePages_took hE hp hrt ha hb2 (pages_lt hb3) hy hnp).mono (fun x hx => ?_) fun s hs => ?_
        · rw [sizeToPages_mul hlen.2] at hx
          exact hx
        · rw [sizeToPages_mul hlen.2]
          rcases (found' s hs).2 with ⟨_, o2, o3, o4, o5⟩ | ⟨o1, _⟩
          · exact ⟨o5, o2, o3, hlen.1, hb3, o4⟩
          · exact absurd hsys o1
      rename_i hsys
      split at hx
      · rename_i hne
        refine same hx fun s hs => ?_
        rcases (found' s hs).2 with ⟨o1, _⟩ | ⟨_, o2, o3, _⟩
        · exact hsys o1
        · rcases hne with h | h
          · exact o2 h
          · exact o3 h
      · rcases hy : gcdAllocateAs E w.gcd (.address base) d.st.type 0 len DXE_CORE_HANDLE with ⟨r, g'⟩
        simp only [hy] at hx
        obtain ⟨_, rfl⟩ := goOn_some hx
        refine (gcdAllocateAs_took hE hp ha hb2 hb3 hy).mono (fun x hx => ⟨hx.1, .inl hx.2⟩) fun s hs => ?_
        rcases (found' s hs).2 with ⟨o1, _⟩ | ⟨_, o2, o3, o4, o5⟩
        · exact absurd o1 hsys
        · exact ⟨o5, by decide, o2, o3, o4⟩
    · rename_i e hd
      refine same hx fun s hs => ?_
      obtain ⟨d, h1, _⟩ := found s hs
      rw [hd] at h1; cases h1
    · cases hx

theorem Took.trans {rtGran : Nat} {hdl : Nat → Nat} {p q r : Nat → Prop} {m n o : Span → Prop} {w1 w2 : World E.H} (h1 : Took E rtGran hdl w h p m w1)
    (h2 : ∀ sp, Steps E (w, h) (w1, ⟨h.grants, sp⟩) → Took E rtGran hdl w1 ⟨h.grants, sp⟩ q n w2) (hpr : ∀ x, p x → r x) (hqr : ∀ x, q x → r x)
    (ho : ∀ s, o s → m s ∨ n s) : Took E rtGran hdl w h r o w2 := by
  obtain ⟨sp, s1, s2, s5⟩ := h1.steps
  have t := h2 sp s1
  obtain ⟨sp', s3, s4, s6⟩ := t.steps
  refine ⟨t.mem.trans h1.mem, t.lock.trans h1.lock, ⟨sp', s1.trans s3, fun s hs => s4 s (s2 s hs), fun s hs => ?_⟩, t.allocators, ?_⟩
  · rcases ho s hs with h | h
    · exact s4 s (s5 s h)
    · exact s6 s h
  intro hC x hno
  rw [t.outside hC x fun hq => hno (hqr x hq), h1.outside hC x fun hp => hno (hpr x hp)]

/-- What the HOBs of a list are owed, each when its turn comes. -/
def OwedIn (E : Env) (dbg : Bool) (rtGran : Nat) (hdl : Nat → Nat) (bs : List UseHob) (w : World E.H) (s : Span) : Prop :=
  ∃ pre b post w1, bs = pre ++ b :: post ∧ takeHobs E dbg rtGran hdl pre w = some w1 ∧ b.Owed rtGran hdl w1 s

/-- C59: the HOBs take memory only in the ranges they claim, and what they are owed. -/
theorem takeHobs_took (hE : EnvOk E) {rtGran : Nat} (hrt : GranOk rtGran) {hdl : Nat → Nat} {dbg : Bool} : ∀ {bs : List UseHob} {w w' : World E.H} {h : History},
    Possible E (w, h) → Allocators rtGran hdl w → (∀ b ∈ bs, b.InRange) → takeHobs E dbg rtGran hdl bs w = some w' →
    Took E rtGran hdl w h (fun x => ∃ b ∈ bs, b.Within rtGran x) (OwedIn E dbg rtGran hdl bs w) w'
  | [], w, w', h, _, ha, _, hx => by
    unfold takeHobs at hx
    injection hx with hx; subst hx
    refine Took.refl ha _ ?_
    rintro s ⟨pre, b, post, w1, h1, _⟩
    cases pre <;> cases h1
  | b :: bs, w, w', h, hp, ha, hb, hx => by
    unfold takeHobs at hx
    cases hy : takeHob E dbg rtGran hdl w b with
    | none => rw [hy] at hx; cases hx
    | some w1 =>
      rw [hy] at hx
      have t1 := takeHob_took hE hp hrt ha (hb b (by simp)) hy
      refine t1.trans (fun sp hs => takeHobs_took hE hrt (hp.steps hs) t1.allocators (fun c hc => hb c (by simp [hc])) hx)
        (fun x hx => ⟨b, by simp, hx⟩) (fun x ⟨c, hc, hx⟩ => ⟨c, by simp [hc], hx⟩) ?_
      rintro s ⟨pre, c, post, w2, h1, h2, h3⟩
      cases pre with
      | nil =>
        unfold takeHobs at h2
        injection h2 with h2; subst h2
        simp only [List.nil_append, List.cons.injEq] at h1
        rw [h1.1]; exact .inl h3
      | cons d pre =>
        simp only [List.cons_append, List.cons.injEq] at h1
        obtain ⟨rfl, h1⟩ := h1
        unfold takeHobs at h2
        rw [hy] at h2
        exact .inr ⟨pre, c, post, w2, h1, h2, h3⟩

/-- C59: and then page 0, which is taken if it is free. -/
theorem takeZero_took (hE : EnvOk E) (hp : Possible E (w, h)) {rtGran : Nat} (hrt : GranOk rtGran) {hdl : Nat → Nat} (ha : Allocators rtGran hdl w)
    {dbg : Bool} (hx : takeZero E dbg rtGran hdl w = some w') :
    Took E rtGran hdl w h (fun x => x < 4096) (fun s => s = ⟨hdl 4, 0, 4096⟩ ∧ FreeAs w.gcd 0 4096 .systemMemory) w' := by
  have same : some w = some w' → ¬ FreeAs w.gcd 0 4096 .systemMemory →
      Took E rtGran hdl w h (fun x => x < 4096) (fun s => s = ⟨hdl 4, 0, 4096⟩ ∧ FreeAs w.gcd 0 4096 .systemMemory) w' := by
    intro e hno; injection e with e; subst e; exact Took.refl ha _ fun s hs => hno hs.2
  unfold takeZero at hx
  split at hx
  · rename_i d hd
    split at hx
    · rcases hy : coreAllocatePages E dbg rtGran w 2 4 (hdl 4) 1 (some 0) none with ⟨r, w1⟩
      rw [hy] at hx
      obtain ⟨hnp, rfl⟩ := goOn_some hx
      refine (coreAllocatePages_took hE hp hrt ha (by decide) (by decide) hy hnp).mono (fun x hx => ?_) fun s hs => ?_
      · rcases hx.2 with h1 | ⟨h1, _⟩
        · omega
        · unfold Persists at h1; omega
      · exact ⟨hs.1, hs.2, by unfold TypeAllowed; omega, rfl, by decide, fun h1 => by unfold Persists at h1; omega⟩
    · rename_i hno
      refine same hx fun hf => ?_
      obtain ⟨d', h1, h2, _⟩ := descriptorFor_in hE hp hf
      rw [hd] at h1
      injection h1 with h1; subst h1
      exact hno h2
  · rename_i e hd
    refine same hx fun hf => ?_
    obtain ⟨d', h1, _⟩ := descriptorFor_in hE hp hf
    rw [hd] at h1; cases h1
  · cases hx

theorem processHobs_took (hE : EnvOk E) (hp : Possible E (w, h)) {rtGran : Nat} (hrt : GranOk rtGran) {hdl : Nat → Nat} (ha : Allocators rtGran hdl w)
    {dbg : Bool} {bs : List UseHob} (hb : ∀ b ∈ bs, b.InRange) (hx : processHobs E dbg rtGran hdl bs w = some w') :
    Took E rtGran hdl w h (fun x => x < 4096 ∨ ∃ b ∈ bs, b.Within rtGran x)
      (fun s => OwedIn E dbg rtGran hdl bs w s ∨
        s = ⟨hdl 4, 0, 4096⟩ ∧ ∃ w1, takeHobs E dbg rtGran hdl bs w = some w1 ∧ FreeAs w1.gcd 0 4096 .systemMemory) w' := by
  unfold processHobs at hx
  cases hy : takeHobs E dbg rtGran hdl bs w with
  | none => rw [hy] at hx; cases hx
  | some w1 =>
    rw [hy] at hx
    have t1 := takeHobs_took hE hrt hp ha hb hy
    refine t1.trans (fun sp hs => takeZero_took hE (hp.steps hs) hrt t1.allocators hx) (fun x hx => .inr hx) (fun x hx => .inl hx) ?_
    rintro s (h | ⟨h1, w2, h2, h3⟩)
    · exact .inl h
    · injection h2 with h2; subst h2
      exact .inr ⟨h1, h3⟩

/-! ### The theorems -/

/-- Bytes of the ranges that two HOBs claim. -/
def UseHob.Apart (rtGran : Nat) (b c : UseHob) : Prop := ∀ x, b.Within rtGran x → ¬ c.Within rtGran x

theorem FreeAs.same {g g' : Gcd} {base len : Nat} {ty : MemType} (hf : FreeAs g base len ty) (hl : g'.locked = g.locked) (hr : Room g')
    (hc : ∀ x, base ≤ x → x < base + len → cellAt g'.blocks x = cellAt g.blocks x) : FreeAs g' base len ty := by
  obtain ⟨h1, _, c, h3, h4⟩ := hf
  exact ⟨hl.trans h1, hr, c, ⟨h3.1, fun x x1 x2 => by rw [hc x x1 x2]; exact h3.2 x x1 x2⟩, h4⟩

theorem Owed.same {rtGran : Nat} {hdl : Nat → Nat} {b : UseHob} {s : Span} (ho : b.Owed rtGran hdl w s) (hl : w'.gcd.locked = w.gcd.locked)
    (hr : Room w'.gcd) (hc : ∀ x, b.Within rtGran x → cellAt w'.gcd.blocks x = cellAt w.gcd.blocks x) : b.Owed rtGran hdl w' s := by
  cases b with
  | other => exact ho
  | volume base len => exact ⟨ho.1.same hl hr fun x x1 x2 => hc x ⟨x1, x2⟩, ho.2⟩
  | memory type base len =>
    obtain ⟨h1, h2, h3, h4, h5, h6, h7⟩ := ho
    refine ⟨h1, h2, h3, h4, h5, h6, ?_⟩
    rcases h7 with ⟨o1, o2⟩ | ⟨⟨ty, o1, o2, o3, o4⟩, o5⟩
    · exact .inl ⟨o1.same hl hr fun x x1 x2 => hc x ⟨x1, .inl x2⟩, o2⟩
    · exact .inr ⟨⟨ty, o1, o2, o3, o4.same hl hr fun x x1 x2 => hc x ⟨x1, .inl x2⟩⟩, o5⟩

theorem takeHobs_split {dbg : Bool} {rtGran : Nat} {hdl : Nat → Nat} : ∀ {pre bs : List UseHob} {w w' : World E.H},
    takeHobs E dbg rtGran hdl (pre ++ bs) w = some w' →
    ∃ w1, takeHobs E dbg rtGran hdl pre w = some w1 ∧ takeHobs E dbg rtGran hdl bs w1 = some w'
  | [], _, w, _, hx => ⟨w, rfl, hx⟩
  | b :: pre, bs, w, w', hx => by
    have hx' : (takeHob E dbg rtGran hdl w b).bind (takeHobs E dbg rtGran hdl (pre ++ bs)) = some w' := hx
    cases hy : takeHob E dbg rtGran hdl w b with
    | none => rw [hy] at hx'; cases hx'
    | some w1 =>
      rw [hy] at hx'
      obtain ⟨w2, h1, h2⟩ := takeHobs_split (w := w1) hx'
      refine ⟨w2, ?_, h2⟩
      show (takeHob E dbg rtGran hdl w b).bind _ = _
      rw [hy]; exact h1

/-- C59: memory that was in use before the core started stays in use. If a HOB claims a range that is free memory to begin with
(`Owed`), no HOB before it claims any of the range, and the GCD's table has room when its turn comes, then when all HOBs have been
processed the range is allocated to its owner, and no block or other range that is given out has a byte in common with it. (It is on
the list of ranges given out, so C27 and C54 say of everything that happens from then on, until somebody frees the range, that
nobody is given any of it.) -/
theorem claimed_memory_taken (hE : EnvOk E) (hC : Contained E) (hp : Possible E (w, h)) {rtGran : Nat} (hrt : GranOk rtGran) {hdl : Nat → Nat}
    (ha : Allocators rtGran hdl w) {dbg : Bool} {pre post : List UseHob} {b : UseHob} (hb : ∀ c ∈ pre ++ b :: post, c.InRange) {s : Span}
    (ho : b.Owed rtGran hdl w s) (hap : ∀ c ∈ pre, b.Apart rtGran c) (hroom : ∀ w1, takeHobs E dbg rtGran hdl pre w = some w1 → Room w1.gcd)
    (hx : processHobs E dbg rtGran hdl (pre ++ b :: post) w = some w') :
    ∃ sp, Steps E (w, h) (w', ⟨h.grants, sp⟩) ∧ (∀ t ∈ h.spans, t ∈ sp) ∧ s ∈ sp ∧ Live w'.gcd s.base s.len s.handle ∧
      (∀ x ∈ h.grants, ¬ Overlap x.ptr x.layout.size s.base s.len) := by
  have t := processHobs_took hE hp hrt ha hb hx
  obtain ⟨sp, h1, h2, h3⟩ := t.steps
  have hs : s ∈ sp := by
    refine h3 s (.inl ?_)
    unfold processHobs at hx
    cases hy : takeHobs E dbg rtGran hdl (pre ++ b :: post) w with
    | none => rw [hy] at hx; cases hx
    | some w2 =>
      obtain ⟨w1, hw, _⟩ := takeHobs_split hy
      have t1 := takeHobs_took hE hrt hp ha (fun c hc => hb c (List.mem_append_left _ hc)) hw
      exact ⟨pre, b, post, w1, rfl, hw, Owed.same ho t1.lock (hroom w1 hw) fun x hx => t1.outside hC x fun ⟨c, hc, hcx⟩ => hap c hc x hx hcx⟩
  obtain ⟨p1, p2, p3⟩ := block_apart_from_pages hE (hp.steps h1)
  exact ⟨sp, h1, h2, hs, p3 s hs, fun x hx => p1 x hx s hs⟩

/-- C59: the memory that no HOB claims, beyond page 0, is as it was: processing the HOBs takes nothing else. -/
theorem unclaimed_memory_kept (hE : EnvOk E) (hC : Contained E) (hp : Possible E (w, h)) {rtGran : Nat} (hrt : GranOk rtGran) {hdl : Nat → Nat}
    (ha : Allocators rtGran hdl w) {dbg : Bool} {bs : List UseHob} (hb : ∀ c ∈ bs, c.InRange)
    (hx : processHobs E dbg rtGran hdl bs w = some w') {x : Nat} (h0 : 4096 ≤ x) (hno : ∀ b ∈ bs, ¬ b.Within rtGran x) :
    cellAt w'.gcd.blocks x = cellAt w.gcd.blocks x ∧ w'.mem = w.mem := by
  have t := processHobs_took (h := h) hE hp hrt ha hb hx
  refine ⟨t.outside hC x ?_, t.mem⟩
  rintro (h | ⟨b, h1, h2⟩)
  · omega
  · exact hno b h1 h2

/-- C59: whatever was given out before the HOBs are processed still is afterwards. -/
theorem given_out_kept (hE : EnvOk E) (hp : Possible E (w, h)) {rtGran : Nat} (hrt : GranOk rtGran) {hdl : Nat → Nat}
    (ha : Allocators rtGran hdl w) {dbg : Bool} {bs : List UseHob} (hb : ∀ c ∈ bs, c.InRange) (hx : processHobs E dbg rtGran hdl bs w = some w') :
    ∃ sp, Possible E (w', ⟨h.grants, sp⟩) ∧ ∀ s ∈ h.spans, s ∈ sp ∧ Live w'.gcd s.base s.len s.handle := by
  obtain ⟨sp, h1, h2, _⟩ := (processHobs_took hE hp hrt ha hb hx).steps
  exact ⟨sp, hp.steps h1, fun s hs => ⟨h2 s hs, (block_apart_from_pages hE (hp.steps h1)).2.2 s (h2 s hs)⟩⟩

/-- C59: page 0 is nobody's to allocate: if it is free system memory when the HOBs have been processed, it is taken, though the
allocation reports an error (`zero_page_lost`). -/
theorem page_zero_taken (hE : EnvOk E) (hC : Contained E) (hp : Possible E (w, h)) {rtGran : Nat} (hrt : GranOk rtGran) {hdl : Nat → Nat}
    (ha : Allocators rtGran hdl w) {dbg : Bool} {bs : List UseHob} (hb : ∀ c ∈ bs, c.InRange) (hf : FreeAs w.gcd 0 4096 .systemMemory)
    (hno : ∀ c ∈ bs, ∀ x < 4096, ¬ c.Within rtGran x) (hroom : ∀ w1, takeHobs E dbg rtGran hdl bs w = some w1 → Room w1.gcd)
    (hx : processHobs E dbg rtGran hdl bs w = some w') : Live w'.gcd 0 4096 (hdl 4) := by
  obtain ⟨sp, h1, h2, h3⟩ := (processHobs_took hE hp hrt ha hb hx).steps
  refine (block_apart_from_pages hE (hp.steps h1)).2.2 ⟨hdl 4, 0, 4096⟩ (h3 _ (.inr ⟨rfl, ?_⟩))
  unfold processHobs at hx
  cases hy : takeHobs E dbg rtGran hdl bs w with
  | none => rw [hy] at hx; cases hx
  | some w1 =>
    have t1 := takeHobs_took hE hrt hp ha hb hy
    exact ⟨w1, rfl, hf.same t1.lock (hroom w1 hy) fun x _ x2 => t1.outside hC x fun ⟨c, hc, hcx⟩ => hno c hc x (by omega) hcx⟩

end Verif.Alloc
