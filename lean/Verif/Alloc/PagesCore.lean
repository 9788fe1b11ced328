import Verif.Alloc.PoolCore
import Verif.Alloc.Reserve
/-!
Model of the page services of the core (patina_dxe_core/src/allocator.rs), over one allocator per memory type, and what a caller
of `AllocatePages` and `FreePages` relies on (C54).
-/
namespace Verif.Alloc
open Verif.Gcd

/-! ### The services -/

/-- The strategy for an `EFI_ALLOCATE_TYPE` (any pages 0, below a maximum 1, at an address 2) and the address in `*memory`,
allocator.rs lines 482-496. -/
def strategy (kind m : Nat) : Option AllocType :=
  if kind = 0 then some (.topDown none)
  else if kind = 1 then some (.topDown (some m))
  else if kind = 2 then some (.address m)
  else none

/-- `core_allocate_pages`, allocator.rs lines 461-520. `memory` is `none` for a null pointer and the address it points to
otherwise; the result is the address written there. The handle is the one `handle_for_memory_type` gives for the type. The memory
attributes table is not modelled, nor is the heap memory a new allocator needs. -/
def coreAllocatePages (E : Env) (dbg : Bool) (rtGran : Nat) (w : World E.H) (kind type handle pages : Nat) (memory alignment : Option Nat) :
    Outcome EfiError Nat × World E.H :=
  match memory with
  | none => (.err .invalidParameter, w)
  | some m =>
    if typeOk type then
      let x := w.getOrCreate E rtGran type handle
      match x.2.fsbs[x.1]?, strategy kind m with
      | some f, some at_ =>
        let y := Machine.allocatePages E dbg ⟨x.2.gcd, x.2.mem, f⟩ at_ pages (alignment.getD UEFI_PAGE_SIZE)
        (y.1, x.2.put x.1 y.2)
      | some _, none => (.err .invalidParameter, x.2)
      | none, _ => (.panic, x.2)
    else (.err .invalidParameter, w)

/-- `allocators.iter().any(|allocator| allocator.free_pages(memory, pages).is_ok())`, allocator.rs lines 551-559, from the
allocator with the given number on. -/
def freePagesAny {H : Heap} (dbg : Bool) (a pages : Nat) : List Nat → World H → Outcome EfiError Unit × World H
  | [], w => (.err .notFound, w)
  | i :: is, w =>
    match w.fsbs[i]? with
    | none => freePagesAny dbg a pages is w
    | some f =>
      match Machine.freePages dbg ⟨w.gcd, w.mem, f⟩ a pages with
      | (.ok _, s) => (.ok (), w.put i s)
      | (.err _, s) => freePagesAny dbg a pages is (w.put i s)
      | (.panic, s) => (.panic, w.put i s)

/-- `core_free_pages`, allocator.rs lines 534-580 -/
def coreFreePages {H : Heap} (dbg : Bool) (w : World H) (a pages : Nat) : Outcome EfiError Unit × World H :=
  if W ≤ pages * UEFI_PAGE_SIZE then (.err .invalidParameter, w)
  else if W ≤ a + pages * UEFI_PAGE_SIZE then (.err .invalidParameter, w)
  else if a % UEFI_PAGE_SIZE ≠ 0 then (.err .invalidParameter, w)
  else freePagesAny dbg a pages (List.range w.fsbs.length) w

/-! ### What the caller knows -/

/-- The memory types that a running operating system must leave alone: reserved memory, runtime code, runtime data, ACPI NVS. -/
def Persists (type : Nat) : Prop := type = 0 ∨ type = 5 ∨ type = 6 ∨ type = 10

/-- Every allocator has the granularity of its memory type: `rtGran` if the type persists, a page otherwise. -/
def World.Grained {H : Heap} (rtGran : Nat) (w : World H) : Prop :=
  ∀ f ∈ w.fsbs, (Persists f.memType → f.gran = rtGran) ∧ (¬ Persists f.memType → f.gran = 4096)

/-- No two allocators have the same handle, and none the null handle. -/
structure World.Handles {H : Heap} (w : World H) : Prop where
  distinct : ∀ (i j : Nat) (f g : Fsb H), w.fsbs[i]? = some f → w.fsbs[j]? = some g → f.handle = g.handle → i = j
  valid : ∀ f ∈ w.fsbs, f.handle ≠ 0

/-- A range of `n` pages at `a` is what the request asked for: at least the pages asked for; exactly those if the type does not
persist, and the least multiple of the granularity otherwise; aligned to a page, to the granularity and as asked; and where it was
asked for. -/
structure Fulfils (rtGran kind type pages : Nat) (m : Nat) (alignment : Option Nat) (a n : Nat) : Prop where
  enough : pages ≤ n
  exact : ¬ Persists type → n = pages
  rounded : Persists type → Base.IsRoundUp pages (rtGran / 4096) n
  nonzero : a ≠ 0
  page : a % 4096 = 0
  unit : Persists type → a % rtGran = 0
  aligned : ∀ al, alignment = some al → a % al = 0
  place : kind = 0 ∨ kind = 1 ∧ a + n * 4096 ≤ m + 1 ∨ kind = 2 ∧ a = m

variable {E : Env} {w w' : World E.H} {h : History}

/-! ### Allocating -/

theorem grained_gran {rtGran : Nat} (hrt : GranOk rtGran) (hg : w.Grained rtGran) : ∀ f ∈ w.fsbs, GranOk f.gran := by
  intro f hf
  obtain ⟨h1, h2⟩ := hg f hf
  by_cases hp : Persists f.memType
  · rw [h1 hp]; exact hrt
  · rw [h2 hp]; exact ⟨12, by omega, by omega, rfl⟩

theorem typeGran_new {rtGran type : Nat} : (Persists type → typeGran rtGran type = rtGran) ∧ (¬ Persists type → typeGran rtGran type = 4096) := by
  unfold typeGran Persists
  exact ⟨fun h => if_pos h, fun h => if_neg h⟩

theorem getOrCreate_grained {rtGran type handle : Nat} {i : Nat} (hgr : w.Grained rtGran) (hg : w.getOrCreate E rtGran type handle = (i, w')) :
    w'.Grained rtGran := by
  rcases getOrCreate_spec hg with ⟨rfl, _⟩ | ⟨_, _, rfl⟩
  · exact hgr
  · intro f hf
    simp only [List.mem_append, List.mem_singleton] at hf
    rcases hf with hf | rfl
    · exact hgr f hf
    · exact typeGran_new

theorem getOrCreate_handles {rtGran type handle : Nat} {i : Nat} (hh : w.Handles) (h0 : handle ≠ 0)
    (hfresh : (∀ f ∈ w.fsbs, f.memType ≠ type) → ∀ f ∈ w.fsbs, f.handle ≠ handle)
    (hg : w.getOrCreate E rtGran type handle = (i, w')) : w'.Handles := by
  rcases getOrCreate_spec hg with ⟨rfl, _⟩ | ⟨hn, _, rfl⟩
  · exact hh
  · have hfr := hfresh hn
    constructor
    · intro a b f g hf hg' ht
      simp only [List.getElem?_append] at hf hg'
      split at hf <;> split at hg'
      · exact hh.distinct a b f g hf hg' ht
      · exfalso
        have e := List.mem_singleton.1 (List.mem_of_getElem? hg')
        exact hfr f (List.mem_of_getElem? hf) (by rw [ht, e]; rfl)
      · exfalso
        have e := List.mem_singleton.1 (List.mem_of_getElem? hf)
        exact hfr g (List.mem_of_getElem? hg') (by rw [← ht, e]; rfl)
      · have h1 := (List.getElem?_eq_some_iff.1 hf).1
        have h2 := (List.getElem?_eq_some_iff.1 hg').1
        simp only [List.length_cons, List.length_nil] at h1 h2
        omega
    · intro f hf
      simp only [List.mem_append, List.mem_singleton] at hf
      rcases hf with hf | rfl
      · exact hh.valid f hf
      · exact h0

/-- The allocator that `put` puts back is the one it was, for those who look at its type, handle and granularity. -/
theorem put_get {i j : Nat} {f g : Fsb E.H} {s : Machine E.H} (hf : w.fsbs[i]? = some f) (h1 : s.fsb.memType = f.memType)
    (h2 : s.fsb.handle = f.handle) (h3 : s.fsb.gran = f.gran) (hg : (w.put i s).fsbs[j]? = some g) :
    ∃ g', w.fsbs[j]? = some g' ∧ g'.memType = g.memType ∧ g'.handle = g.handle ∧ g'.gran = g.gran := by
  simp only [World.put] at hg
  by_cases ha : i = j
  · subst ha
    rw [List.getElem?_set_self (List.getElem?_eq_some_iff.1 hf).1] at hg
    injection hg with hg
    subst hg
    exact ⟨f, hf, h1.symm, h2.symm, h3.symm⟩
  · rw [List.getElem?_set_ne ha] at hg
    exact ⟨g, hg, rfl, rfl, rfl⟩

theorem put_grained {i rtGran : Nat} {f : Fsb E.H} {s : Machine E.H} (hgr : w.Grained rtGran) (hf : w.fsbs[i]? = some f)
    (h1 : s.fsb.memType = f.memType) (h2 : s.fsb.handle = f.handle) (h3 : s.fsb.gran = f.gran) : (w.put i s).Grained rtGran := by
  intro g hg
  obtain ⟨j, hj⟩ := List.getElem?_of_mem hg
  obtain ⟨g', k1, k2, _, k4⟩ := put_get hf h1 h2 h3 hj
  have := hgr g' (List.mem_of_getElem? k1)
  rw [k2, k4] at this
  exact this

theorem put_handles {i : Nat} {f : Fsb E.H} {s : Machine E.H} (hh : w.Handles) (hf : w.fsbs[i]? = some f)
    (h1 : s.fsb.memType = f.memType) (h2 : s.fsb.handle = f.handle) (h3 : s.fsb.gran = f.gran) : (w.put i s).Handles := by
  constructor
  · intro a b f1 g1 e1 e2 e3
    obtain ⟨f2, k1, _, k3, _⟩ := put_get hf h1 h2 h3 e1
    obtain ⟨g2, l1, _, l3, _⟩ := put_get hf h1 h2 h3 e2
    exact hh.distinct a b f2 g2 k1 l1 (by rw [k3, l3, e3])
  · intro g hg
    obtain ⟨j, hj⟩ := List.getElem?_of_mem hg
    obtain ⟨g', k1, _, k3, _⟩ := put_get hf h1 h2 h3 hj
    rw [← k3]
    exact hh.valid g' (List.mem_of_getElem? k1)

/-! ### The identity of an allocator -/

/-- What never changes of an allocator. -/
def Fsb.ident {H : Heap} (f : Fsb H) : Nat × Nat × Nat := (f.memType, f.handle, f.gran)

theorem fallbackAlloc_ident {f f' : Fsb E.H} {m m' : Hob.Mem} {lay : Layout} {r : AllocRes} (hx : f.fallbackAlloc E m lay = (r, f', m')) :
    f'.ident = f.ident := by
  unfold Fsb.fallbackAlloc at hx
  split at hx <;> simp only [Prod.mk.injEq] at hx <;> obtain ⟨_, rfl, _⟩ := hx <;> (unfold Fsb.ident; rfl)

theorem alloc_ident {f f' : Fsb E.H} {m m' : Hob.Mem} {lay : Layout} {r : AllocRes} (hx : f.alloc E m lay = (r, f', m')) :
    f'.ident = f.ident := by
  unfold Fsb.alloc at hx
  simp only at hx
  split at hx
  · split at hx
    · simp only [Prod.mk.injEq] at hx
      obtain ⟨_, rfl, _⟩ := hx
      unfold Fsb.ident
      rfl
    · rw [fallbackAlloc_ident hx]; unfold Fsb.ident; rfl
  · rw [fallbackAlloc_ident hx]; unfold Fsb.ident; rfl

theorem dealloc_ident {f f' : Fsb E.H} {m m' : Hob.Mem} {p : Nat} {lay : Layout} (hx : f.dealloc E m p lay = (f', m')) :
    f'.ident = f.ident := by
  have : f' = (f.dealloc E m p lay).1 := by rw [hx]
  rw [this]
  unfold Fsb.dealloc Fsb.ident
  simp only
  split <;> rfl

theorem expand_ident {f f' : Fsb E.H} {m m' : Hob.Mem} {dbg : Bool} {b n : Nat} (hx : f.expand E dbg m b n = (.ok f', m')) :
    f'.ident = f.ident := by
  unfold Fsb.expand at hx
  split at hx
  · simp only [Prod.mk.injEq] at hx
    cases dbg <;> simp at hx
  · simp only [Prod.mk.injEq] at hx
    have := hx.1
    unfold Fsb.updateInfo at this
    simp only at this
    split at this
    · cases this
    · injection this with this
      rw [← this]
      unfold Fsb.count Fsb.ident
      simp only
      split <;> rfl

theorem ident_set {l : List (Fsb E.H)} {i j : Nat} {f f' g : Fsb E.H} (hf : l[i]? = some f) (ht : f'.ident = f.ident)
    (hg : l[j]? = some g) : ∃ g', (l.set i f')[j]? = some g' ∧ g'.ident = g.ident := by
  by_cases hij : i = j
  · subst hij
    rw [hf] at hg; injection hg with hg; subst hg
    exact ⟨f', List.getElem?_set_self (List.getElem?_eq_some_iff.1 hf).1, ht⟩
  · exact ⟨g, by rw [List.getElem?_set_ne hij]; exact hg, rfl⟩

theorem step_ident {x y : World E.H × History} (hs : Step E x y) {i : Nat} {f : Fsb E.H} (hf : x.1.fsbs[i]? = some f) :
    ∃ f', y.1.fsbs[i]? = some f' ∧ f'.ident = f.ident := by
  cases hs with
  | alloc hf' _ hx => exact ident_set hf' (alloc_ident hx) hf
  | dealloc _ hf' hx => exact ident_set hf' (dealloc_ident hx) hf
  | expand hf' _ _ _ _ _ hx => exact ident_set hf' (expand_ident hx) hf
  | account hf' _ _ h1 h2 h3 => exact ident_set hf' (by unfold Fsb.ident; rw [h1, h2, h3]) hf
  | gcd _ _ => exact ⟨f, hf, rfl⟩
  | write _ => exact ⟨f, hf, rfl⟩
  | create => exact ⟨f, by rw [List.getElem?_append_left (List.getElem?_eq_some_iff.1 hf).1]; exact hf, rfl⟩

/-- Whatever happens, an allocator keeps its memory type, its handle and its granularity. -/
theorem steps_ident {x y : World E.H × History} (hs : Steps E x y) {i : Nat} {f : Fsb E.H} (hf : x.1.fsbs[i]? = some f) :
    ∃ f', y.1.fsbs[i]? = some f' ∧ f'.memType = f.memType ∧ f'.handle = f.handle ∧ f'.gran = f.gran := by
  have : ∃ f', y.1.fsbs[i]? = some f' ∧ f'.ident = f.ident := by
    induction hs with
    | refl => exact ⟨f, hf, rfl⟩
    | step _ hs ih =>
      obtain ⟨g, h1, h2⟩ := ih
      obtain ⟨g', h3, h4⟩ := step_ident hs h1
      exact ⟨g', h3, h4.trans h2⟩
  obtain ⟨f', h1, h2⟩ := this
  simp only [Fsb.ident, Prod.mk.injEq] at h2
  exact ⟨f', h1, h2.1, h2.2.1, h2.2.2⟩

theorem getOrCreate_found {rtGran type handle : Nat} {i : Nat} (hg : w.getOrCreate E rtGran type handle = (i, w')) :
    Steps E (w, h) (w', h) ∧ ∃ f, w'.fsbs[i]? = some f ∧ f.memType = type ∧ w'.gcd = w.gcd ∧ w'.mem = w.mem := by
  rcases getOrCreate_spec hg with ⟨rfl, f, h1, h2⟩ | ⟨_, rfl, rfl⟩
  · exact ⟨.refl, f, h1, h2, rfl, rfl⟩
  · exact ⟨Steps.one .create, Fsb.new E.H type (typeGran rtGran type) handle, by simp, rfl, rfl, rfl⟩

/-! ### Allocating -/

theorem roundUp_le {p q n : Nat} (hq : 0 < q) (hn : Base.IsRoundUp p q n) : n ≤ p + q := by
  have hc := hn.2.2 ((p / q + 1) * q) ⟨_, Nat.mul_comm _ _⟩ (by
    have := Nat.div_add_mod p q
    have := Nat.mod_lt p hq
    rw [Nat.add_mul, Nat.one_mul, Nat.mul_comm]; omega)
  have : p / q * q ≤ p := Nat.div_mul_le_self _ _
  rw [Nat.add_mul] at hc
  omega

theorem roundUp_one {p n : Nat} (hn : Base.IsRoundUp p (4096 / 4096) n) : n = p :=
  Nat.le_antisymm (hn.2.2 p (Nat.one_dvd p) (Nat.le_refl _)) hn.2.1

theorem rounded_fits {rtGran type gran pages : Nat} (hrt : GranOk rtGran) (hsz : pages * 4096 + rtGran < W)
    (q1 : Persists type → gran = rtGran) (q2 : ¬ Persists type → gran = 4096) :
    ∀ n, Base.IsRoundUp pages (gran / 4096) n → n * 4096 < W := by
  intro n hn
  have hpos : 0 < rtGran / 4096 := by
    obtain ⟨k, k1, k2, rfl⟩ := hrt
    have : 2 ^ 12 ≤ 2 ^ k := Nat.pow_le_pow_right (by omega) k1
    generalize 2 ^ k = x at this
    omega
  have hle : n ≤ pages + (rtGran / 4096) := by
    by_cases hP : Persists type
    · rw [q1 hP] at hn
      exact roundUp_le hpos hn
    · rw [q2 hP] at hn
      have := roundUp_one hn
      omega
  have := Nat.div_mul_le_self rtGran 4096
  calc n * 4096 ≤ (pages + rtGran / 4096) * 4096 := Nat.mul_le_mul_right _ hle
    _ = pages * 4096 + rtGran / 4096 * 4096 := Nat.add_mul _ _ _
    _ ≤ pages * 4096 + rtGran := Nat.add_le_add_left this _
    _ < W := hsz

/-- C54: a successful `AllocatePages` gives the caller pages as asked (`Fulfils`) that nobody else has: no byte is in common with
any block or range given out. They are allocated to the allocator of the memory type asked for. No memory is written, and nothing
given out is taken back. -/
theorem coreAllocatePages_ok (hE : EnvOk E) (hp : Possible E (w, h)) {rtGran : Nat} (hrt : GranOk rtGran) (hgr : w.Grained rtGran) (hd : w.Distinct)
    (hh : w.Handles) {kind type handle pages m a : Nat} (h0 : handle ≠ 0) (hm : m < W)
    (hfresh : (∀ f ∈ w.fsbs, f.memType ≠ type) → ∀ f ∈ w.fsbs, f.handle ≠ handle) {alignment : Option Nat}
    (hal : ∀ al, alignment = some al → AlignOk al) (hsz : pages * 4096 + rtGran < W) {dbg : Bool}
    (hx : coreAllocatePages E dbg rtGran w kind type handle pages (some m) alignment = (.ok a, w')) :
    ∃ (n i : Nat) (f : Fsb E.H) (sp : List Span), Fulfils rtGran kind type pages m alignment a n ∧ 0 < n ∧
      (∀ x ∈ h.grants, ¬ Overlap x.ptr x.layout.size a (n * 4096)) ∧ (∀ s ∈ h.spans, ¬ Overlap s.base s.len a (n * 4096)) ∧
      w'.fsbs[i]? = some f ∧ f.memType = type ∧ Live w'.gcd a (n * 4096) f.handle ∧ w'.mem = w.mem ∧
      Steps E (w, h) (w', ⟨h.grants, sp⟩) ∧ (∀ s ∈ h.spans, s ∈ sp) ∧ (⟨f.handle, a, n * 4096⟩ : Span) ∈ sp ∧
      w'.Grained rtGran ∧ w'.Distinct ∧ w'.Handles := by
  unfold coreAllocatePages at hx
  simp only at hx
  split at hx
  · rcases hg : w.getOrCreate E rtGran type handle with ⟨i, w1⟩
    simp only [hg] at hx
    obtain ⟨h1, f, h2, h3, h4, h5⟩ := getOrCreate_found (h := h) hg
    have gr1 := getOrCreate_grained hgr hg
    have hf1 := List.mem_of_getElem? h2
    obtain ⟨q1, q2⟩ := gr1 f hf1
    rw [h3] at q1 q2
    have hat : ∃ at_, strategy kind m = some at_ := by
      cases hs : strategy kind m with
      | none => simp only [h2, hs] at hx; simp at hx
      | some at_ => exact ⟨at_, rfl⟩
    obtain ⟨at_, hs⟩ := hat
    simp only [h2, hs] at hx
    rcases hy : Machine.allocatePages E dbg (w1.machine f) at_ pages (alignment.getD UEFI_PAGE_SIZE) with ⟨r, s'⟩
    have hy' : Machine.allocatePages E dbg ⟨w1.gcd, w1.mem, f⟩ at_ pages (alignment.getD UEFI_PAGE_SIZE) = (r, s') := hy
    simp only [hy', Prod.mk.injEq] at hx
    obtain ⟨rfl, rfl⟩ := hx
    have hin : AllocType.InRange at_ := by
      unfold strategy at hs
      split at hs
      · injection hs with hs; subst hs; trivial
      · split at hs
        · injection hs with hs; subst hs; exact hm
        · split at hs
          · injection hs with hs; subst hs; exact hm
          · cases hs
    have halign : AlignOk (alignment.getD UEFI_PAGE_SIZE) := by
      cases alignment with
      | none => exact ⟨12, by omega, rfl⟩
      | some al => exact hal al rfl
    have hgf : GranOk f.gran := grained_gran hrt gr1 f hf1
    have hpW : pages < W := by omega
    have hlt := rounded_fits hrt hsz q1 q2
    obtain ⟨b0, b1, b2, b3, n, sp, b4, b5, b6, b7, b8, b9, b10, b11, b12⟩ :=
      allocatePages_ok hE (hp.steps h1) h2 hgf hin halign hpW hlt hy
    obtain ⟨f', c1, c2, c3, c4⟩ := steps_ident b10 h2
    simp only at c1
    have hlen := (List.getElem?_eq_some_iff.1 h2).1
    have hput : (w1.put i s').fsbs[i]? = some s'.fsb := List.getElem?_set_self hlen
    rw [hput] at c1
    injection c1 with c1
    subst c1
    refine ⟨n, i, s'.fsb, sp, ?_, b5, b7, b8, hput, c2.trans h3, ?_, b3.trans h5, h1.trans b10, b11, by rw [c3]; exact b12,
      put_grained gr1 h2 c2 c3 c4, put_distinct (getOrCreate_distinct hd hg) h2 c2, put_handles (getOrCreate_handles hh h0 hfresh hg) h2 c2 c3 c4⟩
    · refine ⟨b4.2.1, ?_, ?_, b0, ?_, ?_, ?_, ?_⟩
      · intro hP
        rw [q2 hP] at b4
        exact roundUp_one b4
      · intro hP
        rw [q1 hP] at b4
        exact b4
      · obtain ⟨k, k1, k2, hk⟩ := hgf
        rw [hk] at b1
        exact Nat.mod_eq_zero_of_dvd (Nat.dvd_trans (Nat.pow_dvd_pow 2 k1 : 2 ^ 12 ∣ 2 ^ k) (Nat.dvd_of_mod_eq_zero b1))
      · intro hP
        rw [q1 hP] at b1
        exact b1
      · intro al e
        rw [e] at b2
        exact b2
      · unfold strategy at hs
        split at hs
        · left; assumption
        · split at hs
          · injection hs with hs
            subst hs
            exact .inr (.inl ⟨by assumption, b6⟩)
          · split at hs
            · injection hs with hs
              subst hs
              exact .inr (.inr ⟨by assumption, b6⟩)
            · cases hs
    · rw [c3]
      exact b9
  · simp only [Prod.mk.injEq] at hx
    cases hx.1

/-- C54: a request through a null pointer, for a memory type that cannot be allocated, or of an unknown kind is an invalid
parameter, and nothing changes (but an allocator, without memory, may have been made for the type). -/
theorem coreAllocatePages_invalid {dbg : Bool} {rtGran kind type handle pages : Nat} {memory alignment : Option Nat}
    (hbad : memory = none ∨ (type = 7 ∨ 14 ≤ type ∧ type ≤ 0x6FFFFFFF) ∨ 2 < kind) :
    ∃ w', coreAllocatePages E dbg rtGran w kind type handle pages memory alignment = (.err .invalidParameter, w') ∧ w'.gcd = w.gcd ∧
      w'.mem = w.mem ∧ w'.regions = w.regions ∧ Steps E (w, h) (w', h) := by
  unfold coreAllocatePages
  cases memory with
  | none => exact ⟨w, rfl, rfl, rfl, rfl, .refl⟩
  | some m =>
    simp only
    by_cases ht : typeOk type = true
    · rw [if_pos ht]
      have hk : 2 < kind := by
        rcases hbad with hb | hb | hb
        · cases hb
        · exfalso
          unfold typeOk at ht
          simp only [Bool.not_eq_true', Bool.or_eq_false_iff, beq_eq_false_iff_ne, decide_eq_false_iff_not] at ht
          omega
        · exact hb
      rcases hg : w.getOrCreate E rtGran type handle with ⟨i, w1⟩
      obtain ⟨h1, f, h2, h3, h4, h5⟩ := getOrCreate_found (h := h) hg
      have hs : strategy kind m = none := by
        unfold strategy
        rw [if_neg (by omega), if_neg (by omega), if_neg (by omega)]
      simp only [h2, hs]
      refine ⟨w1, rfl, h4, h5, ?_, h1⟩
      rcases getOrCreate_spec hg with ⟨rfl, _⟩ | ⟨_, _, rfl⟩
      · rfl
      · simp [World.regions, Fsb.new]
    · rw [if_neg ht]
      exact ⟨w, rfl, rfl, rfl, rfl, .refl⟩

theorem takePages_misaligned {s : Machine E.H} {dbg : Bool} {m pages align : Nat} (hg : GranOk s.fsb.gran) (hal : AlignOk align) (hpg : pages < W)
    (hbad : m % s.fsb.gran ≠ 0 ∨ m % align ≠ 0) : Machine.takePages E dbg s (.address m) pages align = (.err .invalidParameter, s) := by
  obtain ⟨k, k1, k2, k3, k4, k5, k6⟩ := max_align hg hal
  unfold Machine.takePages
  rcases hr : Base.alignUp 64 pages (sizeToPages s.fsb.gran) with n | e9 | _
  · simp only [k4]
    have hm : misaligned (.address m) (max s.fsb.gran align) = true := by
      unfold misaligned
      rw [k3]
      refine decide_eq_true fun h0 => ?_
      have hdv := Nat.dvd_of_mod_eq_zero h0
      rcases hbad with hb | hb
      · exact hb (Nat.mod_eq_zero_of_dvd (Nat.dvd_trans k5 hdv))
      · exact hb (Nat.mod_eq_zero_of_dvd (Nat.dvd_trans k6 hdv))
    rw [if_pos hm]
  · obtain ⟨k', c1, c2, c3⟩ := hg
    rw [c3, sizeToPages_gran c1] at hr
    obtain ⟨r, _, he⟩ := (Base.alignUp_spec 64 pages (2 ^ (k' - 12)) (by unfold W at hpg; omega)).1 ⟨_, rfl⟩
    rw [he] at hr
    split at hr
    · cases hr
    · injection hr with hr; subst hr; rfl
  · obtain ⟨k', c1, c2, c3⟩ := hg
    rw [c3, sizeToPages_gran c1] at hr
    obtain ⟨r, _, he⟩ := (Base.alignUp_spec 64 pages (2 ^ (k' - 12)) (by unfold W at hpg; omega)).1 ⟨_, rfl⟩
    rw [he] at hr
    split at hr <;> cases hr

/-- C54: pages at an address that is not a multiple of the granularity of the type, or of the alignment asked for, are refused as
an invalid parameter, and nothing changes. -/
theorem coreAllocatePages_misaligned {rtGran : Nat} (hrt : GranOk rtGran) (hgr : w.Grained rtGran) {dbg : Bool} {type handle pages m : Nat}
    {alignment : Option Nat} (hal : ∀ al, alignment = some al → AlignOk al) (hpg : pages < W)
    (hbad : m % 4096 ≠ 0 ∨ Persists type ∧ m % rtGran ≠ 0 ∨ ∃ al, alignment = some al ∧ m % al ≠ 0) :
    ∃ w', coreAllocatePages E dbg rtGran w 2 type handle pages (some m) alignment = (.err .invalidParameter, w') ∧ w'.gcd = w.gcd ∧
      w'.mem = w.mem := by
  unfold coreAllocatePages
  simp only
  by_cases ht : typeOk type = true
  · rw [if_pos ht]
    rcases hg : w.getOrCreate E rtGran type handle with ⟨i, w1⟩
    obtain ⟨h1, f, h2, h3, h4, h5⟩ := getOrCreate_found (h := ⟨[], []⟩) hg
    have gr1 := getOrCreate_grained hgr hg
    have hf1 := List.mem_of_getElem? h2
    obtain ⟨q1, q2⟩ := gr1 f hf1
    rw [h3] at q1 q2
    have hs : strategy 2 m = some (.address m) := rfl
    have hgf := grained_gran hrt gr1 f hf1
    simp only [h2, hs]
    have hbad' : m % f.gran ≠ 0 ∨ m % (alignment.getD UEFI_PAGE_SIZE) ≠ 0 := by
      rcases hbad with hb | ⟨hP, hb⟩ | ⟨al, hb1, hb2⟩
      · left
        intro h0
        obtain ⟨k, k1, k2, hk⟩ := hgf
        rw [hk] at h0
        exact hb (Nat.mod_eq_zero_of_dvd (Nat.dvd_trans (Nat.pow_dvd_pow 2 k1 : 2 ^ 12 ∣ 2 ^ k) (Nat.dvd_of_mod_eq_zero h0)))
      · left; rw [q1 hP]; exact hb
      · right; rw [hb1]; exact hb2
    have halign : AlignOk (alignment.getD UEFI_PAGE_SIZE) := by
      cases alignment with
      | none => exact ⟨12, by omega, rfl⟩
      | some al => exact hal al rfl
    unfold Machine.allocatePages
    rw [takePages_misaligned (s := { gcd := w1.gcd, mem := w1.mem, fsb := f.countPageAlloc }) (show GranOk f.countPageAlloc.gran from hgf) halign hpg hbad']
    exact ⟨_, rfl, h4, h5⟩
  · rw [if_neg ht]
    exact ⟨w, rfl, rfl, rfl⟩

/-! ### Giving back -/

theorem foreign_put {i : Nat} {f : Fsb E.H} {s' : Machine E.H} (hg : s'.gcd = w.gcd) (hm : s'.mem = w.mem) (hs : s'.fsb = f.countPageFree) :
    w.put i s' = { w with fsbs := w.fsbs.set i f.countPageFree } := by
  unfold World.put
  rw [hg, hm, hs]

/-- Allocators that have nothing at the address just count the call. -/
theorem freePagesAny_skip {a pages k : Nat} {dbg : Bool} (hpg : pages < W) :
    ∀ {is rest : List Nat} {w0 : World E.H}, Reachable E.gcdNode w0.gcd → Live w0.gcd a 1 k →
      (∀ i ∈ is, ∀ f, w0.fsbs[i]? = some f → f.handle ≠ k) →
      ∃ w1 : World E.H, freePagesAny dbg a pages (is ++ rest) w0 = freePagesAny dbg a pages rest w1 ∧ w1.gcd = w0.gcd ∧ w1.mem = w0.mem ∧
        w1.fsbs.length = w0.fsbs.length ∧
        ∀ (j : Nat) f, w0.fsbs[j]? = some f → ∃ f', w1.fsbs[j]? = some f' ∧ f'.memType = f.memType ∧ f'.handle = f.handle ∧ f'.gran = f.gran ∧
          f'.reserved = f.reserved ∧ (j ∉ is → f' = f) := by
  intro is
  induction is with
  | nil => intro rest w0 _ _ _; exact ⟨w0, rfl, rfl, rfl, rfl, fun j f hf => ⟨f, hf, rfl, rfl, rfl, rfl, fun _ => rfl⟩⟩
  | cons i is ih =>
    intro rest w0 hr0 hl0 hne
    simp only [List.cons_append]
    rw [freePagesAny]
    cases hf : w0.fsbs[i]? with
    | none =>
      simp only
      obtain ⟨w1, k1, k2, k3, k4, k5⟩ := ih (rest := rest) (w0 := w0) hr0 hl0 (fun j hj => hne j (List.mem_cons_of_mem _ hj))
      refine ⟨w1, k1, k2, k3, k4, ?_⟩
      intro j f hf
      obtain ⟨f', l1, l2, l3, l4, l5, l6⟩ := k5 j f hf
      exact ⟨f', l1, l2, l3, l4, l5, fun hj => l6 fun hm => hj (List.mem_cons_of_mem _ hm)⟩
    | some f =>
      obtain ⟨e, s', m1, m2, m3, m4⟩ := freePages_foreign (dbg := dbg) (f := f) hr0 hpg hl0 (Ne.symm (hne i (List.mem_cons_self ..) f hf))
      have m1' : Machine.freePages dbg ⟨w0.gcd, w0.mem, f⟩ a pages = (.err e, s') := m1
      simp only [m1']
      rw [foreign_put m2 m3 m4]
      have hlen := (List.getElem?_eq_some_iff.1 hf).1
      have hget : ∀ (j : Nat) g, w0.fsbs[j]? = some g → ∃ g', (w0.fsbs.set i f.countPageFree)[j]? = some g' ∧ g'.memType = g.memType ∧ g'.handle = g.handle ∧
          g'.gran = g.gran ∧ g'.reserved = g.reserved ∧ (j ≠ i → g' = g) := by
        intro j g hg
        by_cases hij : i = j
        · subst hij
          rw [hf] at hg; injection hg with hg; subst hg
          exact ⟨f.countPageFree, List.getElem?_set_self hlen, rfl, rfl, rfl, rfl, fun h => absurd rfl h⟩
        · exact ⟨g, by rw [List.getElem?_set_ne hij]; exact hg, rfl, rfl, rfl, rfl, fun _ => rfl⟩
      obtain ⟨w1, k1, k2, k3, k4, k5⟩ := ih (rest := rest) (w0 := { w0 with fsbs := w0.fsbs.set i f.countPageFree }) hr0 hl0 (by
        intro j hj g hg
        simp only at hg
        by_cases hij : i = j
        · subst hij
          rw [List.getElem?_set_self hlen] at hg
          injection hg with hg; subst hg
          exact hne i (List.mem_cons_self ..) f hf
        · rw [List.getElem?_set_ne hij] at hg
          exact hne j (List.mem_cons_of_mem _ hj) g hg)
      refine ⟨w1, k1, k2, k3, by rw [k4]; simp, ?_⟩
      intro j g hg
      obtain ⟨g', n1, n2, n3, n4, n5, n6⟩ := hget j g hg
      obtain ⟨g'', l1, l2, l3, l4, l5, l6⟩ := k5 j g' n1
      exact ⟨g'', l1, l2.trans n2, l3.trans n3, l4.trans n4, l5.trans n5, fun hj => (l6 fun hm => hj (List.mem_cons_of_mem _ hm)).trans
        (n6 fun e => hj (e ▸ List.mem_cons_self ..))⟩

theorem range_split {i n : Nat} (h : i < n) : List.range n = List.range i ++ i :: List.range' (i + 1) (n - i - 1) := by
  rw [List.range_eq_range', List.range_eq_range', ← List.range'_succ, show n - i - 1 + 1 = n - i by omega]
  have := List.range'_append (s := 0) (m := i) (n := n - i) (step := 1)
  rw [Nat.zero_add, Nat.one_mul, show i + (n - i) = n by omega] at this
  exact this.symm

theorem coreFreePages_eq {dbg : Bool} {a pages : Nat} (ha : a % 4096 = 0) (hsz : a + pages * 4096 < W) :
    coreFreePages dbg w a pages = freePagesAny dbg a pages (List.range w.fsbs.length) w := by
  unfold coreFreePages
  have h1 : ¬ W ≤ a + pages * UEFI_PAGE_SIZE := Nat.not_le.2 hsz
  have h2 : ¬ W ≤ pages * UEFI_PAGE_SIZE := fun h => h1 (Nat.le_trans h (Nat.le_add_left _ _))
  rw [if_neg h2, if_neg h1, if_neg (by exact fun h => h ha)]

/-- C54: a range that is not made of whole pages, or goes past the end of the address space, is an invalid parameter; nothing
changes. -/
theorem coreFreePages_invalid {dbg : Bool} {a pages : Nat} (hbad : a % 4096 ≠ 0 ∨ W ≤ a + pages * 4096) :
    coreFreePages dbg w a pages = (.err .invalidParameter, w) := by
  unfold coreFreePages
  split
  · rfl
  · split
    · rfl
    · rename_i h1 h2
      rcases hbad with hb | hb
      · rw [if_pos (by exact hb)]
      · exact absurd hb h2

/-- C54: memory that is not allocated to one of the allocators (but, say, to the core itself) cannot be given back: it is not
found, and nothing changes. -/
theorem coreFreePages_foreign (hr : Reachable E.gcdNode w.gcd) {dbg : Bool} {a pages k : Nat} (ha : a % 4096 = 0) (hsz : a + pages * 4096 < W)
    (hl : Live w.gcd a 1 k) (hk : ∀ f ∈ w.fsbs, f.handle ≠ k) :
    ∃ w', coreFreePages dbg w a pages = (.err .notFound, w') ∧ w'.gcd = w.gcd ∧ w'.mem = w.mem := by
  rw [coreFreePages_eq ha hsz]
  have hpg : pages < W := by omega
  obtain ⟨w1, k1, k2, k3, _⟩ := freePagesAny_skip (dbg := dbg) hpg (is := List.range w.fsbs.length) (rest := []) hr hl
    (fun i _ f hf => hk f (List.mem_of_getElem? hf))
  rw [List.append_nil] at k1
  rw [k1]
  exact ⟨w1, rfl, k2, k3⟩

/-- The call is decided by the allocator the memory is allocated to. -/
theorem freePagesAny_owner (hr : Reachable E.gcdNode w.gcd) (hh : w.Handles) {dbg : Bool} {a pages : Nat} (hpg : pages < W) {i : Nat} {f : Fsb E.H}
    (hf : w.fsbs[i]? = some f) (hl : Live w.gcd a 1 f.handle) {s' : Machine E.H}
    (hx : Machine.freePages dbg (w.machine f) a pages = (.ok (), s')) :
    ∃ w', freePagesAny dbg a pages (List.range w.fsbs.length) w = (.ok (), w') ∧ w'.gcd = s'.gcd ∧ w'.mem = s'.mem ∧
      w'.fsbs[i]? = some s'.fsb := by
  have hlen := (List.getElem?_eq_some_iff.1 hf).1
  rw [range_split hlen]
  obtain ⟨w1, k1, k2, k3, k4, k5⟩ := freePagesAny_skip (dbg := dbg) hpg (is := List.range i) (rest := i :: List.range' (i + 1) (w.fsbs.length - i - 1)) hr hl (by
    intro j hj g hg he
    have := hh.distinct j i g f hg hf he
    rw [List.mem_range] at hj
    omega)
  rw [k1, freePagesAny]
  obtain ⟨f', l1, _, _, _, _, l6⟩ := k5 i f hf
  have : f' = f := l6 (by rw [List.mem_range]; omega)
  subst this
  have hx' : Machine.freePages dbg ⟨w1.gcd, w1.mem, f'⟩ a pages = (.ok (), s') := by rw [k2, k3]; exact hx
  simp only [l1, hx']
  exact ⟨_, rfl, rfl, rfl, List.getElem?_set_self (by rw [k4]; exact hlen)⟩

/-- C54: whole pages that were given out can be given back. Afterwards exactly those are not allocated any more, and they are kept for
their allocator exactly if they begin in its reserved range; nothing is written to memory. (The conditions are those of the GCD: room
in its table, and read protection among the capabilities of the memory. A debug build also checks the counts, see C53.) -/
theorem coreFreePages_ok (hr : Reachable E.gcdNode w.gcd) (hul : w.gcd.locked = false) {rtGran : Nat} (hrt : GranOk rtGran) (hgr : w.Grained rtGran)
    (hh : w.Handles) {a pages i : Nat} {f : Fsb E.H} (hf : w.fsbs[i]? = some f) (ha : a % f.gran = 0) (hpm : pages % (f.gran / 4096) = 0)
    (hsz : a + pages * 4096 < W) {c : Cell} (hu : Uniform w.gcd.blocks a (pages * 4096) c) (hca : c.allocated = true) (hci : c.image = f.handle)
    (hroom : w.gcd.blocks.length + 4 ≤ 4096) (hrp : c.caps.testBit 13 = true) :
    ∃ w' c', coreFreePages false w a pages = (.ok (), w') ∧ w'.mem = w.mem ∧ c'.allocated = false ∧
      (f.Reserves a → c'.image = f.handle) ∧ (¬ f.Reserves a → c'.image = 0) ∧ Updated w.gcd.blocks w'.gcd.blocks a (pages * 4096) c' := by
  have hgf := grained_gran hrt hgr f (List.mem_of_getElem? hf)
  have hpW : pages < W := by omega
  have hsW : pages * 4096 < W := by omega
  obtain ⟨s', hx⟩ := freePages_succeeds hr hul hgf hpW ha hpm hsW hu hca hci hroom hrp
  have hrd : ∀ n, Base.IsRoundUp pages (f.gran / 4096) n → n = pages := fun n hn =>
    Nat.le_antisymm (hn.2.2 pages (Nat.dvd_of_mod_eq_zero hpm) (Nat.le_refl _)) hn.2.1
  obtain ⟨h1, _, n, c1, h3, h4, h5, h6, h7, c', h8, h9, h10, h11⟩ := freePages_ok hr hul hgf hpW (fun n hn => by rw [hrd n hn]; exact hsW) hx
  have := hrd n h3
  subst this
  have ha4 : a % 4096 = 0 := by
    obtain ⟨k, k1, k2, hk⟩ := hgf
    rw [hk] at ha
    exact Nat.mod_eq_zero_of_dvd (Nat.dvd_trans (Nat.pow_dvd_pow 2 k1 : 2 ^ 12 ∣ 2 ^ k) (Nat.dvd_of_mod_eq_zero ha))
  have hl : Live w.gcd a 1 f.handle := by
    intro x x1 x2
    exact ⟨c, hu.2 x x1 (by omega), hca, hci⟩
  obtain ⟨w', m1, m2, m3, _⟩ := freePagesAny_owner hr hh hpW hf hl hx
  rw [← coreFreePages_eq ha4 hsz] at m1
  exact ⟨w', c', m1, m3.trans h1, h8, h9, h10, by rw [m2]; exact h11⟩

end Verif.Alloc
