import Verif.Alloc.FreePages
/-!
C53: the number of pages an allocator reports for its memory type (which ends up in the memory type information that sizes the
reserved ranges of the next boot) is the number of pages it has in use.

`Counted f l` says that the pages in use are `l` after some history of the calls that change the count. It is about the pages, by
number, and refers to no counter.
-/
namespace Verif.Alloc
open Verif.Gcd
open Verif.Hob (Mem)

/-- The pages of a range of `n` pages from `base`. -/
def pagesOf (base n : Nat) : List Nat := (List.range n).map fun i => base / 4096 + i

/-- The range is entirely inside or entirely outside the reserved range. -/
def Fsb.Unmixed {H : Heap} (f : Fsb H) (base n : Nat) : Prop :=
  ∀ i, i < n → (f.Reserves (base + i * 4096) ↔ f.Reserves base)

/-- A change of the allocator that is not about pages. -/
def SameCounts {H : Heap} (f f' : Fsb H) : Prop :=
  f'.stats.reservedSize = f.stats.reservedSize ∧ f'.stats.reservedUsed = f.stats.reservedUsed ∧
    f'.stats.claimedPages = f.stats.claimedPages ∧ f'.reserved = f.reserved ∧ f'.numberOfPages = f.numberOfPages

/-- A range of pages in the address space -/
def PageRange (base n : Nat) : Prop := base % 4096 = 0 ∧ 0 < base ∧ 0 < n ∧ base + n * 4096 ≤ W

inductive Counted (H : Heap) (dbg : Bool) : Fsb H → List Nat → Prop where
  | new {type gran handle : Nat} : Counted H dbg (Fsb.new H type gran handle) []
  /-- Anything else: blocks, statistics -/
  | quiet {f f' : Fsb H} {l : List Nat} : Counted H dbg f l → SameCounts f f' → Counted H dbg f' l
  /-- The range is reserved (`set_reserved_range`): the pages are not in use. -/
  | reserve {f f' : Fsb H} {l : List Nat} {base n : Nat} : Counted H dbg f l → PageRange base n → (∀ p ∈ pagesOf base n, p ∉ l) →
      f.setReserved dbg base (n * 4096) = .ok f' → Counted H dbg f' l
  /-- Pages are taken into use (by `allocate_pages`, or to grow the heap). -/
  | claim {f f' : Fsb H} {l : List Nat} {base n : Nat} : Counted H dbg f l → PageRange base n → (∀ p ∈ pagesOf base n, p ∉ l) → f.Unmixed base n →
      f.pagesAllocated dbg base (n * 4096) = .ok f' → Counted H dbg f' (pagesOf base n ++ l)
  /-- Pages in use are given back. -/
  | release {f f' : Fsb H} {l : List Nat} {base n : Nat} : Counted H dbg f l → PageRange base n → (∀ p ∈ pagesOf base n, p ∈ l) → f.Unmixed base n →
      f.pagesFreed dbg base n = .ok f' → Counted H dbg f' (l.filter fun p => !(pagesOf base n).contains p)

variable {H : Heap}

/-- Pages in the reserved range -/
def rin (r : Option (Nat × Nat)) (p : Nat) : Bool :=
  match r with
  | some (b, e) => decide (b ≤ p * 4096 ∧ p * 4096 < e)
  | none => false

/-- What the counters stand for -/
structure CountOk (f : Fsb H) (l : List Nat) : Prop where
  nodup : l.Nodup
  lt : ∀ p ∈ l, 0 < p ∧ p < 2 ^ 52
  range : ∀ b e, f.reserved = some (b, e) → b % 4096 = 0 ∧ 0 < b ∧ e % 4096 = 0 ∧ b ≤ e ∧ e ≤ W ∧ f.stats.reservedSize = e - b
  unres : f.reserved = none → f.stats.reservedSize = 0
  used : f.stats.reservedUsed = 4096 * (l.filter (rin f.reserved)).length
  claimed : f.stats.claimedPages = f.stats.reservedSize / 4096 + (l.filter fun p => !rin f.reserved p).length

theorem mem_pagesOf {base n p : Nat} : p ∈ pagesOf base n ↔ base / 4096 ≤ p ∧ p < base / 4096 + n := by
  unfold pagesOf
  rw [List.mem_map]
  constructor
  · rintro ⟨i, hi, rfl⟩
    have := List.mem_range.1 hi
    omega
  · rintro ⟨h1, h2⟩
    exact ⟨p - base / 4096, List.mem_range.2 (by omega), by omega⟩

theorem pagesOf_nodup (base n : Nat) : (pagesOf base n).Nodup := by
  unfold pagesOf
  rw [List.Nodup, List.pairwise_map]
  exact List.nodup_range.imp fun {a b} hne he => hne (by omega)

theorem length_pagesOf (base n : Nat) : (pagesOf base n).length = n := by simp [pagesOf]

/-- Pages without repetition between `b` and `e`: not more than fit. -/
theorem length_le_range {l : List Nat} {b e : Nat} (hn : l.Nodup) (h : ∀ p ∈ l, b ≤ p ∧ p < e) : l.length ≤ e - b := by
  have := List.Nodup.length_le_of_subset (l₂ := (List.range (e - b)).map fun i => b + i) hn fun p hp => by
    obtain ⟨h1, h2⟩ := h p hp
    exact List.mem_map.2 ⟨p - b, List.mem_range.2 (by omega), by omega⟩
  simpa using this

theorem CountOk.le {f : Fsb H} {l : List Nat} (ok : CountOk f l) : f.stats.reservedUsed ≤ f.stats.reservedSize := by
  rw [ok.used]
  cases hr : f.reserved with
  | none => rw [List.filter_eq_nil_iff.2 fun p _ => by simp [rin]]; simp
  | some x =>
    obtain ⟨b, e⟩ := x
    obtain ⟨h1, _, h3, h4, _, h5⟩ := ok.range b e hr
    have := length_le_range (b := b / 4096) (e := e / 4096) (ok.nodup.sublist (List.filter_sublist (p := rin (some (b, e))))) fun p hp => by
      have := (List.mem_filter.1 hp).2
      simp only [rin, decide_eq_true_eq] at this
      omega
    omega

theorem filter_split (l : List Nat) (q : Nat → Bool) : (l.filter q).length + (l.filter fun p => !q p).length = l.length := by
  induction l with
  | nil => rfl
  | cons a l ih => simp only [List.filter_cons]; cases q a <;> simp <;> omega

theorem CountOk.sizes {f : Fsb H} {l : List Nat} (ok : CountOk f l) :
    f.stats.reservedSize % 4096 = 0 ∧ f.stats.reservedSize + 4096 ≤ W ∧ l.length < 2 ^ 52 := by
  refine ⟨?_, ?_, ?_⟩
  · cases hr : f.reserved with
    | none => rw [ok.unres hr]
    | some x => obtain ⟨h1, _, h3, h4, _, h5⟩ := ok.range _ _ hr; omega
  · cases hr : f.reserved with
    | none => rw [ok.unres hr]; decide
    | some x => obtain ⟨h1, _, h3, h4, _, h5⟩ := ok.range _ _ hr; omega
  · have := length_le_range (b := 1) (e := 2 ^ 52) ok.nodup fun p hp => by have := ok.lt p hp; omega
    omega

/-- The reported number, and no panic -/
theorem CountOk.update {f : Fsb H} {l : List Nat} (ok : CountOk f l) (dbg : Bool) :
    f.updateInfo dbg = .ok { f with numberOfPages := l.length % 2 ^ 32 } := by
  have h1 := ok.le
  obtain ⟨h2, h3, h4⟩ := ok.sizes
  have h5 := filter_split l (rin f.reserved)
  have h6 := ok.used
  have h7 := ok.claimed
  have hs : subw f.stats.reservedSize f.stats.reservedUsed = f.stats.reservedSize - f.stats.reservedUsed := by
    unfold subw
    rw [show f.stats.reservedSize + W - f.stats.reservedUsed = f.stats.reservedSize - f.stats.reservedUsed + W by omega, Nat.add_mod_right]
    exact Nat.mod_eq_of_lt (by unfold W at h3 ⊢; omega)
  have ha : addw (f.stats.reservedSize - f.stats.reservedUsed) UEFI_PAGE_MASK = f.stats.reservedSize - f.stats.reservedUsed + 4095 := by
    unfold addw UEFI_PAGE_MASK; exact Nat.mod_eq_of_lt (by unfold W at h3 ⊢; omega)
  have hc : subw f.stats.claimedPages ((f.stats.reservedSize - f.stats.reservedUsed + 4095) / 4096) = l.length := by
    unfold subw
    rw [show f.stats.claimedPages + W - (f.stats.reservedSize - f.stats.reservedUsed + 4095) / 4096 = l.length + W by omega, Nat.add_mod_right]
    exact Nat.mod_eq_of_lt (by unfold W; omega)
  unfold Fsb.updateInfo
  simp only [hs, ha, show UEFI_PAGE_SIZE = 4096 from rfl, hc]
  rw [if_neg]
  simp only [Bool.and_eq_true, decide_eq_true_eq, not_and]
  intro _
  omega

theorem CountOk.congr {f f' : Fsb H} {l : List Nat} (ok : CountOk f l) (h1 : f'.stats.reservedSize = f.stats.reservedSize)
    (h2 : f'.stats.reservedUsed = f.stats.reservedUsed) (h3 : f'.stats.claimedPages = f.stats.claimedPages) (h4 : f'.reserved = f.reserved) : CountOk f' l where
  nodup := ok.nodup
  lt := ok.lt
  range := by rw [h1, h4]; exact ok.range
  unres := by rw [h1, h4]; exact ok.unres
  used := by rw [h2, h4]; exact ok.used
  claimed := by rw [h1, h3, h4]; exact ok.claimed

theorem rin_iff {f : Fsb H} {p : Nat} : rin f.reserved p = true ↔ f.Reserves (p * 4096) := by
  unfold rin Fsb.Reserves
  cases hr : f.reserved with
  | none => simp
  | some x =>
    obtain ⟨b, e⟩ := x
    simp only [decide_eq_true_eq, Option.some.injEq, Prod.mk.injEq]
    constructor
    · rintro ⟨h1, h2⟩; exact ⟨b, e, ⟨rfl, rfl⟩, h1, h2⟩
    · rintro ⟨b', e', ⟨rfl, rfl⟩, h1, h2⟩; exact ⟨h1, h2⟩

theorem unmixed_rin {f : Fsb H} {base n : Nat} (hu : f.Unmixed base n) (hb : base % 4096 = 0) : ∀ p ∈ pagesOf base n, rin f.reserved p = f.inReserved base := by
  intro p hp
  rw [mem_pagesOf] at hp
  have := hu (p - base / 4096) (by omega)
  rw [show base + (p - base / 4096) * 4096 = p * 4096 by omega] at this
  rw [Bool.eq_iff_iff, rin_iff, inReserved_iff, this]

theorem CountOk.claim {f : Fsb H} {l : List Nat} (ok : CountOk f l) {base n : Nat} (hr : PageRange base n) (hd : ∀ p ∈ pagesOf base n, p ∉ l)
    (hu : f.Unmixed base n) : CountOk (f.count base (n * 4096)) (pagesOf base n ++ l) := by
  obtain ⟨r1, r2, r3, r4⟩ := hr
  have hin := unmixed_rin hu r1
  have hnd : (pagesOf base n ++ l).Nodup := List.nodup_append.2 ⟨pagesOf_nodup _ _, ok.nodup, fun a ha b hb he => hd a ha (he ▸ hb)⟩
  have hlt : ∀ p ∈ pagesOf base n ++ l, 0 < p ∧ p < 2 ^ 52 := by
    intro p hp
    rcases List.mem_append.1 hp with hp | hp
    · rw [mem_pagesOf] at hp; unfold W at r4; omega
    · exact ok.lt p hp
  have hsz : sizeToPages (n * 4096) = n := by unfold sizeToPages UEFI_PAGE_MASK UEFI_PAGE_SIZE; omega
  unfold Fsb.count
  by_cases hb : f.inReserved base
  · rw [if_pos hb]
    have f1 : (pagesOf base n).filter (rin f.reserved) = pagesOf base n := List.filter_eq_self.2 fun p hp => by rw [hin p hp, hb]
    have f2 : ((pagesOf base n).filter fun p => !rin f.reserved p) = [] := List.filter_eq_nil_iff.2 fun p hp => by rw [hin p hp, hb]; simp
    refine ⟨hnd, hlt, ok.range, ok.unres, ?_, ?_⟩
    · simp only [List.filter_append, f1, List.length_append, length_pagesOf]; rw [ok.used]; omega
    · simp only [List.filter_append, f2, List.nil_append]; exact ok.claimed
  · rw [if_neg hb]
    rw [Bool.not_eq_true] at hb
    have f1 : (pagesOf base n).filter (rin f.reserved) = [] := List.filter_eq_nil_iff.2 fun p hp => by rw [hin p hp, hb]; simp
    have f2 : ((pagesOf base n).filter fun p => !rin f.reserved p) = pagesOf base n := List.filter_eq_self.2 fun p hp => by rw [hin p hp, hb]; rfl
    refine ⟨hnd, hlt, ok.range, ok.unres, ?_, ?_⟩
    · simp only [List.filter_append, f1, List.nil_append]; exact ok.used
    · simp only [List.filter_append, f2, List.length_append, length_pagesOf, hsz]; rw [ok.claimed]; omega

/-- Taking `q` out of a list that has it -/
theorem filter_out {l q : List Nat} (hl : l.Nodup) (hq : q.Nodup) (hs : ∀ p ∈ q, p ∈ l) :
    (l.filter fun p => !q.contains p).length + q.length = l.length := by
  have h1 := filter_split l (fun p => q.contains p)
  have h2 : (l.filter fun p => q.contains p).Perm q := by
    refine (List.perm_ext_iff_of_nodup (hl.sublist List.filter_sublist) hq).2 fun a => ?_
    rw [List.mem_filter, List.contains_iff_mem]
    exact ⟨fun h => h.2, fun h => ⟨hs a h, h⟩⟩
  have h3 := h2.length_eq
  omega

theorem CountOk.release {f f1 : Fsb H} {l : List Nat} (ok : CountOk f l) {base n : Nat} (hr : PageRange base n) (hd : ∀ p ∈ pagesOf base n, p ∈ l)
    (hu : f.Unmixed base n)
    (hf : f1 = if f.inReserved base then ({ f with stats := { f.stats with reservedUsed := f.stats.reservedUsed - n * ALIGNMENT } } : Fsb H)
      else { f with stats := { f.stats with claimedPages := f.stats.claimedPages - n } }) :
    CountOk f1 (l.filter fun p => !(pagesOf base n).contains p) := by
  obtain ⟨r1, r2, r3, r4⟩ := hr
  have hin := unmixed_rin hu r1
  have hnd : (l.filter fun p => !(pagesOf base n).contains p).Nodup := ok.nodup.sublist List.filter_sublist
  have hlt : ∀ p ∈ l.filter (fun p => !(pagesOf base n).contains p), 0 < p ∧ p < 2 ^ 52 := fun p hp => ok.lt p (List.mem_filter.1 hp).1
  have hcomm : ∀ q : Nat → Bool, (l.filter fun p => !(pagesOf base n).contains p).filter q = (l.filter q).filter fun p => !(pagesOf base n).contains p := by
    intro q; rw [List.filter_filter, List.filter_filter]; congr 1; funext p; exact Bool.and_comm _ _
  have hrest : ∀ q : Nat → Bool, (∀ p ∈ pagesOf base n, q p = false) → (l.filter q).filter (fun p => !(pagesOf base n).contains p) = l.filter q := by
    intro q hq
    refine List.filter_eq_self.2 fun p hp => ?_
    simp only [Bool.not_eq_true', ← Bool.not_eq_true, List.contains_iff_mem]
    intro hc
    have := hq p hc
    rw [(List.mem_filter.1 hp).2] at this; cases this
  have hall : ∀ q : Nat → Bool, (∀ p ∈ pagesOf base n, q p = true) →
      ((l.filter q).filter (fun p => !(pagesOf base n).contains p)).length + n = (l.filter q).length := by
    intro q hq
    have := filter_out (l := l.filter q) (q := pagesOf base n) (ok.nodup.sublist List.filter_sublist) (pagesOf_nodup _ _)
      fun p hp => List.mem_filter.2 ⟨hd p hp, hq p hp⟩
    rwa [length_pagesOf] at this
  by_cases hb : f.inReserved base
  · rw [if_pos hb] at hf
    subst hf
    have h1 := hall (rin f.reserved) fun p hp => by rw [hin p hp, hb]
    have h2 := hrest (fun p => !rin f.reserved p) fun p hp => by rw [hin p hp, hb]; rfl
    refine ⟨hnd, hlt, ok.range, ok.unres, ?_, ?_⟩
    · simp only [hcomm, ALIGNMENT]; rw [ok.used]; omega
    · simp only [hcomm, h2]; exact ok.claimed
  · rw [if_neg hb] at hf
    subst hf
    rw [Bool.not_eq_true] at hb
    have h1 := hall (fun p => !rin f.reserved p) fun p hp => by rw [hin p hp, hb]; rfl
    have h2 := hrest (rin f.reserved) fun p hp => by rw [hin p hp, hb]
    refine ⟨hnd, hlt, ok.range, ok.unres, ?_, ?_⟩
    · simp only [hcomm, h2]; exact ok.used
    · simp only [hcomm]; rw [ok.claimed]; omega

theorem CountOk.reserve {f f1 : Fsb H} {l : List Nat} (ok : CountOk f l) {base n : Nat} (hr : PageRange base n) (hd : ∀ p ∈ pagesOf base n, p ∉ l)
    (hn : f.reserved = none)
    (hf : f1 = ({ f with reserved := some (base, base + n * 4096), stats := { f.stats with
      reservedSize := n * 4096, reservedUsed := 0, claimedPages := f.stats.claimedPages + sizeToPages (n * 4096) } } : Fsb H)) : CountOk f1 l := by
  obtain ⟨r1, r2, r3, r4⟩ := hr
  subst hf
  have hsz : sizeToPages (n * 4096) = n := by unfold sizeToPages UEFI_PAGE_MASK UEFI_PAGE_SIZE; omega
  have hout : ∀ p ∈ l, rin (some (base, base + n * 4096)) p = false := by
    intro p hp
    simp only [rin, decide_eq_false_iff_not]
    intro hc
    exact hd p (mem_pagesOf.2 (by omega)) hp
  refine ⟨ok.nodup, ok.lt, ?_, (fun h => by cases h), ?_, ?_⟩
  · intro b e he
    simp only [Option.some.injEq, Prod.mk.injEq] at he
    obtain ⟨rfl, rfl⟩ := he
    refine ⟨r1, r2, by omega, by omega, r4, ?_⟩
    simp only
    omega
  · simp only
    rw [List.filter_eq_nil_iff.2 fun p hp => by rw [hout p hp]; simp]; rfl
  · have hc := ok.claimed
    rw [hn, ok.unres hn] at hc
    simp only [rin, Bool.not_false] at hc
    rw [List.filter_eq_self.2 (fun _ _ => rfl)] at hc
    simp only [hsz, hc]
    rw [List.filter_eq_self.2 fun p hp => by rw [hout p hp]; rfl]
    omega

theorem counted_ok {dbg : Bool} {f : Fsb H} {l : List Nat} (hc : Counted H dbg f l) : CountOk f l ∧ f.numberOfPages = l.length % 2 ^ 32 := by
  induction hc with
  | new =>
    refine ⟨⟨List.nodup_nil, by simp, ?_, fun _ => rfl, rfl, by simp [Fsb.new]⟩, rfl⟩
    intro b e he; cases he
  | quiet _ hs ih => exact ⟨ih.1.congr hs.1 hs.2.1 hs.2.2.1 hs.2.2.2.1, hs.2.2.2.2.trans ih.2⟩
  | @reserve f f' l base n _ hr hd hx ih =>
    unfold Fsb.setReserved at hx
    split at hx
    · cases hx
    rename_i hn
    have hn : f.reserved = none := by simpa using hn
    have ok := ih.1.reserve hr hd hn rfl
    rw [ok.update] at hx
    injection hx with hx; subst hx
    exact ⟨ok.congr rfl rfl rfl rfl, rfl⟩
  | claim _ hr hd hu hx ih =>
    have ok := ih.1.claim hr hd hu
    unfold Fsb.pagesAllocated at hx
    rw [ok.update] at hx
    injection hx with hx; subst hx
    exact ⟨ok.congr rfl rfl rfl rfl, rfl⟩
  | release _ hr hd hu hx ih =>
    have ok := ih.1.release hr hd hu rfl
    unfold Fsb.pagesFreed at hx
    rw [ok.update] at hx
    injection hx with hx; subst hx
    exact ⟨ok.congr rfl rfl rfl rfl, rfl⟩

/-- C53: the number of pages an allocator reports is the number of pages in use (as a 32-bit number), after every history. -/
theorem pages_counted {dbg : Bool} {f : Fsb H} {l : List Nat} (hc : Counted H dbg f l) : l.Nodup ∧ f.numberOfPages = l.length % 2 ^ 32 :=
  ⟨(counted_ok hc).1.nodup, (counted_ok hc).2⟩

/-- C53: taking pages into use never panics, in a debug build either, and the number goes up by the pages. -/
theorem claim_counts {dbg : Bool} {f : Fsb H} {l : List Nat} (hc : Counted H dbg f l) {base n : Nat} (hr : PageRange base n)
    (hd : ∀ p ∈ pagesOf base n, p ∉ l) (hu : f.Unmixed base n) :
    ∃ f', f.pagesAllocated dbg base (n * 4096) = .ok f' ∧ f'.numberOfPages = (n + l.length) % 2 ^ 32 ∧ Counted H dbg f' (pagesOf base n ++ l) := by
  have ok := (counted_ok hc).1.claim hr hd hu
  refine ⟨_, ok.update dbg, ?_, .claim hc hr hd hu (ok.update dbg)⟩
  simp only [List.length_append, length_pagesOf]

/-- C53: giving back pages in use never panics, and the number goes down by the pages. -/
theorem release_counts {dbg : Bool} {f : Fsb H} {l : List Nat} (hc : Counted H dbg f l) {base n : Nat} (hr : PageRange base n)
    (hd : ∀ p ∈ pagesOf base n, p ∈ l) (hu : f.Unmixed base n) :
    ∃ f', f.pagesFreed dbg base n = .ok f' ∧ f'.numberOfPages = (l.length - n) % 2 ^ 32 ∧
      Counted H dbg f' (l.filter fun p => !(pagesOf base n).contains p) := by
  have ok := (counted_ok hc).1.release hr hd hu rfl
  refine ⟨_, ok.update dbg, ?_, .release hc hr hd hu (ok.update dbg)⟩
  have := filter_out (counted_ok hc).1.nodup (pagesOf_nodup base n) hd
  rw [length_pagesOf] at this
  simp only
  congr 1
  omega

/-- C53: reserving a range does not change the number. -/
theorem reserve_counts {dbg : Bool} {f : Fsb H} {l : List Nat} (hc : Counted H dbg f l) {base n : Nat} (hr : PageRange base n)
    (hd : ∀ p ∈ pagesOf base n, p ∉ l) (hn : f.reserved = none) :
    ∃ f', f.setReserved dbg base (n * 4096) = .ok f' ∧ f'.numberOfPages = f.numberOfPages ∧ f'.reserved = some (base, base + n * 4096) ∧ Counted H dbg f' l := by
  have ok := (counted_ok hc).1.reserve hr hd hn rfl
  have hx := ok.update dbg
  have he : f.setReserved dbg base (n * 4096) = Fsb.updateInfo dbg _ := if_neg (by rw [hn]; simp)
  rw [← he] at hx
  exact ⟨_, hx, (counted_ok hc).2.symm, rfl, .reserve hc hr hd hx⟩

/-! ### The calls -/

variable {E : Env} {w : World E.H}

/-- C53: growing the heap counts. -/
theorem expand_counts {dbg : Bool} {f f' : Fsb E.H} {l : List Nat} (hc : Counted E.H dbg f l) {base n : Nat} {m m' : Mem} (hr : PageRange base n)
    (hd : ∀ p ∈ pagesOf base n, p ∉ l) (hu : f.Unmixed base n) (hx : f.expand E dbg m base (n * 4096) = (.ok f', m')) :
    f'.numberOfPages = (n + l.length) % 2 ^ 32 ∧ Counted E.H dbg f' (pagesOf base n ++ l) := by
  unfold Fsb.expand at hx
  split at hx
  · split at hx <;> simp at hx
  · simp only [Prod.mk.injEq] at hx
    have hq := Counted.quiet (f' := { f with regions := ⟨base, n * 4096, (E.H.init (base + E.node) (n * 4096 - E.node) m).1⟩ :: f.regions }) hc ⟨rfl, rfl, rfl, rfl, rfl⟩
    obtain ⟨f1, h1, h2, h3⟩ := claim_counts hq hr hd hu
    have := h1.symm.trans hx.1
    injection this with this; subst this
    exact ⟨h2, h3⟩

/-- C53: a successful page allocation adds its pages to the number. -/
theorem allocatePages_counts {dbg : Bool} {f : Fsb E.H} {l : List Nat} (hc : Counted E.H dbg f l) (hg : GranOk f.gran) {at_ : AllocType} {pages align : Nat}
    (hpg : pages < W) (hfit : ∀ n, Base.IsRoundUp pages (f.gran / 4096) n → n * 4096 < W) {a : Nat} {s' : Machine E.H}
    (hx : Machine.allocatePages E dbg (w.machine f) at_ pages align = (.ok a, s'))
    (hn : ∀ n, Base.IsRoundUp pages (f.gran / 4096) n → PageRange a n ∧ (∀ p ∈ pagesOf a n, p ∉ l) ∧ f.Unmixed a n) :
    ∃ n, Base.IsRoundUp pages (f.gran / 4096) n ∧ s'.fsb.numberOfPages = (n + l.length) % 2 ^ 32 ∧ Counted E.H dbg s'.fsb (pagesOf a n ++ l) := by
  unfold Machine.allocatePages at hx
  generalize hs : ({ World.machine w f with fsb := (World.machine w f).fsb.countPageAlloc } : Machine E.H) = s at hx
  have e1 : s.fsb = f.countPageAlloc := by rw [← hs]; rfl
  have e4 : f.countPageAlloc.gran = f.gran := rfl
  unfold Machine.takePages at hx
  rw [e1, e4] at hx
  rcases hr : Base.alignUp 64 pages (sizeToPages f.gran) with n | e9 | _
  · simp only [hr] at hx
    have hrn := pages_rounded hg hpg hr
    have hpz : pagesToSize n = n * 4096 := by unfold pagesToSize UEFI_PAGE_SIZE; exact Nat.mod_eq_of_lt (hfit n hrn)
    rcases hq : pageShift (max f.gran align) with sh | e9 | _
    · simp only [hq] at hx
      by_cases hm : misaligned at_ (max f.gran align) = true
      · rw [if_pos hm] at hx; simp only [Prod.mk.injEq] at hx; cases hx.1
      rw [if_neg hm] at hx
      by_cases hd : (dbg && decide (W ≤ n * UEFI_PAGE_SIZE)) = true
      · rw [if_pos hd] at hx; simp only [Prod.mk.injEq] at hx; cases hx.1
      rw [if_neg hd] at hx
      rcases hy : gcdAllocate E s.gcd at_ sh (pagesToSize n) f.countPageAlloc.handle with ⟨r1, g1⟩
      rw [hy] at hx
      cases r1 with
      | ok b =>
        simp only at hx
        obtain ⟨_, _, _, _, _, _, _, n8⟩ := notePages_ok (by simp) hx
        rcases n8 with ⟨_, hc, _⟩ | ⟨h0, hb⟩
        · cases hc
        injection hb with hb; subst hb
        unfold Machine.notePages at hx
        rw [if_neg h0] at hx
        simp only [hpz] at hx
        obtain ⟨p1, p2, p3⟩ := hn n hrn
        obtain ⟨f1, h1, h2, h3⟩ := claim_counts (Counted.quiet (f' := f.countPageAlloc) hc ⟨rfl, rfl, rfl, rfl, rfl⟩) p1 p2 p3
        simp only [h1, Prod.mk.injEq] at hx
        obtain ⟨_, rfl⟩ := hx
        exact ⟨n, hrn, h2, h3⟩
      | err e => simp only [Prod.mk.injEq] at hx; cases hx.1
      | panic => simp only [Prod.mk.injEq] at hx; cases hx.1
    · simp only [hq, Prod.mk.injEq] at hx; cases hx.1
    · simp only [hq, Prod.mk.injEq] at hx; cases hx.1
  · simp only [hr, Prod.mk.injEq] at hx; cases hx.1
  · simp only [hr, Prod.mk.injEq] at hx; cases hx.1

/-- C53: a successful free takes its pages off the number. -/
theorem freePages_counts {dbg : Bool} {f : Fsb E.H} {l : List Nat} (hc : Counted E.H dbg f l) (hg : GranOk f.gran) {a pages : Nat}
    (hpg : pages < W) {s' : Machine E.H} (hx : Machine.freePages dbg (w.machine f) a pages = (.ok (), s'))
    (hn : ∀ n, Base.IsRoundUp pages (f.gran / 4096) n → PageRange a n ∧ (∀ p ∈ pagesOf a n, p ∈ l) ∧ f.Unmixed a n) :
    ∃ n, Base.IsRoundUp pages (f.gran / 4096) n ∧ s'.fsb.numberOfPages = (l.length - n) % 2 ^ 32 ∧
      Counted E.H dbg s'.fsb (l.filter fun p => !(pagesOf a n).contains p) := by
  obtain ⟨_, hcs⟩ := freePages_cases hx (by simp)
  rcases hcs with ⟨e, he, _⟩ | ⟨n, hr, _, _, _, hcs⟩
  · cases he
  rcases hcs with ⟨e, _, _, he, _⟩ | ⟨_, _, hpf⟩
  · cases he
  have hrn := pages_rounded hg hpg hr
  obtain ⟨p1, p2, p3⟩ := hn n hrn
  obtain ⟨f1, h1, h2, h3⟩ := release_counts (Counted.quiet (f' := f.countPageFree) hc ⟨rfl, rfl, rfl, rfl, rfl⟩) p1 p2 p3
  rw [h1] at hpf
  injection hpf with hpf
  rw [← hpf]
  exact ⟨n, hrn, h2, h3⟩

/-! ### A concrete case, and what happens when a range is partly in the reserved range -/

def noHeap : Heap := { σ := Unit, init := fun _ _ m => ((), m), alloc := fun _ _ _ => none, free := fun s m _ _ => (s, m) }

/-- Reserve 16 pages at 1 MiB, take 3 of them and 2 others, give back one of the 3: 4 in use. -/
example : ∃ f : Fsb noHeap, Counted noHeap true f [0x101, 0x102, 0x200, 0x201] ∧ f.numberOfPages = 4 := by
  obtain ⟨f1, _, _, hr1, h1⟩ := reserve_counts (base := 0x100000) (n := 16) (Counted.new (H := noHeap) (dbg := true) (type := 6) (gran := 4096) (handle := 6))
    (by unfold PageRange; decide) (by decide) rfl
  have res : ∀ f : Fsb noHeap, f.reserved = some (0x100000, 0x110000) → ∀ a, f.Reserves a ↔ (0x100000 ≤ a ∧ a < 0x110000) := by
    intro f hf a
    constructor
    · rintro ⟨b, e, he, h1, h2⟩; rw [hf] at he; simp only [Option.some.injEq, Prod.mk.injEq] at he; omega
    · rintro ⟨h1, h2⟩; exact ⟨_, _, hf, h1, h2⟩
  have keep : ∀ (f f' : Fsb noHeap) a n, f.pagesAllocated true a n = .ok f' → f'.reserved = f.reserved := by
    intro f f' a n hx
    have e := updateInfo_alike hx
    rw [count_alike] at e
    dsimp only at e
    generalize f'.numberOfPages = np at e
    rw [e]
  obtain ⟨f2, x2, _, h2⟩ := claim_counts (base := 0x200000) (n := 2) h1 (by unfold PageRange; decide) (by simp)
    (by intro i hi; rw [res f1 hr1, res f1 hr1]; omega)
  have hr2 := (keep _ _ _ _ x2).trans hr1
  obtain ⟨f3, x3, _, h3⟩ := claim_counts (base := 0x100000) (n := 3) h2 (by unfold PageRange; decide) (by decide)
    (by intro i hi; rw [res f2 hr2, res f2 hr2]; omega)
  have hr3 := (keep _ _ _ _ x3).trans hr2
  obtain ⟨f4, _, h5, h4⟩ := release_counts (base := 0x100000) (n := 1) h3 (by unfold PageRange; decide) (by decide)
    (by intro i hi; rw [res f3 hr3, res f3 hr3]; omega)
  exact ⟨f4, h4, h5⟩

/-- Finding: only the address decides where a range is counted. 8 pages taken inside the reserved range next to 8 taken outside it,
and given back in one call: the 16 are taken off the pages used of the reserved range, and the number reported is 8 although no
page is in use. -/
theorem mixed_free_miscounts : ∃ f1 f2 f3 f4 : Fsb noHeap,
    (Fsb.new noHeap 6 4096 6).setReserved true 0x100000 0x10000 = .ok f1 ∧
    f1.pagesAllocated true 0x108000 0x8000 = .ok f2 ∧ f2.pagesAllocated true 0x110000 0x8000 = .ok f3 ∧ f3.numberOfPages = 16 ∧
    f3.pagesFreed true 0x108000 16 = .ok f4 ∧ f4.numberOfPages = 8 :=
  ⟨_, _, _, _, rfl, rfl, rfl, rfl, rfl, rfl⟩

end Verif.Alloc
