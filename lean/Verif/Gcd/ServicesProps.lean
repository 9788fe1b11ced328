import Verif.Gcd.Services
import Verif.Gcd.AllocProps
import Verif.Gcd.IoProps
/-!
C134: what the services for the memory and the I/O space do for a driver that has only pointers and status codes.

* `Reachable` and `IoReachable` (in `Verif.Gcd.Spec` and `Verif.Gcd.IoProps`): the space after some history of calls.
* `cellAt l a`: what the map `l` says of the address `a`. `Tiles 0 l e`: the descriptors of `l` follow each other without a gap, from 0 to `e`.
-/
namespace Verif.Gcd.Services

variable {nodeSize : Nat} {g : Gcd} {k : Kind} {ty : MemType} {shift len p image dev : Nat}

/-- What the kind of a request and the value at `base_address` ask of the range `[a, a + len)`. -/
def Asked (k : Kind) (p len a : Nat) : Prop :=
  match k with
  | .anyBottomUp => a ≠ 0
  | .anyTopDown => a ≠ 0
  | .maxBottomUp => a ≠ 0 ∧ a + len ≤ p
  | .maxTopDown => a ≠ 0 ∧ a + len ≤ p + 1
  | .address => a = p
  | .maxAllocateType => False

/-- The arguments are values of 64 bits and the alignment is that of an address of 64 bits. -/
def ArgsOk (shift len p : Nat) : Prop := shift < 64 ∧ len < W ∧ p < W

theorem reqOk (h : ArgsOk shift len p) {at_ : AllocType} (hk : request k p = some at_) : ReqOk at_ shift len := by
  refine ⟨h.2.1, h.1, ?_⟩
  cases k <;> simp only [request, Option.some.injEq, reduceCtorEq] at hk <;> subst hk <;> simp [h.2.2]

theorem ioOk (h : ArgsOk shift len p) {at_ : AllocType} (hk : request k p = some at_) (ty : IoType) (image : Nat) (d : Option Nat) :
    IoOp.InRange (.allocate at_ ty shift len image d) := by
  refine ⟨h.2.1, h.1, ?_⟩
  cases k <;> simp only [request, Option.some.injEq, reduceCtorEq] at hk <;> subst hk <;> simp [h.2.2]

/-! ### Allocation -/

/-- A successful allocation leaves at `base_address` the start of a range that is aligned and is what the kind of the request asked for. Before the call all of it
was memory of the type asked for that nobody had; after it all of it belongs to the caller; no other address has changed. -/
theorem allocate_serves (hr : Reachable nodeSize g) (ha : ArgsOk shift len p) {out : Option Nat} {g' : Gcd}
    (h : allocateMemory g k ty shift len (some p) image dev = (.success, out, g')) :
    ∃ a, out = some a ∧ a % 2 ^ shift = 0 ∧ Asked k p len a ∧ 0 < len ∧ image ≠ 0 ∧
      (∀ x, a ≤ x → x < a + len → ∃ c c', cellAt g.blocks x = some c ∧ c.allocated = false ∧ c.type = ty ∧
        cellAt g'.blocks x = some c' ∧ c'.allocated = true ∧ c'.type = ty ∧ c'.image = image ∧ (dev ≠ 0 → c'.device = dev) ∧
        c'.attrs = c.attrs ∧ c'.caps = c.caps) ∧
      (∀ x, ¬ (a ≤ x ∧ x < a + len) → cellAt g'.blocks x = cellAt g.blocks x) := by
  unfold allocateMemory at h
  simp only [] at h
  cases hk : request k p with
  | none => rw [hk] at h; simp at h
  | some at_ =>
    rw [hk] at h
    simp only [Prod.mk.injEq] at h
    obtain ⟨h1, h2, h3⟩ := h
    cases hx : g.allocate at_ ty shift len image (device dev) with
    | mk o g2 =>
      rw [hx] at h1 h2 h3
      cases o with
      | err e => simp [Status.of] at h1
      | panic => simp [Status.of] at h1
      | ok a =>
        simp only [written] at h2
        simp only at h3
        subst h3
        obtain ⟨b1, b2, b3, b4, b5, c, b6, b7, b8, b9, b10, b11, b12, b13⟩ := allocate_ok hr (reqOk ha hk) hx
        refine ⟨a, h2.symm, b1, ?_, b6.1, b5, ?_, ?_⟩
        · cases k <;> simp only [request, Option.some.injEq, reduceCtorEq] at hk <;> subst hk <;>
            simp_all [Asked, AllocType.Admits, AllocType.chooses]
        · intro x h1 h2
          refine ⟨c, _, b6.2 x h1 h2, b7, b8, (b12 x).trans (if_pos ⟨h1, h2⟩), rfl, b8, rfl, ?_, rfl, rfl⟩
          · intro hd
            simp [device, hd]
        · intro x hn
          rw [b12 x, if_neg hn]

/-- An allocation that does not succeed returns a status, leaves what is at `base_address` and changes nothing. -/
theorem allocate_fails (hr : Reachable nodeSize g) (ha : ArgsOk shift len p) (h : (allocateMemory g k ty shift len (some p) image dev).1 ≠ .success) :
    ∃ e, allocateMemory g k ty shift len (some p) image dev = (.error e, some p, g) := by
  unfold allocateMemory at h ⊢
  simp only [] at h ⊢
  cases hk : request k p with
  | none => exact ⟨_, rfl⟩
  | some at_ =>
    rw [hk] at h
    simp only at h ⊢
    cases hx : g.allocate at_ ty shift len image (device dev) with
    | mk o g2 =>
      rw [hx] at h
      cases o with
      | err e => exact ⟨e, by rw [allocate_err hr (reqOk ha hk) hx]; rfl⟩
      | panic => exact absurd (congrArg Prod.fst hx) (allocate_no_panic hr (reqOk ha hk))
      | ok a => exact absurd rfl h

/-- A null pointer or the kind that is only a bound is refused, whatever else is asked. -/
theorem allocate_refuses :
    allocateMemory g k ty shift len none image dev = (.error .invalidParameter, none, g) ∧
    allocateMemory g .maxAllocateType ty shift len (some p) image dev = (.error .invalidParameter, some p, g) := ⟨rfl, rfl⟩

theorem memory_request {at_ : AllocType} (hk : request k p = some at_) {g' : Gcd} {a : Nat}
    (h : allocateMemory g k ty shift len (some p) image dev = (.success, some a, g')) :
    g.allocate at_ ty shift len image (device dev) = (.ok a, g') := by
  unfold allocateMemory at h
  simp only [hk, Prod.mk.injEq, Option.some.injEq] at h
  obtain ⟨h1, h2, h3⟩ := h
  cases hx : g.allocate at_ ty shift len image (device dev) with
  | mk o g2 =>
    rw [hx] at h1 h2 h3
    cases o with
    | err e => simp [Status.of] at h1
    | panic => simp [Status.of] at h1
    | ok b => simp only [written] at h2; simp only at h3; rw [h2, h3]

/-- From the bottom: no range that would do, outside page 0 and strictly below the limit, is lower than the one given. -/
theorem allocate_lowest (hr : Reachable nodeSize g) (ha : ArgsOk shift len p) {a : Nat} {g' : Gcd}
    (h : allocateMemory g k ty shift len (some p) image dev = (.success, some a, g')) :
    (k = .anyBottomUp → ∀ x, Candidate g ty shift len image x → 0x1000 ≤ x → x + len < W - 1 → a ≤ x) ∧
    (k = .maxBottomUp → ∀ x, Candidate g ty shift len image x → 0x1000 ≤ x → x + len < p → a ≤ x) := by
  constructor
  · rintro rfl x hx h1 h2
    have := bottom_up_lowest hr ha.1 ha.2.1 none (memory_request (k := .anyBottomUp) rfl h)
    exact this.2.2 x ⟨hx, by omega, .inl (by simp only [Option.getD]; omega)⟩
  · rintro rfl x hx h1 h2
    have := bottom_up_lowest hr ha.1 ha.2.1 (some p) (memory_request (k := .maxBottomUp) rfl h)
    exact this.2.2 x ⟨hx, by omega, .inl (by simp only [Option.getD]; omega)⟩

/-- From the top: no range that would do below the limit is higher than the one given, unless memory below 4 GiB is preferred. -/
theorem allocate_highest (hr : Reachable nodeSize g) (ha : ArgsOk shift len p) (hprio : g.prio32 = false) {a : Nat} {g' : Gcd}
    (h : allocateMemory g k ty shift len (some p) image dev = (.success, some a, g')) :
    (k = .anyTopDown → ∀ x, Candidate g ty shift len image x → x + len - 1 ≤ W - 1 → x ≤ a) ∧
    (k = .maxTopDown → ∀ x, Candidate g ty shift len image x → x + len - 1 ≤ p → x ≤ a) := by
  constructor
  · rintro rfl x hx h1
    exact (top_down_highest hr ha.1 ha.2.1 none hprio (memory_request (k := .anyTopDown) rfl h)).2.2 x hx h1
  · rintro rfl x hx h1
    exact (top_down_highest hr ha.1 ha.2.1 (some p) hprio (memory_request (k := .maxTopDown) rfl h)).2.2 x hx h1

/-- The same for the I/O space; bottom up gives the lowest range that would do and top down the highest. -/
theorem io_allocate_serves {g g' : Io} (hr : IoReachable g) (ha : ArgsOk shift len p) {ty : IoType} {out : Option Nat}
    (h : allocateIo g k ty shift len (some p) image dev = (.success, out, g')) :
    ∃ a, out = some a ∧ a % 2 ^ shift = 0 ∧ 0 < len ∧ image ≠ 0 ∧
      (k = .maxBottomUp → a + len ≤ p) ∧ (k = .maxTopDown → a + len ≤ p + 1) ∧ (k = .address → a = p) ∧
      (∀ x, IoFree g ty len x → x % 2 ^ shift = 0 → (k = .anyBottomUp ∧ x + len ≤ W - 1 ∨ k = .maxBottomUp ∧ x + len ≤ p → a ≤ x) ∧
        (k = .anyTopDown ∧ x + len ≤ W ∨ k = .maxTopDown ∧ x + len ≤ p + 1 → x ≤ a)) ∧
      (∀ x, a ≤ x → x < a + len → ∃ c c', cellAt g.map x = some c ∧ c.allocated = false ∧ c.type = ty ∧
        cellAt g'.map x = some c' ∧ c'.allocated = true ∧ c'.type = ty ∧ c'.image = image ∧ (dev ≠ 0 → c'.device = dev)) ∧
      (∀ x, ¬ (a ≤ x ∧ x < a + len) → cellAt g'.map x = cellAt g.map x) := by
  unfold allocateIo at h
  simp only [] at h
  cases hk : request k p with
  | none => rw [hk] at h; simp at h
  | some at_ =>
    rw [hk] at h
    simp only [Prod.mk.injEq] at h
    obtain ⟨h1, h2, h3⟩ := h
    cases hx : g.allocate at_ ty shift len image (device dev) with
    | mk o g2 =>
      rw [hx] at h1 h2 h3
      cases o with
      | err e => simp [Status.of] at h1
      | panic => simp [Status.of] at h1
      | ok a =>
        simp only [written] at h2
        simp only at h3
        subst h3
        obtain ⟨b1, b5, b4, c, b6, b7, b8, b9, b12⟩ := io_allocate_ok hr (ioOk ha hk ty image _) hx
        have hal : a % 2 ^ shift = 0 ∧ (k = .maxBottomUp → a + len ≤ p) ∧ (k = .maxTopDown → a + len ≤ p + 1) ∧ (k = .address → a = p) := by
          cases k <;> simp only [request, Option.some.injEq, reduceCtorEq] at hk <;> subst hk <;>
            simp only [ioHit, IoUpHit, IoDownHit, Option.getD] at b1 <;> grind
        refine ⟨a, h2.symm, hal.1, b6.1, b5, hal.2.1, hal.2.2.1, hal.2.2.2, ?_, ?_, ?_⟩
        · intro x hf hs
          have h3 := b4 x
          have hW : W = 2 ^ 64 := rfl
          cases k <;> simp only [request, Option.some.injEq, reduceCtorEq] at hk <;> subst hk <;>
            simp only [ioHit, IoUpHit, IoDownHit, ioBest, Option.getD] at h3 <;>
            refine ⟨?_, ?_⟩ <;> rintro (⟨h5, h6⟩ | ⟨h5, h6⟩) <;> first | (cases h5; done) | (refine h3 ⟨hf, hs, ?_⟩; omega)
        · intro x h1 h2
          refine ⟨c, _, b6.2 x h1 h2, b7, b8, (b12 x).trans (if_pos ⟨h1, h2⟩), rfl, b8, rfl, ?_⟩
          · intro hd
            simp [device, hd]
        · intro x hn
          rw [b12 x, if_neg hn]

/-- An allocation of I/O space that does not succeed leaves what is at `base_address` and changes no address. -/
theorem io_allocate_fails {g : Io} (hr : IoReachable g) (ha : ArgsOk shift len p) {ty : IoType}
    (h : (allocateIo g k ty shift len (some p) image dev).1 ≠ .success) :
    ∃ e g', allocateIo g k ty shift len (some p) image dev = (.error e, some p, g') ∧ g'.map = g.map := by
  unfold allocateIo at h ⊢
  simp only [] at h ⊢
  cases hk : request k p with
  | none => exact ⟨_, g, rfl, rfl⟩
  | some at_ =>
    rw [hk] at h
    simp only at h ⊢
    cases hx : g.allocate at_ ty shift len image (device dev) with
    | mk o g2 =>
      rw [hx] at h
      cases o with
      | err e => exact ⟨e, g2, rfl, (io_fail_changes_nothing hr (base := 0)).2.2.2 _ _ _ _ _ (ioOk ha hk ty image _) hx⟩
      | panic =>
        have he := ioAllocate_spec (ioReachable_inv hr) (ioOk ha hk ty image (device dev))
        rw [hx] at he
        cases he
      | ok a => exact absurd rfl h

/-! ### One descriptor -/

/-- Inside the space the descriptor written is the one entry of the map that holds the address, and it is true of every address it names. -/
theorem descriptor_serves (hr : Reachable nodeSize g) (hne : g.blocks ≠ []) {a : Nat} (ha : a < g.max) :
    ∃ b, memoryDescriptor g a true = (.success, some b) ∧ b ∈ g.blocks ∧ b.base ≤ a ∧ a < b.base + b.len ∧
      (∀ x, b.base ≤ x → x < b.base + b.len → cellAt g.blocks x = some b.st) ∧
      (∀ b' ∈ g.blocks, b'.base ≤ a → a < b'.base + b'.len → b'.st = b.st) := by
  obtain ⟨b, h1, h2, h3, h4, h5⟩ := descriptor_contains hr hne ha
  have hi := (reachable_inv hr).inv
  have ht : Tiles 0 g.blocks g.max := by
    rcases hi.map with ⟨_, h⟩ | ⟨_, hg, _⟩
    · exact absurd h hne
    · exact hg.tiles
  refine ⟨b, ?_, h2, h3, h4, fun x => cellAt_mem ht h2, fun b' hb' h6 h7 => ?_⟩
  · unfold memoryDescriptor
    rw [if_neg (by decide), h1]
  · have := cellAt_mem ht hb' h6 h7
    rw [h5] at this
    exact (Option.some.inj this).symm

/-- Nothing is written through a null pointer. -/
theorem descriptor_null {a : Nat} : memoryDescriptor g a false = (.error .invalidParameter, none) := rfl

/-- Finding: for an address beyond the space the service does not fail. It reports the last entry, which does not hold the address. -/
theorem descriptor_beyond (hr : Reachable nodeSize g) (hne : g.blocks ≠ []) {a : Nat} (ha : g.max ≤ a) :
    ∃ b, memoryDescriptor g a true = (.success, some b) ∧ g.blocks.getLast? = some b ∧ b.base + b.len ≤ a := by
  have hi := (reachable_inv hr).inv
  have ht : Tiles 0 g.blocks g.max := by
    rcases hi.map with ⟨_, h⟩ | ⟨_, hg, _⟩
    · exact absurd h hne
    · exact hg.tiles
  obtain ⟨z, hz, hplug, hbase, _, hafter⟩ := seek_spec (k := a) ht hi.pos
  have hm : z.cur ∈ g.blocks := by rw [← hplug]; exact mem_plug z
  have hnil : z.after = [] := by
    cases hc : z.after with
    | nil => rfl
    | cons b r =>
      have h1 := hafter b (by rw [hc]; simp)
      have h2 := tiles_mem ht (b := b) (by rw [← hplug]; simp [Zip.plug, hc])
      omega
  refine ⟨z.cur, ?_, ?_, ?_⟩
  · unfold memoryDescriptor Gcd.descriptorFor
    rw [if_neg (by decide), if_neg (by have := hi.pos; omega), hz]
  · rw [← hplug]; simp [Zip.plug, hnil]
  · have := tiles_mem ht hm
    omega

/-- In the I/O space the service reports the entry that holds the address, and no entry when none does. -/
theorem io_descriptor_serves {g : Io} (hr : IoReachable g) (a slack : Nat) :
    (a < g.max → ∃ b g', ioDescriptor g a true slack = (.success, some b, g') ∧ g'.map = g.map ∧ b ∈ g.map ∧ b.base ≤ a ∧ a < b.base + b.len ∧
      ∀ x, b.base ≤ x → x < b.base + b.len → cellAt g.map x = some b.st) ∧
    (g.max ≤ a → ∃ g', ioDescriptor g a true slack = (.error .notFound, none, g') ∧ g'.map = g.map) := by
  have hi := ioReachable_inv hr
  obtain ⟨hi', hc, hg⟩ := ready_inv hi
  have hrr : g.ready.map = g.map := by unfold Io.map; rw [ready_ready hc]
  have hcol : collectIo g (g.blocks.length + 10 + slack) = (.ok g.map, g.ready) := by
    unfold collectIo
    rw [if_neg (by have := hi.pos; omega), if_neg (by omega)]
    rfl
  have hcov : ∀ b ∈ g.map, covers a b = true ↔ (b.base ≤ a ∧ a < b.base + b.len) := by
    intro b hb
    have h1 := tiles_mem hg.tiles hb
    have h2 := hi.ltW
    have : addw b.base b.len = b.base + b.len := by unfold addw; exact Nat.mod_eq_of_lt (by omega)
    unfold covers
    rw [this, decide_eq_true_iff]
  constructor
  · intro ha
    obtain ⟨z, hz, hplug, hbase, hin, _⟩ := seek_spec (k := a) hg.tiles hi.pos
    have hm : z.cur ∈ g.map := by unfold Io.map; rw [← hplug]; exact mem_plug z
    cases hf : g.map.find? (covers a) with
    | none =>
      rw [List.find?_eq_none] at hf
      exact absurd ((hcov _ hm).2 ⟨hbase, hin ha⟩) (hf _ hm)
    | some b =>
      have hb := List.mem_of_find?_eq_some hf
      have hp := (hcov b hb).1 (List.find?_some hf)
      refine ⟨b, g.ready, ?_, hrr, hb, hp.1, hp.2, fun x => cellAt_mem hg.tiles hb⟩
      unfold ioDescriptor
      rw [if_neg (by decide), hcol]
      simp only [hf]
  · intro ha
    refine ⟨g.ready, ?_, hrr⟩
    have hf : g.map.find? (covers a) = none := by
      rw [List.find?_eq_none]
      intro b hb h
      have h1 := (hcov b hb).1 h
      have h2 := tiles_mem hg.tiles hb
      omega
    unfold ioDescriptor
    rw [if_neg (by decide), hcol]
    simp only [hf]

/-! ### The map -/

/-- The map written by a call that succeeds has no gap and no overlap, covers the whole space, and says of every address what was true after the first
buffer had been taken. -/
theorem map_serves (hr : Reachable nodeSize g) (hne : g.blocks ≠ []) {vec more : List Op} (hv : ∀ op ∈ vec, Op.InRange op) {slack a : Nat}
    {pool : Except EfiError Nat} {l : List (Block Cell)} {g' : Gcd}
    (h : memoryMap nodeSize g true vec slack pool more = (.success, some (a, l), g')) :
    pool = .ok a ∧ Tiles 0 l g.max ∧ (∀ x, cellAt l x = cellAt (g.run nodeSize vec).blocks x) ∧
      g' = (g.run nodeSize vec).run nodeSize more ∧
      ∀ x, x < g.max → ∃ b ∈ l, memoryDescriptor (g.run nodeSize vec) x true = (.success, some b) := by
  unfold memoryMap at h
  rw [if_neg (by decide)] at h
  have hp := partition_stays hr hne hv
  have hr' := reachable_run hr hv
  have hmax : (g.run nodeSize vec).max = g.max := (run_same (reachable_inv hr) hv).1
  unfold collect at h
  rw [if_neg (by have := (reachable_inv hr').inv.pos; omega)] at h
  by_cases hc : g.blocks.length + 10 + slack < (g.run nodeSize vec).blocks.length
  · rw [if_pos hc] at h; simp at h
  · rw [if_neg hc] at h
    cases pool with
    | error e => simp at h
    | ok b =>
      simp only [Prod.mk.injEq, Option.some.injEq, true_and] at h
      obtain ⟨⟨rfl, rfl⟩, rfl⟩ := h
      refine ⟨rfl, hp.2, fun _ => rfl, rfl, fun x hx => ?_⟩
      obtain ⟨b, h1, h2, _⟩ := descriptor_serves hr' hp.1 (by rw [hmax]; exact hx)
      exact ⟨b, h2, h1⟩

/-- A call that gets no second buffer, or has no room in the first one, writes nothing; it runs out of room exactly when the first buffer has cost more
descriptors than the ten it allows for. -/
theorem map_outcome (hr : Reachable nodeSize g) {vec more : List Op} (hv : ∀ op ∈ vec, Op.InRange op) (slack : Nat) (pool : Except EfiError Nat) :
    (g.blocks.length + 10 + slack < (g.run nodeSize vec).blocks.length →
      memoryMap nodeSize g true vec slack pool more = (.error .invalidParameter, none, g.run nodeSize vec)) ∧
    ((g.run nodeSize vec).blocks.length ≤ g.blocks.length + 10 + slack →
      (∀ a, pool = .ok a → ∃ l g', memoryMap nodeSize g true vec slack pool more = (.success, some (a, l), g')) ∧
      (∀ e, pool = .error e → ∃ g', memoryMap nodeSize g true vec slack pool more = (.error e, none, g'))) := by
  have hr' := reachable_run hr hv
  have hz : ¬ (g.run nodeSize vec).max = 0 := by have := (reachable_inv hr').inv.pos; omega
  constructor
  · intro h
    unfold memoryMap collect
    rw [if_neg (by decide), if_neg hz, if_pos h]
  · intro h
    constructor
    · rintro a rfl
      refine ⟨(g.run nodeSize vec).blocks, (g.run nodeSize vec).run nodeSize more, ?_⟩
      unfold memoryMap collect
      rw [if_neg (by decide), if_neg hz, if_neg (by omega)]
    · rintro e rfl
      refine ⟨(g.run nodeSize vec).run nodeSize more, ?_⟩
      unfold memoryMap collect
      rw [if_neg (by decide), if_neg hz, if_neg (by omega)]

/-- When the heap has room for the second buffer, the map is the one of the space the caller finds. -/
theorem map_current (hr : Reachable nodeSize g) (hne : g.blocks ≠ []) {vec : List Op} (hv : ∀ op ∈ vec, Op.InRange op) {slack a : Nat}
    {pool : Except EfiError Nat} {l : List (Block Cell)} {g' : Gcd}
    (h : memoryMap nodeSize g true vec slack pool [] = (.success, some (a, l), g')) : ∀ x, cellAt l x = cellAt g'.blocks x := by
  obtain ⟨_, _, h1, h2, _⟩ := map_serves hr hne hv h
  subst h2
  exact h1

/-- Finding: when the heap has to grow for the second buffer, the map the caller gets is an old one. For every space and every range that is given to the heap
meanwhile, the map says that the range, which holds the map itself, is free. -/
theorem map_stale (hr : Reachable nodeSize g) (hne : g.blocks ≠ []) {slack a addr : Nat} {at_ : AllocType} {g2 : Gcd} (hq : ReqOk at_ shift len)
    (hx : g.allocate at_ ty shift len image (device dev) = (.ok addr, g2)) :
    ∃ l, memoryMap nodeSize g true [] slack (.ok a) [.allocate at_ ty shift len image (device dev)] = (.success, some (a, l), g2) ∧
      ∀ x, addr ≤ x → x < addr + len →
        (∃ c, cellAt l x = some c ∧ c.allocated = false) ∧ (∃ c, cellAt g2.blocks x = some c ∧ c.allocated = true ∧ c.image = image) := by
  obtain ⟨_, _, _, _, _, c, h6, h7, _, _, _, _, h12, _⟩ := allocate_ok hr hq hx
  refine ⟨g.blocks, ?_, fun x h1 h2 => ⟨⟨c, h6.2 x h1 h2, h7⟩, ⟨_, by rw [h12 x, if_pos ⟨h1, h2⟩], rfl, rfl⟩⟩⟩
  have hz : ¬ g.max = 0 := by have := (reachable_inv hr).inv.pos; omega
  have h0 : g.run nodeSize [] = g := rfl
  have h1 : g.run nodeSize [.allocate at_ ty shift len image (device dev)] = g2 := congrArg Prod.snd hx
  unfold memoryMap collect
  rw [if_neg (by decide), h0, h1, if_neg hz, if_neg (by omega)]

/-- The map of the I/O space has no gap and no overlap, covers the whole space, also when it is asked for before anything was added, and changes nothing. -/
theorem io_map_serves {g : Io} (hr : IoReachable g) (slack : Nat) (pool : Except EfiError Nat) :
    ∃ g', g'.map = g.map ∧ Tiles 0 g.map g.max ∧
      ioMap g true slack pool = match pool with | .ok a => (.success, some (a, g.map), g') | .error e => (.error e, none, g') := by
  have hi := ioReachable_inv hr
  obtain ⟨hi', hc, hg⟩ := ready_inv hi
  have hrr : g.ready.map = g.map := by unfold Io.map; rw [ready_ready hc]
  have hcol : collectIo g (g.blocks.length + 10 + slack) = (.ok g.map, g.ready) := by
    unfold collectIo
    rw [if_neg (by have := hi.pos; omega), if_neg (by omega)]
    rfl
  refine ⟨g.ready, hrr, hg.tiles, ?_⟩
  unfold ioMap
  rw [if_neg (by decide), hcol]
  cases pool <;> rfl

/-- Null pointers are refused by the services that report. -/
theorem reports_refuse {g : Gcd} {i : Io} {vec more : List Op} {slack a : Nat} {pool : Except EfiError Nat} :
    memoryMap nodeSize g false vec slack pool more = (.error .invalidParameter, none, g) ∧
    ioMap i false slack pool = (.error .invalidParameter, none, i) ∧
    ioDescriptor i a false slack = (.error .invalidParameter, none, i) := ⟨rfl, rfl, rfl⟩

/-! ### Concrete cases -/

/-- Two pages below 0x9000 in the history `demo`: the hypotheses of `allocate_serves` hold and its range is the expected one. -/
example : (allocateMemory demoGcd .maxTopDown .systemMemory 12 0x2000 (some 0x7FFF) 9 0).1 = .success ∧
    (allocateMemory demoGcd .maxTopDown .systemMemory 12 0x2000 (some 0x7FFF) 9 0).2.1 = some 0x6000 := by decide +kernel

/-- An address that is taken: the pointer is left alone. -/
example : allocateMemory demoGcd .address .systemMemory 12 0x1000 (some 0xFC000) 9 0 = (.error .notFound, some 0xFC000, demoGcd) := by decide +kernel

example : (memoryDescriptor demoGcd 0x8123 true).2.map (fun b => (b.base, b.len)) = some (0x8000, 0x1000) ∧ demoGcd.blocks ≠ [] ∧
    demoGcd.max = 2 ^ 32 := by decide +kernel

/-- Far beyond the 4 GiB of `demo`. -/
example : (memoryDescriptor demoGcd 0x900000000 true).1 = .success ∧
    (memoryDescriptor demoGcd 0x900000000 true).2.map (fun b => (b.base, b.len)) = some (0x210000, 0xFFDF0000) := by decide +kernel

/-- The heap takes 16 pages for the second buffer: the hypotheses of `map_stale` hold. -/
example : (demoGcd.allocate (.topDown none) .systemMemory 12 0x10000 6 (device 0)).1 = .ok 0xEC000 := by decide +kernel

example : (ioDescriptor ioDemoGcd 0x65 true 0).1 = .success ∧ (ioDescriptor ioDemoGcd 0x10000 true 0).1 = .error .notFound ∧
    (ioMap (Io.start 16) true 0 (.ok 0x5000)).2.1 = some (0x5000, [⟨0, 0x10000, emptyIoCell⟩]) := by decide +kernel

example : (allocateIo ioDemoGcd .maxBottomUp .io 4 0x20 (some 0x1100) 9 5).1 = .success := by decide +kernel

end Verif.Gcd.Services
