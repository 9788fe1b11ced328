import Verif.Paging.Witness
/-!
C136: what the core does to the runtime drivers at ExitBootServices, `runtime_image_protection_fixup_ebs`
(`/repo/patina_dxe_core/src/image.rs` lines 728-760): the protection of their memory is taken away, so that the operating system can relocate them.

* An image is where it lies and its subsystem; nothing else of it is read.
* The order of `values_mut()` is the order of the list.
* Closing the event (lines 757-759) has no effect on the memory and is left out.
* `faults` says what the page table does in the call for an image.
-/
namespace Verif.Paging.RuntimeFixup
open Verif.Gcd Verif.Paging

/-- What is read of `PrivateImageData` (lines 730-745): `image_base_page`, `image_num_pages`, `pe_info.image_type`. -/
structure Img where
  base : Nat
  pages : Nat
  subsystem : Nat
deriving DecidableEq, Repr

/-- `EFI_IMAGE_SUBSYSTEM_EFI_RUNTIME_DRIVER` -/
def RUNTIME_DRIVER : Nat := 12

/-- Lines 733-735. (`Mem.attrsAt` gives `MEMORY_WB`, which is `DEFAULT_CACHE_ATTR`, if there is no descriptor.) -/
def cacheAttrs (m : Mem) (i : Img) : Nat := m.attrsAt i.base &&& CACHE_ATTRIBUTE_MASK

/-- Lines 728-755: the images whose attributes could not be set, each with a line in the log, and the memory. `none`: it panics (in a debug build
that is what happens at the first error) or does not return. `uefi_pages_to_size!` is the product with 4096. -/
def fixup (dbg : Bool) (ns : Nat) (faults : Img → Faults) : List Img → Mem → Option (List Img × Mem)
  | [], m => some ([], m)
  | i :: rest, m =>
    if i.subsystem = RUNTIME_DRIVER then
      match m.step dbg ns (faults i) (.setAttributes i.base (i.pages * 4096) (cacheAttrs m i)) with
      | some (.ok _, m1) => fixup dbg ns faults rest m1
      | some (.err _, m1) => if dbg then none else (fixup dbg ns faults rest m1).map fun x => (i :: x.1, x.2)
      | some (.panic, _) => none
      | none => none
    else fixup dbg ns faults rest m

/-! ### Specification -/

/-- The address lies in the image. -/
def Img.Has (i : Img) (a : Nat) : Prop := i.base ≤ a ∧ a < i.base + i.pages * 4096

instance (i : Img) (a : Nat) : Decidable (i.Has a) := inferInstanceAs (Decidable (_ ∧ _))

def Img.isRuntime (i : Img) : Prop := i.subsystem = 12

instance (i : Img) : Decidable i.isRuntime := inferInstanceAs (Decidable (_ = _))

/-- No two runtime drivers share an address. -/
def Apart (l : List Img) : Prop := l.Pairwise fun i j => i.isRuntime → j.isRuntime → ∀ a, i.Has a → ¬ j.Has a

/-- The cache attributes of the first page of the image, 0x101F being the bits of those (UC, WC, WT, WB, UCE, WP). -/
def CacheOf (m : Mem) (i : Img) (k : Nat) : Prop := ∃ c, cellAt m.gcd.blocks i.base = some c ∧ k = c.attrs &&& 0x101F

/-- An image as the core loads it: some whole pages of the memory space, with a cache attribute, all of them memory that can have it. -/
structure Loaded (m : Mem) (i : Img) : Prop where
  pages : 0 < i.pages
  inside : i.base + i.pages * 4096 ≤ m.gcd.max
  cached : ∀ k, CacheOf m i k → k ≠ 0
  supports : ∀ k, CacheOf m i k → Supports m.gcd i.base (i.pages * 4096) k
  pageWise : PageWise m.gcd i.base (i.pages * 4096)

/-! ### Lemmas -/

variable {ns : Nat} {dbg : Bool} {faults : Img → Faults} {m m' : Mem} {i : Img} {l failed : List Img}

theorem cell_first (hm : MemOk ns m) (h : i.base < m.gcd.max) : ∃ c, cellAt m.gcd.blocks i.base = some c := by
  obtain ⟨b, _, _, _, b3⟩ := cellAt_some (good_of hm.reach hm.some).tiles (Nat.zero_le i.base) (by omega)
  exact ⟨_, b3⟩

theorem cacheAttrs_eq (hm : MemOk ns m) {k : Nat} (h : CacheOf m i k) : cacheAttrs m i = k := by
  obtain ⟨c, hc, rfl⟩ := h
  have := attrsAt_eq (m := m) hm.reach hc
  have this : m.attrsAt i.base = c.attrs := this
  unfold cacheAttrs
  rw [this, cacheMask]

theorem mask_small (x : Nat) : x &&& 0x101F < W := Nat.lt_of_le_of_lt Nat.and_le_right (by decide)

theorem mask_mask (x : Nat) : (x &&& 0x101F) &&& 0x2701F = x &&& 0x101F := by
  rw [Nat.and_assoc]; rfl

theorem mask_13 (x : Nat) : (x &&& 0x101F).testBit 13 = false := by
  rw [Nat.testBit_and, show Nat.testBit 0x101F 13 = false by decide, Bool.and_false]

/-- The memory space, with the attributes of the runtime drivers among `l` set as `m0` says. -/
def Changed (m0 : Mem) (l : List Img) (m m' : Mem) : Prop :=
  ∀ a c, cellAt m.gcd.blocks a = some c →
    (∀ i ∈ l, i.isRuntime → i.Has a → ∀ k, CacheOf m0 i k → cellAt m'.gcd.blocks a = some { c with attrs := k }) ∧
    ((∀ i ∈ l, i.isRuntime → ¬ i.Has a) → cellAt m'.gcd.blocks a = some c)

theorem fixup_ok (hf : ∀ i a, (faults i).refill a = false) (hfail : ∀ i a, (faults i).fail a = none) :
    ∀ {l : List Img} {m : Mem}, MemOk ns m → Sync m → Apart l → (∀ i ∈ l, i.isRuntime → Loaded m i) →
      m.gcd.blocks.length + 2 * l.length + 8 ≤ 4096 →
      ∃ m', fixup dbg ns faults l m = some ([], m') ∧ m'.refusals = m.refusals ∧ MemOk ns m' ∧ Sync m' ∧ m'.gcd.max = m.gcd.max ∧ Changed m l m m' := by
  intro l
  induction l with
  | nil => exact fun {m} hm hs _ _ _ => ⟨m, rfl, rfl, hm, hs, rfl, fun a c hc => ⟨fun i hi => absurd hi (by simp), fun _ => hc⟩⟩
  | cons i l ih =>
    intro m hm hs ha hl hroom
    have ha' := List.pairwise_cons.1 ha
    rw [List.length_cons] at hroom
    unfold fixup
    by_cases hr : i.subsystem = RUNTIME_DRIVER
    · rw [if_pos hr]
      have hr : i.isRuntime := hr
      have li := hl i List.mem_cons_self hr
      have hin := li.inside
      have hpg := li.pages
      obtain ⟨c0, hc0⟩ := cell_first (i := i) hm (by omega)
      have hco : CacheOf m i (c0.attrs &&& 0x101F) := ⟨c0, hc0, rfl⟩
      rw [cacheAttrs_eq hm hco]
      obtain ⟨m1, e, k1, k2, k3, k4, _, k6⟩ := set_attributes_succeeds (dbg := dbg) (f := faults i) hm hs li.inside (mask_small _)
        (by rw [mask_mask]; exact li.cached _ hco) (li.supports _ hco) li.pageWise (by omega) (hf i) (hfail i) (Or.inr (Or.inl (mask_13 _)))
      rw [e]
      dsimp only
      have hsz : m1.gcd.blocks.length ≤ m.gcd.blocks.length + 2 := by
        have h2 := good_of k2.reach k2.some
        rw [k4] at h2
        exact exact_length (good_of hm.reach hm.some) h2 k6
      have other : ∀ j ∈ l, j.isRuntime → ∀ a, j.Has a → cellAt m1.gcd.blocks a = cellAt m.gcd.blocks a := by
        intro j hj hjr a hja
        rw [k6 a]
        cases cellAt m.gcd.blocks a with
        | none => rfl
        | some c =>
          have : ¬ (i.base ≤ a ∧ a < i.base + i.pages * 4096) := fun h => ha'.1 j hj hr hjr a h hja
          rw [Option.map_some, if_neg this]
      have cache : ∀ j ∈ l, j.isRuntime → ∀ k, CacheOf m1 j k ↔ CacheOf m j k := by
        intro j hj hjr k
        have lj := (hl j (List.mem_cons_of_mem _ hj) hjr).pages
        unfold CacheOf
        rw [other j hj hjr j.base ⟨Nat.le_refl _, by omega⟩]
      obtain ⟨m2, e2, q1, q2, q3, q4, q5⟩ := ih k2 k3 ha'.2 (fun j hj hjr => by
        have lj := hl j (List.mem_cons_of_mem _ hj) hjr
        refine ⟨lj.pages, by rw [k4]; exact lj.inside, fun k hk => lj.cached k ((cache j hj hjr k).1 hk), fun k hk a h1 h2 => ?_, lj.pageWise.1, lj.pageWise.2.1, fun a h1 h2 => ?_⟩
        · rw [other j hj hjr a ⟨h1, h2⟩]; exact lj.supports k ((cache j hj hjr k).1 hk) a h1 h2
        · have := lj.pageWise.1
          rw [other j hj hjr a ⟨h1, h2⟩, other j hj hjr (a / 4096 * 4096) ⟨by omega, by omega⟩]; exact lj.pageWise.2.2 a h1 h2) (by omega)
      refine ⟨m2, e2, q1.trans k1, q2, q3, q4.trans k4, fun a c hc => ⟨fun j hj hjr hja k hk => ?_, fun hn => ?_⟩⟩
      · have h1 := k6 a
        rw [hc, Option.map_some] at h1
        rcases List.mem_cons.1 hj with rfl | hj
        · rw [if_pos (show j.base ≤ a ∧ a < j.base + j.pages * 4096 from hja)] at h1
          have hke : k = c0.attrs &&& 0x101F := by
            obtain ⟨c', h', rfl⟩ := hk
            rw [hc0] at h'; injection h' with h'; rw [h']
          subst hke
          exact (q5 a _ h1).2 fun j' hj' hjr' hja' => ha'.1 j' hj' hr hjr' a hja hja'
        · rw [if_neg (show ¬ (i.base ≤ a ∧ a < i.base + i.pages * 4096) from fun h => ha'.1 j hj hr hjr a h hja)] at h1
          exact (q5 a _ h1).1 j hj hjr hja k ((cache j hj hjr k).2 hk)
      · have h1 := k6 a
        rw [hc, Option.map_some, if_neg (show ¬ (i.base ≤ a ∧ a < i.base + i.pages * 4096) from hn i List.mem_cons_self hr)] at h1
        exact (q5 a c h1).2 fun j hj => hn j (List.mem_cons_of_mem _ hj)
    · rw [if_neg hr]
      obtain ⟨m2, e2, q1, q2, q3, q4, q5⟩ := ih hm hs ha'.2 (fun j hj => hl j (List.mem_cons_of_mem _ hj)) (by omega)
      refine ⟨m2, e2, q1, q2, q3, q4, fun a c hc => ⟨fun j hj hjr hja k hk => ?_, fun hn => (q5 a c hc).2 fun j hj => hn j (List.mem_cons_of_mem _ hj)⟩⟩
      rcases List.mem_cons.1 hj with rfl | hj
      · exact absurd hjr hr
      · exact (q5 a c hc).1 j hj hjr hja k hk

/-! ### Theorems -/

/-- C136: with the runtime drivers as the core loads them and a page table that neither fails nor needs memory, the notification returns, in
debug and release builds; nothing is logged; every address of every runtime driver has the cache attributes of the first page of that driver and no
other attributes; nothing else in the memory space changes, not even the other properties of those addresses; and the page table still agrees with it. -/
theorem runtime_drivers_unprotected (hm : MemOk ns m) (hs : Sync m) (ha : Apart l) (hl : ∀ i ∈ l, i.isRuntime → Loaded m i)
    (hroom : m.gcd.blocks.length + 2 * l.length + 8 ≤ 4096) (hf : ∀ i a, (faults i).refill a = false) (hfail : ∀ i a, (faults i).fail a = none) :
    ∃ m', fixup dbg ns faults l m = some ([], m') ∧ Sync m' ∧ m'.gcd.max = m.gcd.max ∧
      (∀ i ∈ l, i.isRuntime → ∃ k, CacheOf m i k ∧ ∀ a c, i.Has a → cellAt m.gcd.blocks a = some c → cellAt m'.gcd.blocks a = some { c with attrs := k }) ∧
      ∀ a, (∀ i ∈ l, i.isRuntime → ¬ i.Has a) → cellAt m'.gcd.blocks a = cellAt m.gcd.blocks a := by
  obtain ⟨m', e, _, q2, q3, q4, q5⟩ := fixup_ok (dbg := dbg) hf hfail hm hs ha hl hroom
  refine ⟨m', e, q3, q4, fun i hi hr => ?_, fun a hn => ?_⟩
  · have li := hl i hi hr
    have := li.pages
    have := li.inside
    obtain ⟨c0, hc0⟩ := cell_first (i := i) hm (by omega)
    exact ⟨_, ⟨c0, hc0, rfl⟩, fun a c h hc => (q5 a c hc).1 i hi hr h _ ⟨c0, hc0, rfl⟩⟩
  · cases hc : cellAt m.gcd.blocks a with
    | some c => exact (q5 a c hc).2 hn
    | none =>
      cases hc' : cellAt m'.gcd.blocks a with
      | none => rfl
      | some c' =>
        exfalso
        have hb := (cellAt_bounds (good_of q2.reach q2.some).tiles hc').2
        obtain ⟨b, _, _, _, b3⟩ := cellAt_some (good_of hm.reach hm.some).tiles (Nat.zero_le a) (by omega)
        rw [b3] at hc; cases hc

/-- C136: after it, every page of a runtime driver is mapped, can be written and executed. (The bits of "read-protect", "execute-protect" and
"read-only" are 13, 14 and 17.) -/
theorem runtime_drivers_writable (hm : MemOk ns m) (hs : Sync m) (ha : Apart l) (hl : ∀ i ∈ l, i.isRuntime → Loaded m i)
    (hroom : m.gcd.blocks.length + 2 * l.length + 8 ≤ 4096) (hf : ∀ i a, (faults i).refill a = false) (hfail : ∀ i a, (faults i).fail a = none)
    {t : Table} (h : fixup dbg ns faults l m = some (failed, m')) (ht : m'.table = some t) (hi : i ∈ l) (hr : i.isRuntime) {a : Nat} (hia : i.Has a) :
    ∃ k, CacheOf m i k ∧ t (a / 4096) = some k ∧ k.testBit 13 = false ∧ k.testBit 14 = false ∧ k.testBit 17 = false := by
  obtain ⟨m2, e, q3, q4, q5, _⟩ := runtime_drivers_unprotected (dbg := dbg) hm hs ha hl hroom hf hfail
  rw [h] at e
  injection e with e; injection e with _ e; subst e
  obtain ⟨k, hk, q⟩ := q5 i hi hr
  have li := hl i hi hr
  have := li.inside
  have hia' : i.base ≤ a ∧ a < i.base + i.pages * 4096 := hia
  obtain ⟨b, _, _, _, b3⟩ := cellAt_some (good_of hm.reach hm.some).tiles (Nat.zero_le a) (by omega)
  have hty : b.st.type ≠ .nonExistent := by
    obtain ⟨c, hc, hc2, _⟩ := li.supports k hk a hia'.1 hia'.2
    rw [b3] at hc; injection hc with hc; rw [hc]; exact hc2
  have hc' := q a _ hia b3
  have hmap := q3 t ht a _ hc'
  obtain ⟨c, _, rfl⟩ := hk
  refine ⟨_, ⟨c, by assumption, rfl⟩, ?_, mask_13 _, ?_, ?_⟩
  · rw [hmap]
    unfold mappingOf
    rw [if_neg hty]
    unfold mappingFor
    rw [mask_13, mask_mask]; rfl
  · rw [Nat.testBit_and, show Nat.testBit 0x101F 14 = false by decide, Bool.and_false]
  · rw [Nat.testBit_and, show Nat.testBit 0x101F 17 = false by decide, Bool.and_false]

/-- C136: images that are no runtime drivers do not matter. -/
theorem others_ignored (faults : Img → Faults) (l : List Img) (m : Mem) :
    fixup dbg ns faults l m = fixup dbg ns faults (l.filter fun i => decide i.isRuntime) m := by
  induction l generalizing m with
  | nil => rfl
  | cons i l ih =>
    by_cases hr : i.isRuntime
    · rw [List.filter_cons_of_pos (by simpa using hr)]
      unfold fixup
      rw [if_pos (show i.subsystem = RUNTIME_DRIVER from hr)]
      simp only [ih]
      rw [if_pos (show i.subsystem = RUNTIME_DRIVER from hr)]
    · rw [List.filter_cons_of_neg (by simpa using hr), ← ih]
      rw [fixup, if_neg (show ¬ i.subsystem = RUNTIME_DRIVER from hr)]

/-- What one call leaves, whatever the page table does. -/
structure Kept (ns : Nat) (l : List Img) (m m' : Mem) : Prop where
  ok : MemOk ns m'
  max : m'.gcd.max = m.gcd.max
  refusals : m.refusals ≤ m'.refusals
  pages : ∀ t', m'.table = some t' → ∃ t, m.table = some t ∧
    ∀ p, t' p = t p ∨ ∃ i ∈ l, i.isRuntime ∧ i.base ≤ p * 4096 ∧ p * 4096 + 4096 ≤ i.base + i.pages * 4096 ∧
      ∃ k, t' p = some k ∧ k.testBit 13 = false ∧ k.testBit 14 = false ∧ k.testBit 17 = false

theorem kept (h : fixup dbg ns faults l m = some (failed, m')) (hm : MemOk ns m) (hin : ∀ i ∈ l, i.isRuntime → 0 < i.pages ∧ i.base + i.pages * 4096 ≤ m.gcd.max) :
    Kept ns l m m' := by
  induction l generalizing m failed with
  | nil =>
    injection h with h; injection h with _ h; subst h
    exact ⟨hm, rfl, Nat.le_refl _, fun t' ht' => ⟨t', ht', fun _ => Or.inl rfl⟩⟩
  | cons i l ih =>
    unfold fixup at h
    by_cases hr : i.subsystem = RUNTIME_DRIVER
    · rw [if_pos hr] at h
      have hr : i.isRuntime := hr
      obtain ⟨hp0, hin0⟩ := hin i List.mem_cons_self hr
      obtain ⟨c0, hc0⟩ := cell_first (i := i) hm (by omega)
      rw [cacheAttrs_eq hm ⟨c0, hc0, rfl⟩] at h
      cases hx : m.step dbg ns (faults i) (.setAttributes i.base (i.pages * 4096) (c0.attrs &&& 0x101F)) with
      | none => rw [hx] at h; cases h
      | some x =>
        obtain ⟨r, m1⟩ := x
        have key : ∀ failed2, r ≠ .panic → fixup dbg ns faults l m1 = some (failed2, m') → Kept ns (i :: l) m m' := by
          intro failed2 hp h2
          obtain ⟨r1, hl, hp1, _⟩ := coreSet_some hm hin0 (mask_small _) hx hp
          have o := setLoop_onward (mask_small _) hm.reach hm.some hm.table hin0 (Nat.le_refl _) hl hp1
          have hm1 : MemOk ns m1 := ⟨o.later.reach, o.later.some hm.some, o.table, by rw [o.dflt]; exact hm.dflt⟩
          have q := ih h2 hm1 fun j hj hjr => by rw [o.later.max]; exact hin j (List.mem_cons_of_mem _ hj) hjr
          refine ⟨q.ok, q.max.trans o.later.max, Nat.le_trans o.refusals q.refusals, fun t' ht' => ?_⟩
          obtain ⟨t1, ht1, k1⟩ := q.pages t' ht'
          obtain ⟨t, ht, k⟩ := o.pages t1 ht1
          refine ⟨t, ht, fun p => ?_⟩
          rcases k1 p with h | ⟨j, hj, hh⟩
          · rcases k p with h0 | ⟨h1, h2, h3⟩
            · exact Or.inl (h.trans h0)
            · refine Or.inr ⟨i, List.mem_cons_self, hr, h2, h3, (c0.attrs &&& 0x101F) &&& 0x2701F, ?_, ?_, ?_, ?_⟩
              · rw [h, h1]
                unfold mappingFor
                rw [mask_13]; rfl
              · rw [mask_mask]; exact mask_13 _
              · rw [mask_mask, Nat.testBit_and, show Nat.testBit 0x101F 14 = false by decide, Bool.and_false]
              · rw [mask_mask, Nat.testBit_and, show Nat.testBit 0x101F 17 = false by decide, Bool.and_false]
          · exact Or.inr ⟨j, List.mem_cons_of_mem _ hj, hh⟩
        rw [hx] at h
        cases r with
        | ok _ => exact key failed (by simp) h
        | err e =>
          dsimp only at h
          cases dbg with
          | true => cases h
          | false =>
            rw [if_neg (by simp)] at h
            cases hy : fixup false ns faults l m1 with
            | none => rw [hy] at h; cases h
            | some y =>
              obtain ⟨f2, m2⟩ := y
              rw [hy] at h
              injection h with h; injection h with _ h
              have h : m2 = m' := h
              subst h
              exact key f2 (by simp) hy
        | panic => cases h
    · rw [if_neg hr] at h
      have q := ih h hm fun j hj => hin j (List.mem_cons_of_mem _ hj)
      refine ⟨q.ok, q.max, q.refusals, fun t' ht' => ?_⟩
      obtain ⟨t, ht, k⟩ := q.pages t' ht'
      exact ⟨t, ht, fun p => (k p).imp_right fun ⟨j, hj, hh⟩ => ⟨j, List.mem_cons_of_mem _ hj, hh⟩⟩

/-- C136: whatever the page table does (fail, run out of memory), no page outside the runtime drivers is mapped differently afterwards, and a page of
a runtime driver is mapped as before or without any protection. -/
theorem only_runtime_drivers (h : fixup dbg ns faults l m = some (failed, m')) (hm : MemOk ns m)
    (hin : ∀ i ∈ l, i.isRuntime → 0 < i.pages ∧ i.base + i.pages * 4096 ≤ m.gcd.max) {t' : Table} (ht : m'.table = some t') :
    ∃ t, m.table = some t ∧ ∀ p, t' p = t p ∨ ∃ i ∈ l, i.isRuntime ∧ i.Has (p * 4096) ∧
      ∃ k, t' p = some k ∧ k.testBit 13 = false ∧ k.testBit 14 = false ∧ k.testBit 17 = false := by
  obtain ⟨t, h1, h2⟩ := (kept h hm hin).pages t' ht
  exact ⟨t, h1, fun p => (h2 p).imp_right fun ⟨i, hi, hr, k1, k2, k3⟩ => ⟨i, hi, hr, ⟨k1, by omega⟩, k3⟩⟩

/-- The address has these attributes in the memory space, and its page is mapped with them. -/
def HasAttrs (m : Mem) (a k : Nat) : Prop :=
  (∃ c, cellAt m.gcd.blocks a = some c ∧ c.attrs = k) ∧ ∀ t, m.table = some t → t (a / 4096) = some k

/-- Between the states nothing changed for the address. -/
def Same (m m' : Mem) (a : Nat) : Prop :=
  (∀ c, cellAt m.gcd.blocks a = some c → ∃ c', cellAt m'.gcd.blocks a = some c' ∧ c'.attrs = c.attrs) ∧
    ∀ t', m'.table = some t' → ∃ t, m.table = some t ∧ t' (a / 4096) = t (a / 4096)

theorem Same.trans {m1 m2 m3 : Mem} {a : Nat} (h1 : Same m1 m2 a) (h2 : Same m2 m3 a) : Same m1 m3 a := by
  refine ⟨fun c hc => ?_, fun t3 e3 => ?_⟩
  · obtain ⟨c1, e1, k1⟩ := h1.1 c hc
    obtain ⟨c2, e2, k2⟩ := h2.1 c1 e1
    exact ⟨c2, e2, k2.trans k1⟩
  · obtain ⟨t2, e2, k2⟩ := h2.2 t3 e3
    obtain ⟨t1, e1, k1⟩ := h1.2 t2 e2
    exact ⟨t1, e1, k2.trans k1⟩

theorem HasAttrs.same {m m' : Mem} {a k : Nat} (h : HasAttrs m a k) (hs : Same m m' a) : HasAttrs m' a k := by
  obtain ⟨⟨c, hc, e⟩, ht⟩ := h
  obtain ⟨c', hc', e'⟩ := hs.1 c hc
  refine ⟨⟨c', hc', e'.trans e⟩, fun t' ht' => ?_⟩
  obtain ⟨t, e1, e2⟩ := hs.2 t' ht'
  rw [e2]; exact ht t e1

theorem fixup_each : ∀ {l : List Img} {m : Mem} {failed : List Img}, fixup dbg ns faults l m = some (failed, m') → MemOk ns m → Apart l →
    (∀ i ∈ l, i.isRuntime → 0 < i.pages ∧ i.base % 4096 = 0 ∧ i.base + i.pages * 4096 ≤ m.gcd.max ∧ ∀ k, CacheOf m i k → k ≠ 0) → m'.refusals = m.refusals →
    (∀ i ∈ l, i.isRuntime → i ∉ failed → ∀ k, CacheOf m i k → ∀ a, i.Has a → HasAttrs m' a k) ∧
      (∀ a, (∀ i ∈ l, i.isRuntime → ¬ i.Has a) → Same m m' a) := by
  intro l
  induction l with
  | nil =>
    intro m failed h _ _ _ _
    injection h with h; injection h with _ h; subst h
    exact ⟨(fun i hi => absurd hi (by simp)), fun a _ => ⟨fun c hc => ⟨c, hc, rfl⟩, fun t ht => ⟨t, ht, rfl⟩⟩⟩
  | cons i l ih =>
    intro m failed h hm ha hl href
    have ha' := List.pairwise_cons.1 ha
    unfold fixup at h
    by_cases hr : i.subsystem = RUNTIME_DRIVER
    · rw [if_pos hr] at h
      have hr : i.isRuntime := hr
      obtain ⟨hp0, hal, hin0, hnz⟩ := hl i List.mem_cons_self hr
      obtain ⟨c0, hc0⟩ := cell_first (i := i) hm (by omega)
      have hco : CacheOf m i (c0.attrs &&& 0x101F) := ⟨c0, hc0, rfl⟩
      rw [cacheAttrs_eq hm hco] at h
      cases hx : m.step dbg ns (faults i) (.setAttributes i.base (i.pages * 4096) (c0.attrs &&& 0x101F)) with
      | none => rw [hx] at h; cases h
      | some x =>
        obtain ⟨r, m1⟩ := x
        have key : ∀ failed2, r ≠ .panic → fixup dbg ns faults l m1 = some (failed2, m') →
            ((r = .ok () → ∀ a, i.Has a → HasAttrs m' a (c0.attrs &&& 0x101F)) ∧
            (∀ j ∈ l, j.isRuntime → j ∉ failed2 → ∀ k, CacheOf m j k → ∀ a, j.Has a → HasAttrs m' a k) ∧
            (∀ a, ¬ i.Has a → (∀ j ∈ l, j.isRuntime → ¬ j.Has a) → Same m m' a)) := by
          intro failed2 hp h2
          obtain ⟨r1, hlp, hp1, _⟩ := coreSet_some hm hin0 (mask_small _) hx hp
          have o := setLoop_onward (mask_small _) hm.reach hm.some hm.table hin0 (Nat.le_refl _) hlp hp1
          have hm1 : MemOk ns m1 := ⟨o.later.reach, o.later.some hm.some, o.table, by rw [o.dflt]; exact hm.dflt⟩
          have q := kept h2 hm1 fun j hj hjr => by
            rw [o.later.max]; have := hl j (List.mem_cons_of_mem _ hj) hjr; exact ⟨this.1, this.2.2.1⟩
          have := o.refusals
          have := q.refusals
          obtain ⟨upto, u1, u2, hset, hu, _⟩ := set_attributes_effect hm hin0 (mask_small _) (by rw [mask_mask]; exact hnz _ hco) hx hp (by omega)
          have out : ∀ a, ¬ i.Has a → Same m m1 a := by
            intro a hna
            have hna : ¬ (i.base ≤ a ∧ a < i.base + i.pages * 4096) := hna
            refine ⟨fun c hc => ?_, fun t' ht' => ?_⟩
            · obtain ⟨c', e, _, _, k, _⟩ := hset.memory a c hc
              rw [if_neg (by omega)] at k
              exact ⟨c', e, k⟩
            · cases hmt : m.table with
              | none => rw [hset.noTable hmt] at ht'; cases ht'
              | some t =>
                obtain ⟨t1, e1, k1⟩ := hset.table t hmt
                rw [e1] at ht'; injection ht' with ht'; subst ht'
                refine ⟨t, rfl, ?_⟩
                rw [k1, if_neg (by omega)]
          have cache : ∀ j ∈ l, j.isRuntime → ∀ k, CacheOf m1 j k ↔ CacheOf m j k := by
            intro j hj hjr k
            obtain ⟨lj, _, lj2, _⟩ := hl j (List.mem_cons_of_mem _ hj) hjr
            obtain ⟨c, hc⟩ := cell_first (i := j) hm (by omega)
            have hh : j.Has j.base := ⟨Nat.le_refl _, by omega⟩
            obtain ⟨c', hc', e⟩ := (out j.base fun h => ha'.1 j hj hr hjr _ h hh).1 c hc
            unfold CacheOf
            rw [hc, hc']
            constructor
            · rintro ⟨x, hx, rfl⟩; injection hx with hx; subst hx; exact ⟨c, rfl, by rw [e]⟩
            · rintro ⟨x, hx, rfl⟩; injection hx with hx; subst hx; exact ⟨c', rfl, by rw [e]⟩
          obtain ⟨z1, z2⟩ := ih h2 hm1 ha'.2 (fun j hj hjr => by
            obtain ⟨y1, y2, y3, y4⟩ := hl j (List.mem_cons_of_mem _ hj) hjr
            exact ⟨y1, y2, by rw [o.later.max]; exact y3, fun k hk => y4 k ((cache j hj hjr k).1 hk)⟩) (by omega)
          refine ⟨fun hok a hia => ?_, fun j hj hjr hnf k hk a hja => z1 j hj hjr hnf k ((cache j hj hjr k).2 hk) a hja, fun a hna hn => (out a hna).trans (z2 a hn)⟩
          have hup := hu hok
          subst hup
          have hia' : i.base ≤ a ∧ a < i.base + i.pages * 4096 := hia
          refine HasAttrs.same ⟨?_, fun t1 ht1 => ?_⟩ (z2 a fun j hj hjr hja => ha'.1 j hj hr hjr a hia hja)
          · obtain ⟨b, _, _, _, b3⟩ := cellAt_some (good_of hm.reach hm.some).tiles (Nat.zero_le a) (by omega)
            obtain ⟨c', e, _, _, k, _⟩ := hset.memory a _ b3
            rw [if_pos hia'] at k
            exact ⟨c', e, k⟩
          · cases hmt : m.table with
            | none => rw [hset.noTable hmt] at ht1; cases ht1
            | some t =>
              obtain ⟨t', e1, k1⟩ := hset.table t hmt
              rw [e1] at ht1; injection ht1 with ht1; subst ht1
              rw [k1, if_pos (by omega)]
              unfold mappingFor
              rw [mask_13, mask_mask]; rfl
        rw [hx] at h
        have fin : ∀ failed2, (∀ j, j ∉ failed → j ∉ failed2) → (r ≠ .ok () → i ∈ failed) → r ≠ .panic → fixup dbg ns faults l m1 = some (failed2, m') → _ := fun failed2 hsub hri hp h2 => by
          obtain ⟨z0, z1, z2⟩ := key failed2 hp h2
          exact (⟨fun j hj hjr hnf k hk a hja => by
            rcases List.mem_cons.1 hj with rfl | hj
            · have hke : k = c0.attrs &&& 0x101F := by
                obtain ⟨c', h', rfl⟩ := hk
                rw [hc0] at h'; injection h' with h'; rw [h']
              subst hke
              exact z0 (Classical.byContradiction fun hne => hnf (hri hne)) a hja
            · exact z1 j hj hjr (hsub j hnf) k hk a hja,
            fun a hn => z2 a (hn i List.mem_cons_self hr) fun j hj => hn j (List.mem_cons_of_mem _ hj)⟩ :
            (∀ j ∈ i :: l, j.isRuntime → j ∉ failed → ∀ k, CacheOf m j k → ∀ a, j.Has a → HasAttrs m' a k) ∧
              (∀ a, (∀ j ∈ i :: l, j.isRuntime → ¬ j.Has a) → Same m m' a))
        cases r with
        | ok _ => exact fin failed (fun _ h => h) (fun h => absurd rfl h) (by simp) h
        | err e =>
          dsimp only at h
          cases dbg with
          | true => cases h
          | false =>
            rw [if_neg (by simp)] at h
            cases hy : fixup false ns faults l m1 with
            | none => rw [hy] at h; cases h
            | some y =>
              obtain ⟨f2, m2⟩ := y
              rw [hy] at h
              injection h with h; injection h with hf h
              have h : m2 = m' := h
              subst h
              have hf : i :: f2 = failed := hf
              subst hf
              exact fin f2 (fun j hj hj2 => hj (List.mem_cons_of_mem _ hj2)) (fun _ => List.mem_cons_self) (by simp) hy
        | panic => cases h
    · rw [if_neg hr] at h
      obtain ⟨z1, z2⟩ := ih h hm ha'.2 (fun j hj => hl j (List.mem_cons_of_mem _ hj)) href
      refine ⟨fun j hj hjr => ?_, fun a hn => z2 a fun j hj => hn j (List.mem_cons_of_mem _ hj)⟩
      rcases List.mem_cons.1 hj with rfl | hj
      · exact absurd hjr hr
      · exact z1 j hj hjr

/-- C136: a runtime driver whose memory did not lose its protection is named in the log, whatever the page table does: every other one has the cache attributes of
its first page and nothing else, in the memory space and in the page table. (The hypothesis on `refusals`: the memory space did not refuse a part.) -/
theorem logged_or_unprotected (h : fixup dbg ns faults l m = some (failed, m')) (hm : MemOk ns m) (ha : Apart l)
    (hl : ∀ i ∈ l, i.isRuntime → 0 < i.pages ∧ i.base % 4096 = 0 ∧ i.base + i.pages * 4096 ≤ m.gcd.max ∧ ∀ k, CacheOf m i k → k ≠ 0) (href : m'.refusals = m.refusals)
    (hi : i ∈ l) (hr : i.isRuntime) (hnf : i ∉ failed) :
    ∃ k, CacheOf m i k ∧ ∀ a, i.Has a → (∃ c, cellAt m'.gcd.blocks a = some c ∧ c.attrs = k) ∧ ∀ t, m'.table = some t → t (a / 4096) = some k := by
  obtain ⟨hp0, _, hin0, _⟩ := hl i hi hr
  obtain ⟨c0, hc0⟩ := cell_first (i := i) hm (by omega)
  exact ⟨_, ⟨c0, hc0, rfl⟩, fun a hia => (fixup_each h hm ha hl href).1 i hi hr hnf _ ⟨c0, hc0, rfl⟩ a hia⟩

theorem step_zero {f : Faults} {m m1 : Mem} {base len : Nat} {r : Outcome EfiError Unit}
    (h : m.step dbg ns f (.setAttributes base len 0) = some (r, m1)) : m1.table = m.table := by
  have gcd : ∀ (m : Mem) b n a, (m.setGcd b n a).table = m.table := by
    intro m b n a; unfold Mem.setGcd; split <;> rfl
  have piece : ∀ {m m1 : Mem} {old b n : Nat} {r}, m.setPiece dbg f old b n 0 = (r, m1) → m1.table = m.table := by
    intro m m1 old b n r h
    unfold Mem.setPiece at h
    split at h
    · injection h with _ h; rw [← h]
    · unfold Mem.setTable at h
      rw [if_pos (Nat.zero_and _)] at h
      injection h with _ h; rw [← h]; exact gcd ..
  have loop : ∀ n {m m1 : Mem} {cur stop : Nat} {res r}, Mem.setLoop dbg f 0 stop n m cur res = some (r, m1) → m1.table = m.table := by
    intro n
    induction n with
    | zero => intro m m1 cur stop res r h; cases h
    | succ n ih =>
      intro m m1 cur stop res r h
      unfold Mem.setLoop at h
      split at h
      · split at h
        · split at h
          · rename_i hx; exact (ih h).trans (piece hx)
          · rename_i hx; exact (ih h).trans (piece hx)
          · rename_i hx; injection h with h; injection h with _ h; subst h; exact piece hx
        · injection h with h; injection h with _ h; rw [← h]
        · injection h with h; injection h with _ h; rw [← h]
      · injection h with h; injection h with _ h; rw [← h]
  have set : ∀ {n r}, m.setAttributes dbg f n base len 0 = some (r, m1) → m1.table = m.table := by
    intro n r h
    unfold Mem.setAttributes at h
    split at h
    · injection h with h; injection h with _ h; rw [← h]
    · exact loop _ h
  simp only [Mem.step, Mem.coreSetAttributes] at h
  split at h
  · rename_i hx
    injection h with h; injection h with _ h
    subst h
    exact set hx
  · exact set h

/-- What C136 does not say, and why: if the first page of a driver has no cache attributes in the memory space, its pages stay mapped as they are,
protected or not, although the memory space is asked to forget the protection. -/
theorem uncached_driver_stays_protected (hm : MemOk ns m) (hc : CacheOf m i 0) (h : fixup dbg ns faults [i] m = some (failed, m')) :
    m'.table = m.table := by
  unfold fixup at h
  rw [cacheAttrs_eq hm hc] at h
  split at h
  · cases hx : m.step dbg ns (faults i) (.setAttributes i.base (i.pages * 4096) 0) with
    | none => rw [hx] at h; cases h
    | some x =>
      obtain ⟨r, m1⟩ := x
      rw [hx] at h
      cases r with
      | ok _ => injection h with h; injection h with _ h; subst h; exact step_zero hx
      | err e =>
        cases dbg with
        | true => cases h
        | false => injection h with h; injection h with _ h; subst h; exact step_zero hx
      | panic => cases h
  · injection h with h; injection h with _ h; rw [← h]

/-! ### Concrete cases -/

/-- Two runtime drivers, the first of them on a page that cannot be executed, and a boot driver. -/
def demoImages : List Img := [⟨0, 1, 12⟩, ⟨0x3000, 1, 11⟩, ⟨0x8000, 1, 12⟩]

theorem demo_loaded {b n k : Nat} (h1 : b % 4096 = 0) (h2 : b + n * 4096 ≤ demoGcd.max) (h3 : 0 < n) (hk : k ≠ 0)
    (hb : ∀ x ∈ demoGcd.blocks, x.base < b + n * 4096 → b < x.base + x.len → x.st.type ≠ .nonExistent ∧ x.st.attrs &&& 0x101F = k ∧ x.st.caps ||| k = x.st.caps) :
    Loaded demoMem ⟨b, n, 12⟩ := by
  have hg := good_of demo_reachable (by decide +kernel)
  have cache : ∀ k', CacheOf demoMem ⟨b, n, 12⟩ k' → k' = k := by
    rintro k' ⟨c, hc, rfl⟩
    obtain ⟨x, hx, x1, x2, x3⟩ := cellAt_some hg.tiles (Nat.zero_le b) (by omega)
    have hc : cellAt demoGcd.blocks b = some c := hc
    rw [x3] at hc; injection hc with hc; subst hc
    exact (hb x hx (by omega) (by omega)).2.1
  refine ⟨h3, h2, fun k' hk' => by rw [cache k' hk']; exact hk, fun k' hk' a a1 a2 => ?_, h1, Nat.mul_mod_left _ _, fun a _ _ => pageWise_blocks demo_aligned a⟩
  rw [cache k' hk']
  have a1 : b ≤ a := a1
  have a2 : a < b + n * 4096 := a2
  obtain ⟨x, hx, x1, x2, x3⟩ := cellAt_some hg.tiles (Nat.zero_le a) (by omega)
  exact ⟨x.st, x3, (hb x hx (by omega) (by omega)).1, (hb x hx (by omega) (by omega)).2.2⟩

/-- The hypotheses of the theorems hold of them. -/
example : MemOk 1 demoMem ∧ Sync demoMem ∧ Apart demoImages ∧ (∀ i ∈ demoImages, i.isRuntime → Loaded demoMem i) ∧
    demoMem.gcd.blocks.length + 2 * demoImages.length + 8 ≤ 4096 := by
  refine ⟨demo_ok, demo_sync, ?_, ?_, by decide +kernel⟩
  · unfold Apart demoImages
    simp only [List.pairwise_cons, List.mem_cons, List.not_mem_nil, or_false, forall_eq_or_imp, forall_eq, Img.Has]
    refine ⟨⟨fun _ _ a h => by omega, fun _ _ a h => by omega⟩, fun _ _ a h => by omega, by simp, List.Pairwise.nil⟩
  · intro i hi hr
    simp only [demoImages, List.mem_cons, List.not_mem_nil, or_false] at hi
    rcases hi with rfl | rfl | rfl
    · exact demo_loaded (k := 8) (by decide) (by decide +kernel) (by decide) (by decide) (by decide +kernel)
    · exact absurd hr (by decide)
    · exact demo_loaded (k := 8) (by decide) (by decide +kernel) (by decide) (by decide) (by decide +kernel)

/-- And this is what happens: page 0 was not executable and is now. -/
example : pageAt demoMem 0 = some 0x4008 ∧ (fixup true 1 (fun _ => calm) demoImages demoMem).map (fun x => (x.1, (List.range 9).map (pageAt x.2))) =
    some ([], [some 8, none, none, none, none, none, none, none, some 8]) := by
  decide +kernel

/-- A runtime driver without cache attributes, on a page that cannot be executed: afterwards the memory space says that it has no protection, and it
still cannot be executed. No error is reported. -/
theorem uncached_driver_witness :
    let m := after true calm demoMem (.setAttributes 0x8000 0x1000 0x4000)
    CacheOf m ⟨0x8000, 1, 12⟩ 0 ∧ pageAt m 8 = some 0x4000 ∧
    (fixup true 1 (fun _ => calm) [⟨0x8000, 1, 12⟩] m).map (fun x => (x.1, pageAt x.2 8, (cellAt x.2.gcd.blocks 0x8000).map fun c => c.attrs)) =
      some ([], some 0x4000, some 0) := by
  refine ⟨⟨⟨false, .systemMemory, 9223372036854931471, 0x4000, 0, 0⟩, ?_, ?_⟩, ?_⟩ <;> decide +kernel

/-- An error in a debug build stops the core; in a release build the image is named and the others are still seen to. -/
example : fixup true 1 (fun i => if i.base = 0 then ⟨fun _ => some .other, fun _ => false⟩ else calm) demoImages demoMem = none ∧
    (fixup false 1 (fun i => if i.base = 0 then ⟨fun _ => some .other, fun _ => false⟩ else calm) demoImages demoMem).map (fun x => (x.1, pageAt x.2 0, pageAt x.2 8)) =
      some ([⟨0, 1, 12⟩], some 0x4008, some 8) := by
  constructor
  · have : (fixup true 1 (fun i => if i.base = 0 then ⟨fun _ => some .other, fun _ => false⟩ else calm) demoImages demoMem).isNone = true := by decide +kernel
    simpa using this
  · decide +kernel

end Verif.Paging.RuntimeFixup
