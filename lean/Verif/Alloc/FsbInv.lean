import Verif.Alloc.Lemmas
/-!
The invariant of one allocator, and that `alloc`, `dealloc` and `expand` keep it.
-/
namespace Verif.Alloc
open Verif.Gcd
open Verif.Hob (Mem)

variable {E : Env}

/-- A region with the list of blocks its heap has given out. -/
abbrev Backed (E : Env) := Region E.H × List (Nat × Layout)

/-- The blocks given out by the heaps of all the regions. -/
def backedBlocks (rl : List (Backed E)) : List (Nat × Layout) := rl.flatMap (·.2)

/-- The regions as the GCD knows them. -/
structure RegionsOk (E : Env) (rs : List (Region E.H)) : Prop where
  apart : rs.Pairwise fun r s => ¬ Overlap r.base r.len s.base s.len
  base8 : ∀ r ∈ rs, r.base % 8 = 0
  len8 : ∀ r ∈ rs, r.len % 8 = 0
  big : ∀ r ∈ rs, E.node + 32 ≤ r.len
  pos : ∀ r ∈ rs, 0 < r.base
  fits : ∀ r ∈ rs, r.base + r.len < W

/-- The invariant of an allocator: what its heaps have given out is what the users have (`gs`) and what is on the free lists. -/
structure FsbOk (hE : EnvOk E) (f : Fsb E.H) (m : Mem) (gs : List (Nat × Layout)) (rl : List (Backed E)) (free : Nat → List Nat) : Prop where
  regions : rl.map (·.1) = f.regions
  heaps : ∀ x ∈ rl, hE.heap.Inv x.1.st (x.1.base + E.node) (x.1.base + x.1.len) x.2 m
  lists : ∀ k, k < 10 → Chain m (f.heads.getD k 0) (free k)
  heads : f.heads.length = 10
  blocks : (backedBlocks rl).Perm (gs.map (fun x => (x.1, heapLayout x.2)) ++ freeBlocks free)
  valid : ∀ x ∈ gs, x.2.Valid

variable {hE : EnvOk E} {f f' : Fsb E.H} {m m' : Mem} {gs : List (Nat × Layout)} {rl : List (Backed E)} {free : Nat → List Nat}

theorem mem_backed {x : Nat × Layout} : x ∈ backedBlocks rl ↔ ∃ r ∈ rl, x ∈ r.2 := by
  unfold backedBlocks; simp only [List.mem_flatMap]

/-- All the blocks are apart. -/
theorem backed_apart (hr : RegionsOk E (rl.map (·.1)))
    (hh : ∀ x ∈ rl, hE.heap.Inv x.1.st (x.1.base + E.node) (x.1.base + x.1.len) x.2 m) : (backedBlocks rl).Pairwise Apart := by
  have hap := hr.apart
  clear hr
  induction rl with
  | nil => exact List.Pairwise.nil
  | cons r rl ih =>
    rw [List.map_cons, List.pairwise_cons] at hap
    unfold backedBlocks
    rw [List.flatMap_cons, List.pairwise_append]
    refine ⟨hE.heap.apart (hh r (by simp)), ih (fun x hx => hh x (by simp [hx])) hap.2, ?_⟩
    intro x hx y hy
    obtain ⟨s, hs, hy⟩ := mem_backed.1 hy
    obtain ⟨_, x1, _, x3⟩ := hE.heap.inside (hh r (by simp)) x hx
    obtain ⟨_, y1, _, y3⟩ := hE.heap.inside (hh s (by simp [hs])) y hy
    rintro ⟨a, a1, a2, a3, a4⟩
    exact hap.1 s.1 (List.mem_map_of_mem hs) ⟨a, by omega, by omega, by omega, by omega⟩

/-- The address belongs to the heap of a region. -/
def InHeaps (E : Env) (rs : List (Region E.H)) (a : Nat) : Prop := ∃ r ∈ rs, r.base + E.node ≤ a ∧ a < r.base + r.len

theorem backed_inside (hh : ∀ x ∈ rl, hE.heap.Inv x.1.st (x.1.base + E.node) (x.1.base + x.1.len) x.2 m) {x : Nat × Layout}
    (hx : x ∈ backedBlocks rl) : x.1 % x.2.align = 0 ∧ ∃ r ∈ rl, x ∈ r.2 ∧ r.1.base + E.node ≤ x.1 ∧ x.1 < r.1.base + r.1.len ∧
      x.1 + x.2.size ≤ r.1.base + r.1.len := by
  obtain ⟨r, hr, hx⟩ := mem_backed.1 hx
  obtain ⟨x0, x1, x2, x3⟩ := hE.heap.inside (hh r hr) x hx
  exact ⟨x0, r, hr, hx, x1, x2, x3⟩

theorem FsbOk.apart (h : FsbOk hE f m gs rl free) (hr : RegionsOk E f.regions) :
    (gs.map (fun x => (x.1, heapLayout x.2)) ++ freeBlocks free).Pairwise Apart := by
  rw [← h.regions] at hr
  exact (h.blocks.pairwise_iff apart_symm).1 (backed_apart hr h.heaps)

/-- A block the user has: aligned, inside a region, clear of the node. -/
theorem FsbOk.grant_ok (h : FsbOk hE f m gs rl free) {x : Nat × Layout} (hx : x ∈ gs) :
    x.1 % x.2.align = 0 ∧ ∃ r ∈ f.regions, r.base + E.node ≤ x.1 ∧ x.1 < r.base + r.len ∧ x.1 + x.2.size ≤ r.base + r.len ∧
      x.1 + (heapLayout x.2).size ≤ r.base + r.len := by
  have hm : (x.1, heapLayout x.2) ∈ backedBlocks rl :=
    h.blocks.mem_iff.2 (List.mem_append_left _ (List.mem_map.2 ⟨x, hx, rfl⟩))
  obtain ⟨h0, r, hr, _, h1, h2, h3⟩ := backed_inside h.heaps hm
  refine ⟨?_, r.1, by rw [← h.regions]; exact List.mem_map_of_mem hr, h1, h2, ?_, h3⟩
  · exact Nat.mod_eq_zero_of_dvd (Nat.dvd_trans (heapLayout_align (h.valid x hx)) (Nat.dvd_of_mod_eq_zero h0))
  · have := heapLayout_size x.2; simp only at h3; omega

/-- A free block: inside a region. -/
theorem FsbOk.free_ok (h : FsbOk hE f m gs rl free) {k p : Nat} (hk : k < 10) (hp : p ∈ free k) :
    p % blockSize k = 0 ∧ ∃ r ∈ f.regions, r.base + E.node ≤ p ∧ p < r.base + r.len ∧ p + blockSize k ≤ r.base + r.len := by
  have hm : (p, (⟨blockSize k, blockSize k⟩ : Layout)) ∈ backedBlocks rl :=
    h.blocks.mem_iff.2 (List.mem_append_right _ (mem_freeBlocks.2 ⟨k, hk, hp, rfl⟩))
  obtain ⟨h0, r, hr, _, h1, h2, h3⟩ := backed_inside h.heaps hm
  exact ⟨h0, r.1, by rw [← h.regions]; exact List.mem_map_of_mem hr, h1, h2, h3⟩

/-- The users' blocks are apart, even with the rounding up. -/
theorem FsbOk.grants_apart (h : FsbOk hE f m gs rl free) (hr : RegionsOk E f.regions) :
    (gs.map (fun x => (x.1, heapLayout x.2))).Pairwise Apart := (List.pairwise_append.1 (h.apart hr)).1

/-- Only the allocator's own memory matters to it: its heaps (but not the blocks given out). -/
theorem FsbOk.frame (h : FsbOk hE f m gs rl free) (hr : RegionsOk E f.regions)
    (hm : ∀ a, InHeaps E f.regions a → (∀ x ∈ gs, ¬ In x.1 (heapLayout x.2) a) → m' a = m a) : FsbOk hE f m' gs rl free := by
  have hap := h.apart hr
  refine ⟨h.regions, ?_, ?_, h.heads, h.blocks, h.valid⟩
  · intro x hx
    refine hE.heap.stable (h.heaps x hx) fun a h1 h2 h3 => hm a ⟨x.1, by rw [← h.regions]; exact List.mem_map_of_mem hx, h1, h2⟩ ?_
    intro y hy hin
    -- the block is given out by some heap; it is in this one, since the regions are apart
    have hb : (y.1, heapLayout y.2) ∈ backedBlocks rl :=
      h.blocks.mem_iff.2 (List.mem_append_left _ (List.mem_map.2 ⟨y, hy, rfl⟩))
    obtain ⟨_, s, hs, hin2, s1, s2, s3⟩ := backed_inside h.heaps hb
    have hpw := hr.apart
    rw [← h.regions, List.pairwise_map] at hpw
    rcases pairwise_mem (fun _ _ h h' => h (overlap_symm h')) hpw hx hs with rfl | hno
    · exact h3 _ hin2 hin
    · unfold In at hin
      refine hno ⟨a, by omega, by omega, ?_, ?_⟩ <;> (simp only at s1 s3; omega)
  · intro k hk
    refine (h.lists k hk).congr fun p hp a h1 h2 => ?_
    obtain ⟨_, r, hr', r1, r2, r3⟩ := h.free_ok hk hp
    have := (blockSize_bounds hk).1
    refine hm a ⟨r, hr', by omega, by omega⟩ ?_
    intro x hx hin
    refine (List.pairwise_append.1 hap).2.2 (x.1, heapLayout x.2) (List.mem_map.2 ⟨x, hx, rfl⟩) (p, ⟨blockSize k, blockSize k⟩)
      (mem_freeBlocks.2 ⟨k, hk, hp, rfl⟩) ⟨a, hin.1, hin.2, h1, ?_⟩
    show a < p + blockSize k
    omega

/-! ### Allocation -/

/-- The regions after an operation of their heaps: the same memory. -/
def SameShape (rs rs' : List (Region E.H)) : Prop := rs'.map (fun r => (r.base, r.len)) = rs.map fun r => (r.base, r.len)

theorem SameShape.heaps {rs rs' : List (Region E.H)} (h : SameShape rs rs') (a : Nat) : InHeaps E rs' a ↔ InHeaps E rs a := by
  have key : ∀ rs : List (Region E.H), InHeaps E rs a ↔ ∃ q ∈ rs.map (fun r => (r.base, r.len)), q.1 + E.node ≤ a ∧ a < q.1 + q.2 := by
    intro rs
    unfold InHeaps
    simp only [List.mem_map]
    constructor
    · rintro ⟨r, h1, h2⟩; exact ⟨_, ⟨r, h1, rfl⟩, h2⟩
    · rintro ⟨_, ⟨r, h1, rfl⟩, h2⟩; exact ⟨r, h1, h2⟩
  rw [key, key, h]

theorem SameShape.regionsOk {rs rs' : List (Region E.H)} (h : SameShape rs rs') (hr : RegionsOk E rs) : RegionsOk E rs' := by
  have hall : ∀ P : Nat × Nat → Prop, (∀ r ∈ rs, P (r.base, r.len)) → ∀ r ∈ rs', P (r.base, r.len) := by
    intro P hP r hr'
    have : (r.base, r.len) ∈ rs'.map (fun r => (r.base, r.len)) := List.mem_map.2 ⟨r, hr', rfl⟩
    rw [h] at this
    obtain ⟨q, hq, he⟩ := List.mem_map.1 this
    rw [← he]; exact hP q hq
  refine ⟨?_, hall (fun q => q.1 % 8 = 0) hr.base8, hall (fun q => q.2 % 8 = 0) hr.len8, hall (fun q => E.node + 32 ≤ q.2) hr.big,
    hall (fun q => 0 < q.1) hr.pos, hall (fun q => q.1 + q.2 < W) hr.fits⟩
  have hp : ∀ rs : List (Region E.H), rs.Pairwise (fun r s => ¬ Overlap r.base r.len s.base s.len) ↔
      (rs.map fun r => (r.base, r.len)).Pairwise (fun r s => ¬ Overlap r.1 r.2 s.1 s.2) := by
    intro rs; rw [List.pairwise_map]
  rw [hp, h, ← hp]; exact hr.apart

/-- Trying the heaps one after the other. -/
theorem tryRegions_ok {lay : Layout} (hv : lay.Valid) : ∀ {rl : List (Backed E)} {p : Nat} {rs' : List (Region E.H)} {m' : Mem},
    RegionsOk E (rl.map (·.1)) → (∀ x ∈ rl, hE.heap.Inv x.1.st (x.1.base + E.node) (x.1.base + x.1.len) x.2 m) →
    tryRegions m lay (rl.map (·.1)) = some (p, rs', m') →
    ∃ rl' : List (Backed E), rl'.map (·.1) = rs' ∧ SameShape (rl.map (·.1)) rs' ∧
      (∀ x ∈ rl', hE.heap.Inv x.1.st (x.1.base + E.node) (x.1.base + x.1.len) x.2 m') ∧
      (backedBlocks rl').Perm ((p, lay) :: backedBlocks rl) ∧
      (∀ a, ¬ InHeaps E (rl.map (·.1)) a ∨ (∃ x ∈ backedBlocks rl, In x.1 x.2 a) → m' a = m a)
  | [], p, rs', m', _, _, h => by cases h
  | r :: rl, p, rs', m', hr, hh, h => by
    have hap := hr.apart
    rw [List.map_cons, List.pairwise_cons] at hap
    have hr2 : RegionsOk E (rl.map (·.1)) :=
      ⟨hap.2, fun x hx => hr.base8 x (by simp at hx ⊢; exact .inr hx), fun x hx => hr.len8 x (by simp at hx ⊢; exact .inr hx),
        fun x hx => hr.big x (by simp at hx ⊢; exact .inr hx), fun x hx => hr.pos x (by simp at hx ⊢; exact .inr hx),
        fun x hx => hr.fits x (by simp at hx ⊢; exact .inr hx)⟩
    rw [List.map_cons, tryRegions] at h
    cases ha : E.H.alloc r.1.st m lay with
    | some q =>
      obtain ⟨p1, s1, m1⟩ := q
      rw [ha] at h
      simp only [Option.some.injEq, Prod.mk.injEq] at h
      obtain ⟨rfl, rfl, rfl⟩ := h
      have hi := hE.heap.alloc (hh r (by simp)) hv ha
      have hf := fun a => hE.heap.allocFrame (a := a) (hh r (by simp)) hv ha
      refine ⟨({ r.1 with st := s1 }, (p1, lay) :: r.2) :: rl, by simp, by simp [SameShape], ?_, ?_, ?_⟩
      · intro x hx
        rcases List.mem_cons.1 hx with rfl | hx
        · exact hi
        · refine hE.heap.stable (hh x (by simp [hx])) fun a h1 h2 _ => hf a (.inl ?_)
          rintro ⟨h3, h4⟩
          exact hap.1 x.1 (List.mem_map_of_mem hx) ⟨a, by omega, by omega, by omega, by omega⟩
      · simp [backedBlocks]
      · intro a ha'
        apply hf
        rcases ha' with ha' | ⟨x, hx, hin⟩
        · exact .inl fun hc => ha' ⟨r.1, by simp, hc⟩
        · obtain ⟨s, hs, hxs⟩ := mem_backed.1 hx
          rcases List.mem_cons.1 hs with rfl | hs
          · exact .inr ⟨x, hxs, hin⟩
          · left
            rintro ⟨h3, h4⟩
            obtain ⟨_, x1, _, x3⟩ := hE.heap.inside (hh s (by simp [hs])) x hxs
            unfold In at hin
            exact hap.1 s.1 (List.mem_map_of_mem hs) ⟨a, by omega, by omega, by omega, by omega⟩
    | none =>
      rw [ha] at h
      cases ht : tryRegions m lay (rl.map (·.1)) with
      | none => simp only [ht] at h; cases h
      | some q =>
        obtain ⟨p1, rs1, m1⟩ := q
        simp only [ht, Option.some.injEq, Prod.mk.injEq] at h
        obtain ⟨rfl, rfl, rfl⟩ := h
        obtain ⟨rl', e1, e2, e3, e4, e5⟩ := tryRegions_ok hv hr2 (fun x hx => hh x (by simp [hx])) ht
        refine ⟨r :: rl', by simp [e1], ?_, ?_, ?_, ?_⟩
        · unfold SameShape at e2 ⊢
          rw [List.map_cons, List.map_cons, List.map_cons, e2]
        · intro x hx
          rcases List.mem_cons.1 hx with rfl | hx
          · refine hE.heap.stable (hh x (by simp)) fun a h1 h2 _ => e5 a (.inl ?_)
            rintro ⟨s, hs, h3, h4⟩
            exact hap.1 s hs ⟨a, by omega, by omega, by omega, by omega⟩
          · exact e3 x hx
        · have e6 : backedBlocks (r :: rl') = r.2 ++ backedBlocks rl' := by simp [backedBlocks]
          have e7 : backedBlocks (r :: rl) = r.2 ++ backedBlocks rl := by simp [backedBlocks]
          rw [e6, e7]
          exact (List.Perm.append_left _ e4).trans List.perm_middle
        · intro a ha'
          apply e5
          rcases ha' with ha' | ⟨x, hx, hin⟩
          · exact .inl fun ⟨s, hs, hc⟩ => ha' ⟨s, by simp at hs ⊢; exact .inr hs, hc⟩
          · obtain ⟨s, hs, hxs⟩ := mem_backed.1 hx
            rcases List.mem_cons.1 hs with rfl | hs
            · left
              rintro ⟨s', hs', h3, h4⟩
              obtain ⟨_, x1, _, x3⟩ := hE.heap.inside (hh s (by simp)) x hxs
              unfold In at hin
              exact hap.1 s' hs' ⟨a, by omega, by omega, by omega, by omega⟩
            · exact .inr ⟨x, mem_backed.2 ⟨s, hs, hxs⟩, hin⟩

end Verif.Alloc
