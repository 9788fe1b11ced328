import Verif.Alloc.FsbInv
/-!
`alloc`, `dealloc` and `expand` keep the invariant of an allocator and leave the users' blocks alone.
-/
namespace Verif.Alloc
open Verif.Gcd
open Verif.Hob (Mem)

variable {E : Env} {hE : EnvOk E} {f f' : Fsb E.H} {m m' : Mem} {gs : List (Nat × Layout)} {rl : List (Backed E)} {free : Nat → List Nat}

/-- The same allocator but for its lists, heaps and book-keeping. -/
structure Alike (f f' : Fsb E.H) : Prop where
  shape : SameShape f.regions f'.regions
  handle : f'.handle = f.handle
  gran : f'.gran = f.gran
  memType : f'.memType = f.memType

theorem Alike.refl (f : Fsb E.H) : Alike f f := ⟨rfl, rfl, rfl, rfl⟩

theorem Alike.trans {f1 f2 f3 : Fsb E.H} (h : Alike f1 f2) (h' : Alike f2 f3) : Alike f1 f3 :=
  ⟨Eq.trans h'.shape h.shape, h'.handle.trans h.handle, h'.gran.trans h.gran, h'.memType.trans h.memType⟩

/-- Memory after an operation on the block at `p` of layout `l`: unchanged outside the heaps and in the other blocks. -/
def Frame (rl : List (Backed E)) (m m' : Mem) (p : Nat) (l : Layout) : Prop :=
  ∀ a, ¬ InHeaps E (rl.map (·.1)) a ∨ (∃ x ∈ backedBlocks rl, x ≠ (p, l) ∧ In x.1 x.2 a) → m' a = m a

theorem getD_set_self {l : List Nat} {k v : Nat} (h : k < l.length) : (l.set k v).getD k 0 = v := by
  rw [List.getD_eq_getElem?_getD, List.getElem?_set_self h, Option.getD_some]

theorem getD_set_ne {l : List Nat} {k j v : Nat} (h : k ≠ j) : (l.set k v).getD j 0 = l.getD j 0 := by
  rw [List.getD_eq_getElem?_getD, List.getElem?_set_ne h, List.getD_eq_getElem?_getD]

theorem FsbOk.stats (h : FsbOk hE f m gs rl free) (h1 : f'.regions = f.regions) (h2 : f'.heads = f.heads) : FsbOk hE f' m gs rl free :=
  ⟨h.regions.trans h1.symm, h.heaps, by rw [h2]; exact h.lists, by rw [h2]; exact h.heads, h.blocks, h.valid⟩

/-- A block of the free list of size class `k` is taken off it. -/
theorem pop_ok (h : FsbOk hE f m gs rl free) (hr : RegionsOk E f.regions) {k p : Nat} (hk : k < 10) (hp : f.heads.getD k 0 = p)
    (h0 : p ≠ 0) {lay : Layout} (hl : heapLayout lay = ⟨blockSize k, blockSize k⟩) (hv : lay.Valid)
    (h1 : f'.regions = f.regions) (h2 : f'.heads = f.heads.set k (get64 m p)) :
    (∃ l, free k = p :: l ∧ FsbOk hE f' (put64 m p 0) ((p, lay) :: gs) rl (setList free k l)) ∧
      Frame rl m (put64 m p 0) p (heapLayout lay) := by
  have hb := blockSize_bounds hk
  have hch := h.lists k hk
  rw [hp] at hch
  cases hfk : free k with
  | nil => rw [hfk] at hch; exact absurd hch h0
  | cons q l =>
    rw [hfk] at hch
    obtain ⟨rfl, _, hch⟩ := hch
    have hperm := freeBlocks_pop free hk hfk
    have hap : ((p, (⟨blockSize k, blockSize k⟩ : Layout)) :: freeBlocks (setList free k l)).Pairwise Apart :=
      (hperm.pairwise_iff apart_symm).1 (List.pairwise_append.1 (h.apart hr)).2.1
    have hout : ∀ j q, j < 10 → q ∈ setList free k l j → ∀ a, q ≤ a → a < q + 8 → put64 m p 0 a = m a := by
      intro j q hj hq a a1 a2
      apply put64_out
      rintro ⟨a3, a4⟩
      have hbj := (blockSize_bounds hj).1
      exact (List.pairwise_cons.1 hap).1 (q, ⟨blockSize j, blockSize j⟩) (mem_freeBlocks.2 ⟨j, hj, hq, rfl⟩)
        ⟨a, a3, by simp only; omega, a1, by simp only; omega⟩
    refine ⟨⟨l, rfl, ?_⟩, ?_⟩
    · refine ⟨h.regions.trans h1.symm, ?_, ?_, by rw [h2]; simpa using h.heads, ?_, ?_⟩
      · intro x hx
        refine hE.heap.stable (h.heaps x hx) fun a a1 a2 a3 => put64_out ?_
        rintro ⟨a4, a5⟩
        have hin : (p, (⟨blockSize k, blockSize k⟩ : Layout)) ∈ backedBlocks rl :=
          h.blocks.mem_iff.2 (List.mem_append_right _ (hperm.mem_iff.2 (by simp)))
        obtain ⟨_, s, hs, hin2, s1, s2, s3⟩ := backed_inside h.heaps hin
        have hpw := hr.apart
        rw [← h.regions, List.pairwise_map] at hpw
        simp only at s1 s2 s3
        rcases pairwise_mem (fun _ _ h h' => h (overlap_symm h')) hpw hx hs with rfl | hno
        · exact a3 _ hin2 ⟨a4, by simp only; omega⟩
        · exact hno ⟨a, by omega, by omega, by omega, by omega⟩
      · intro j hj
        rw [h2]
        by_cases hjk : j = k
        · subst hjk
          rw [getD_set_self (by rw [h.heads]; exact hj)]
          have e : setList free j l j = l := by simp [setList]
          rw [e]
          exact hch.congr fun q hq => hout j q hj (by rw [e]; exact hq)
        · rw [getD_set_ne (fun e => hjk e.symm)]
          have e : setList free k l j = free j := by simp [setList, hjk]
          rw [e]
          exact (h.lists j hj).congr fun q hq => hout j q hj (by rw [e]; exact hq)
      · refine h.blocks.trans ?_
        rw [List.map_cons, List.cons_append, hl]
        exact (List.Perm.append_left _ hperm).trans List.perm_middle
      · intro x hx
        rcases List.mem_cons.1 hx with rfl | hx
        · exact hv
        · exact h.valid x hx
    · intro a ha
      apply put64_out
      rintro ⟨a1, a2⟩
      have hin : (p, (⟨blockSize k, blockSize k⟩ : Layout)) ∈ backedBlocks rl :=
        h.blocks.mem_iff.2 (List.mem_append_right _ (hperm.mem_iff.2 (by simp)))
      rcases ha with ha | ⟨x, hx, hne, hxa⟩
      · obtain ⟨_, r, hr', _, s1, s2, s3⟩ := backed_inside h.heaps hin
        simp only at s1 s2 s3
        exact ha ⟨r.1, List.mem_map_of_mem hr', by omega, by omega⟩
      · have hpw := backed_apart (hE := hE) (by rw [h.regions]; exact hr) h.heaps
        rw [hl] at hne
        rcases pairwise_mem (fun _ _ => apart_symm) hpw hx hin with he | he
        · exact hne he
        · exact he ⟨a, hxa.1, hxa.2, a1, by simp only; omega⟩

/-- The heaps are asked. -/
theorem fallback_ok (h : FsbOk hE f m gs rl free) (hr : RegionsOk E f.regions) {lay hl : Layout} (he : heapLayout lay = hl) (hv : lay.Valid)
    {p : Nat} (hx : f.fallbackAlloc E m hl = (.ok p, f', m')) :
    (∃ rl', FsbOk hE f' m' ((p, lay) :: gs) rl' free ∧ (backedBlocks rl').Perm ((p, hl) :: backedBlocks rl)) ∧ Alike f f' ∧
      (∀ a, ¬ InHeaps E f.regions a ∨ (∃ x ∈ backedBlocks rl, In x.1 x.2 a) → m' a = m a) := by
  unfold Fsb.fallbackAlloc at hx
  cases ht : tryRegions m hl f.regions with
  | none => simp only [ht, Prod.mk.injEq] at hx; cases hx.1
  | some q =>
    obtain ⟨p1, rs1, m1⟩ := q
    simp only [ht, Prod.mk.injEq] at hx
    obtain ⟨hp, rfl, rfl⟩ := hx
    injection hp with hp; subst hp
    rw [← h.regions] at ht hr
    obtain ⟨rl', e1, e2, e3, e4, e5⟩ := tryRegions_ok (he ▸ heapLayout_valid hv) hr h.heaps ht
    refine ⟨⟨rl', ⟨e1, e3, ?_, h.heads, ?_, ?_⟩, e4⟩, ⟨by rw [← h.regions]; exact e2, rfl, rfl, rfl⟩, by rw [← h.regions]; exact e5⟩
    · intro k hk
      refine (h.lists k hk).congr fun q hq a a1 a2 => e5 a (.inr ?_)
      have := (blockSize_bounds hk).1
      exact ⟨(q, ⟨blockSize k, blockSize k⟩), h.blocks.mem_iff.2 (List.mem_append_right _ (mem_freeBlocks.2 ⟨k, hk, hq, rfl⟩)),
        a1, by simp only; omega⟩
    · refine e4.trans ?_
      rw [List.map_cons, List.cons_append, he]
      exact List.Perm.cons _ h.blocks
    · intro x hx
      rcases List.mem_cons.1 hx with rfl | hx
      · exact hv
      · exact h.valid x hx

/-- A block given out: the invariant holds with the block added, no block has become free, and memory outside the heaps and in
the blocks given out or free is as it was. -/
theorem alloc_ok (h : FsbOk hE f m gs rl free) (hr : RegionsOk E f.regions) {lay : Layout} (hv : lay.Valid) {p : Nat}
    (hx : f.alloc E m lay = (.ok p, f', m')) :
    (∃ rl' free', FsbOk hE f' m' ((p, lay) :: gs) rl' free' ∧ ∀ k, k < 10 → ∀ q ∈ free k, q = p ∨ q ∈ free' k) ∧ Alike f f' ∧
      Frame rl m m' p (heapLayout lay) := by
  have h' : FsbOk hE { f with stats := { f.stats with allocCalls := f.stats.allocCalls + 1 } } m gs rl free := h.stats rfl rfl
  have key : ∀ hl, heapLayout lay = hl →
      Fsb.fallbackAlloc E { f with stats := { f.stats with allocCalls := f.stats.allocCalls + 1 } } m hl = (.ok p, f', m') →
      (∃ rl' free', FsbOk hE f' m' ((p, lay) :: gs) rl' free' ∧ ∀ k, k < 10 → ∀ q ∈ free k, q = p ∨ q ∈ free' k) ∧ Alike f f' ∧
      Frame rl m m' p (heapLayout lay) := by
    intro hl he hx
    obtain ⟨⟨rl', e1, e2⟩, e3, e4⟩ := fallback_ok h' hr he hv hx
    refine ⟨⟨rl', free, e1, fun _ _ _ h => .inr h⟩, ⟨e3.shape, e3.handle, e3.gran, e3.memType⟩, ?_⟩
    intro a ha
    rcases ha with ha | ⟨x, hx1, _, hx2⟩
    · exact e4 a (.inl (by rw [h.regions] at ha; exact ha))
    · exact e4 a (.inr ⟨x, hx1, hx2⟩)
  unfold Fsb.alloc at hx
  simp only at hx
  cases hi : listIndex lay with
  | some k =>
    have hk := (listIndex_lt hi).1
    have hl : heapLayout lay = ⟨blockSize k, blockSize k⟩ := by unfold heapLayout; rw [hi]
    simp only [hi] at hx
    split at hx
    · rename_i hne
      simp only [Prod.mk.injEq] at hx
      obtain ⟨hp, rfl, rfl⟩ := hx
      injection hp with hp
      rw [hp] at hne ⊢
      obtain ⟨⟨l, hl1, hl2⟩, hfr⟩ := pop_ok (f' := { f with stats := { f.stats with allocCalls := f.stats.allocCalls + 1 }, heads := f.heads.set k (get64 m p) })
        h hr hk hp hne hl hv rfl rfl
      refine ⟨⟨rl, _, hl2, ?_⟩, ⟨rfl, rfl, rfl, rfl⟩, hfr⟩
      intro j hj q hq
      unfold setList
      split
      · subst_vars; rw [hl1] at hq; simpa using hq
      · exact .inr hq
    · exact key _ hl hx
  | none =>
    simp only [hi] at hx
    exact key _ (by unfold heapLayout; rw [hi]) hx

/-- No block given out: nothing has changed but the statistics, and the caller is told how much to add. -/
theorem alloc_none {lay : Layout} {n : Nat} (hx : f.alloc E m lay = (.outOfMemory n, f', m')) :
    f' = { f with stats := { f.stats with allocCalls := f.stats.allocCalls + 1 } } ∧ m' = m ∧ n = required E (heapLayout lay) ∧
      tryRegions m (heapLayout lay) f.regions = none := by
  have key : ∀ hl, heapLayout lay = hl →
      Fsb.fallbackAlloc E { f with stats := { f.stats with allocCalls := f.stats.allocCalls + 1 } } m hl = (.outOfMemory n, f', m') →
      f' = { f with stats := { f.stats with allocCalls := f.stats.allocCalls + 1 } } ∧ m' = m ∧ n = required E (heapLayout lay) ∧
      tryRegions m (heapLayout lay) f.regions = none := by
    intro hl he hx
    unfold Fsb.fallbackAlloc at hx
    simp only at hx
    cases ht : tryRegions m hl f.regions with
    | none =>
      simp only [ht, Prod.mk.injEq] at hx
      obtain ⟨hn, rfl, rfl⟩ := hx
      injection hn with hn
      exact ⟨rfl, rfl, by rw [he, hn], by rw [he]; exact ht⟩
    | some q => simp only [ht, Prod.mk.injEq] at hx; cases hx.1
  unfold Fsb.alloc at hx
  simp only at hx
  cases hi : listIndex lay with
  | some k =>
    simp only [hi] at hx
    split at hx
    · simp only [Prod.mk.injEq] at hx; cases hx.1
    · exact key _ (by unfold heapLayout; rw [hi]) hx
  | none =>
    simp only [hi] at hx
    exact key _ (by unfold heapLayout; rw [hi]) hx

/-! ### Giving back -/

theorem FsbOk.perm (h : FsbOk hE f m gs rl free) {gs' : List (Nat × Layout)} (hp : gs'.Perm gs) : FsbOk hE f m gs' rl free :=
  ⟨h.regions, h.heaps, h.lists, h.heads, h.blocks.trans (List.Perm.append_right _ (hp.map _).symm),
    fun x hx => h.valid x (hp.mem_iff.1 hx)⟩

/-- A block given out is not free. -/
theorem FsbOk.free_ne {p : Nat} {lay : Layout} (h : FsbOk hE f m gs rl free) (hr : RegionsOk E f.regions) (hp : (p, lay) ∈ gs) {k q : Nat}
    (hk : k < 10) (hq : q ∈ free k) : (q, (⟨blockSize k, blockSize k⟩ : Layout)) ≠ (p, heapLayout lay) := by
  intro he
  have hb := (blockSize_bounds hk).1
  rw [Prod.mk.injEq] at he
  refine (List.pairwise_append.1 (h.apart hr)).2.2 (p, heapLayout lay) (List.mem_map.2 ⟨_, hp, rfl⟩) (q, ⟨blockSize k, blockSize k⟩)
    (mem_freeBlocks.2 ⟨k, hk, hq, rfl⟩) ⟨q, ?_, ?_, Nat.le_refl _, ?_⟩
  · simp only; omega
  · simp only; rw [← he.2, ← he.1]; simp only; omega
  · simp only; omega

/-- A block goes to the front of the free list of its size. -/
theorem push_ok {p : Nat} {lay : Layout} (h : FsbOk hE f m ((p, lay) :: gs) rl free) (hr : RegionsOk E f.regions) {k : Nat} (hk : k < 10)
    (hl : heapLayout lay = ⟨blockSize k, blockSize k⟩) (h1 : f'.regions = f.regions) (h2 : f'.heads = f.heads.set k p) :
    FsbOk hE f' (put64 m p (f.heads.getD k 0)) gs rl (setList free k (p :: free k)) ∧
      Frame rl m (put64 m p (f.heads.getD k 0)) p (heapLayout lay) := by
  have hb := blockSize_bounds hk
  have hap := h.apart hr
  rw [List.map_cons, List.cons_append, List.pairwise_cons] at hap
  obtain ⟨hap1, hap2⟩ := hap
  simp only [hl] at hap1
  have hin : (p, (⟨blockSize k, blockSize k⟩ : Layout)) ∈ backedBlocks rl :=
    h.blocks.mem_iff.2 (List.mem_append_left _ (by rw [List.map_cons, hl]; simp))
  obtain ⟨_, s, hs, hin2, s1, s2, s3⟩ := backed_inside h.heaps hin
  simp only at s1 s2 s3
  have hp0 : p ≠ 0 := by
    have := hr.pos s.1 (by rw [← h.regions]; exact List.mem_map_of_mem hs)
    omega
  have hout : ∀ j q, j < 10 → q ∈ free j → ∀ a, q ≤ a → a < q + 8 → put64 m p (f.heads.getD k 0) a = m a := by
    intro j q hj hq a a1 a2
    apply put64_out
    rintro ⟨a3, a4⟩
    have hbj := (blockSize_bounds hj).1
    exact hap1 (q, ⟨blockSize j, blockSize j⟩) (List.mem_append_right _ (mem_freeBlocks.2 ⟨j, hj, hq, rfl⟩))
      ⟨a, a3, by simp only; omega, a1, by simp only; omega⟩
  have hhead : f.heads.getD k 0 < W := by
    have := h.lists k hk
    cases hfk : free k with
    | nil => rw [hfk] at this; rw [show f.heads.getD k 0 = 0 from this]; decide
    | cons q l =>
      rw [hfk] at this
      obtain ⟨_, r, hr', _, r2, _⟩ := h.free_ok hk (p := q) (by rw [hfk]; simp)
      have := hr.fits r hr'
      rw [(show f.heads.getD k 0 = q from ‹Chain m _ (q :: l)›.1)]; omega
  refine ⟨⟨h.regions.trans h1.symm, ?_, ?_, by rw [h2]; simpa using h.heads, ?_, fun x hx => h.valid x (by simp [hx])⟩, ?_⟩
  · intro x hx
    refine hE.heap.stable (h.heaps x hx) fun a a1 a2 a3 => put64_out ?_
    rintro ⟨a4, a5⟩
    have hpw := hr.apart
    rw [← h.regions, List.pairwise_map] at hpw
    rcases pairwise_mem (fun _ _ h h' => h (overlap_symm h')) hpw hx hs with rfl | hno
    · exact a3 _ hin2 ⟨a4, by simp only; omega⟩
    · exact hno ⟨a, by omega, by omega, by omega, by omega⟩
  · intro j hj
    rw [h2]
    by_cases hjk : j = k
    · subst hjk
      rw [getD_set_self (by rw [h.heads]; exact hj)]
      have e : setList free j (p :: free j) j = p :: free j := by simp [setList]
      rw [e]
      refine ⟨rfl, hp0, ?_⟩
      rw [get64_put64 hhead]
      exact (h.lists j hj).congr fun q hq => hout j q hj hq
    · rw [getD_set_ne (fun e => hjk e.symm)]
      have e : setList free k (p :: free k) j = free j := by simp [setList, hjk]
      rw [e]
      exact (h.lists j hj).congr fun q hq => hout j q hj hq
  · refine h.blocks.trans ?_
    rw [List.map_cons, List.cons_append, hl]
    exact List.perm_middle.symm.trans (List.Perm.append_left _ (freeBlocks_push free hk p).symm)
  · intro a ha
    apply put64_out
    rintro ⟨a1, a2⟩
    rcases ha with ha | ⟨x, hx, hne, hxa⟩
    · exact ha ⟨s.1, List.mem_map_of_mem hs, by omega, by omega⟩
    · have hpw := backed_apart (hE := hE) (by rw [h.regions]; exact hr) h.heaps
      rw [hl] at hne
      rcases pairwise_mem (fun _ _ => apart_symm) hpw hx hin with he | he
      · exact hne he
      · exact he ⟨a, hxa.1, hxa.2, a1, by simp only; omega⟩

theorem RegionsOk.tail {r : Region E.H} {rs : List (Region E.H)} (h : RegionsOk E (r :: rs)) : RegionsOk E rs :=
  ⟨(List.pairwise_cons.1 h.apart).2, fun x hx => h.base8 x (by simp [hx]), fun x hx => h.len8 x (by simp [hx]),
    fun x hx => h.big x (by simp [hx]), fun x hx => h.pos x (by simp [hx]), fun x hx => h.fits x (by simp [hx])⟩

/-- No region contains the address: nothing is done. -/
theorem freeIn_out {p : Nat} {lay : Layout} : ∀ {rs : List (Region E.H)}, (∀ r ∈ rs, ¬ (r.base + E.node ≤ p ∧ p < r.base + r.len)) →
    freeIn E p lay rs m = (rs, m)
  | [], _ => rfl
  | r :: rs, h => by
    rw [freeIn, if_neg (h r (by simp)), freeIn_out fun x hx => h x (by simp [hx])]

/-- A block goes back to the heap it came from. -/
theorem freeIn_ok {p : Nat} {lay : Layout} : ∀ {rl : List (Backed E)}, RegionsOk E (rl.map (·.1)) →
    (∀ x ∈ rl, hE.heap.Inv x.1.st (x.1.base + E.node) (x.1.base + x.1.len) x.2 m) → (p, lay) ∈ backedBlocks rl →
    ∃ rl' : List (Backed E), rl'.map (·.1) = (freeIn E p lay (rl.map (·.1)) m).1 ∧
      SameShape (rl.map (·.1)) (freeIn E p lay (rl.map (·.1)) m).1 ∧
      (∀ x ∈ rl', hE.heap.Inv x.1.st (x.1.base + E.node) (x.1.base + x.1.len) x.2 (freeIn E p lay (rl.map (·.1)) m).2) ∧
      (backedBlocks rl).Perm ((p, lay) :: backedBlocks rl') ∧
      (∀ a, ¬ InHeaps E (rl.map (·.1)) a ∨ (∃ x ∈ backedBlocks rl, x ≠ (p, lay) ∧ In x.1 x.2 a) ∨ (p + 16 ≤ a ∧ a < p + lay.size) →
        (freeIn E p lay (rl.map (·.1)) m).2 a = m a)
  | [], _, _, hp => by simp [backedBlocks] at hp
  | r :: rl, hr, hh, hp => by
    have hap := hr.apart
    rw [List.map_cons, List.pairwise_cons] at hap
    have hr2 : RegionsOk E (rl.map (·.1)) := RegionsOk.tail (r := r.1) hr
    obtain ⟨_, s, hs, hps, s1, s2, s3⟩ := backed_inside (fun x hx => hh x hx) hp
    simp only at s1 s2 s3
    have e7 : backedBlocks (r :: rl) = r.2 ++ backedBlocks rl := by simp [backedBlocks]
    rw [List.map_cons, freeIn]
    by_cases hc : r.1.base + E.node ≤ p ∧ p < r.1.base + r.1.len
    · rw [if_pos hc]
      have hrs : s = r := by
        rcases List.mem_cons.1 hs with rfl | hs
        · rfl
        · exact absurd ⟨p, by omega, by omega, by omega, by omega⟩ (hap.1 s.1 (List.mem_map_of_mem hs))
      subst hrs
      have ho : freeIn E p lay (rl.map (·.1)) (E.H.free s.1.st m p lay).2 = (rl.map (·.1), (E.H.free s.1.st m p lay).2) := by
        apply freeIn_out
        intro q hq hc'
        exact hap.1 q hq ⟨p, by omega, by omega, by omega, by omega⟩
      have hi := hE.heap.free (hh s (by simp)) hps
      have hf := fun a => hE.heap.freeFrame (a := a) (hh s (by simp)) hps
      simp only [ho]
      refine ⟨({ s.1 with st := (E.H.free s.1.st m p lay).1 }, s.2.erase (p, lay)) :: rl, by simp, by simp [SameShape], ?_, ?_, ?_⟩
      · intro x hx
        rcases List.mem_cons.1 hx with rfl | hx
        · exact hi
        · refine hE.heap.stable (hh x (by simp [hx])) fun a h1 h2 _ => hf a (.inl ?_)
          rintro ⟨h3, h4⟩
          exact hap.1 x.1 (List.mem_map_of_mem hx) ⟨a, by omega, by omega, by omega, by omega⟩
      · rw [e7]
        have e6 : backedBlocks (({ s.1 with st := (E.H.free s.1.st m p lay).1 }, s.2.erase (p, lay)) :: rl) = s.2.erase (p, lay) ++ backedBlocks rl := by
          simp [backedBlocks]
        rw [e6, ← List.cons_append]
        exact List.Perm.append_right _ (List.perm_cons_erase hps)
      · intro a ha
        apply hf
        rcases ha with ha | ⟨x, hx, hne, hin⟩ | ha
        · exact .inl fun hc => ha ⟨s.1, by simp, hc⟩
        · obtain ⟨s', hs', hxs⟩ := mem_backed.1 hx
          rcases List.mem_cons.1 hs' with rfl | hs'
          · exact .inr (.inl ⟨x, (List.mem_erase_of_ne hne).2 hxs, hin⟩)
          · left
            rintro ⟨h3, h4⟩
            obtain ⟨_, x1, _, x3⟩ := hE.heap.inside (hh s' (by simp [hs'])) x hxs
            unfold In at hin
            exact hap.1 s'.1 (List.mem_map_of_mem hs') ⟨a, by omega, by omega, by omega, by omega⟩
        · exact .inr (.inr ha)
    · rw [if_neg hc]
      have hsr : s ∈ rl := by
        rcases List.mem_cons.1 hs with rfl | hs
        · exact absurd ⟨s1, s2⟩ hc
        · exact hs
      obtain ⟨rl', e1, e2, e3, e4, e5⟩ := freeIn_ok hr2 (fun x hx => hh x (by simp [hx])) (mem_backed.2 ⟨s, hsr, hps⟩)
      simp only
      refine ⟨r :: rl', by simp [e1], ?_, ?_, ?_, ?_⟩
      · unfold SameShape at e2 ⊢
        rw [List.map_cons, List.map_cons, e2]
      · intro x hx
        rcases List.mem_cons.1 hx with rfl | hx
        · refine hE.heap.stable (hh x (by simp)) fun a h1 h2 _ => e5 a (.inl ?_)
          rintro ⟨s, hs, h3, h4⟩
          exact hap.1 s hs ⟨a, by omega, by omega, by omega, by omega⟩
        · exact e3 x hx
      · have e6 : backedBlocks (r :: rl') = r.2 ++ backedBlocks rl' := by simp [backedBlocks]
        rw [e6, e7]
        exact (List.Perm.append_left _ e4).trans List.perm_middle
      · intro a ha
        apply e5
        rcases ha with ha | ⟨x, hx, hne, hin⟩ | ha
        · exact .inl fun ⟨s, hs, hc⟩ => ha ⟨s, by simp at hs ⊢; exact .inr hs, hc⟩
        · obtain ⟨s, hs, hxs⟩ := mem_backed.1 hx
          rcases List.mem_cons.1 hs with rfl | hs
          · left
            rintro ⟨s', hs', h3, h4⟩
            obtain ⟨_, x1, _, x3⟩ := hE.heap.inside (hh s (by simp)) x hxs
            unfold In at hin
            exact hap.1 s' hs' ⟨a, by omega, by omega, by omega, by omega⟩
          · exact .inr (.inl ⟨x, mem_backed.2 ⟨s, hs, hxs⟩, hne, hin⟩)
        · exact .inr (.inr ha)

/-- The free lists after a block has been given back. -/
def freed (free : Nat → List Nat) (p : Nat) (lay : Layout) : Nat → List Nat :=
  match listIndex lay with
  | some k => setList free k (p :: free k)
  | none => free

/-- A block given back. -/
theorem dealloc_ok {p : Nat} {lay : Layout} (h : FsbOk hE f m ((p, lay) :: gs) rl free) (hr : RegionsOk E f.regions)
    (hx : f.dealloc E m p lay = (f', m')) :
    (∃ rl', FsbOk hE f' m' gs rl' (freed free p lay)) ∧ Alike f f' ∧ Frame rl m m' p (heapLayout lay) ∧
      (∀ a, p + 16 ≤ a → In p (heapLayout lay) a → m' a = m a) ∧
      ((listIndex lay).isSome → ∀ a, p + 8 ≤ a → m' a = m a) := by
  unfold Fsb.dealloc at hx
  simp only at hx
  cases hi : listIndex lay with
  | some k =>
    have hk := (listIndex_lt hi).1
    have hl : heapLayout lay = ⟨blockSize k, blockSize k⟩ := by unfold heapLayout; rw [hi]
    simp only [hi, Prod.mk.injEq] at hx
    obtain ⟨rfl, rfl⟩ := hx
    obtain ⟨h1, h2⟩ := push_ok (f' := { f with stats := { f.stats with freeCalls := f.stats.freeCalls + 1 }, heads := f.heads.set k p })
      h hr hk hl rfl rfl
    refine ⟨⟨rl, ?_⟩, ⟨rfl, rfl, rfl, rfl⟩, h2, fun a ha _ => put64_out (by omega), fun _ a ha => put64_out (by omega)⟩
    unfold freed; rw [hi]; exact h1
  | none =>
    have hl : heapLayout lay = lay := by unfold heapLayout; rw [hi]
    simp only [hi, Prod.mk.injEq] at hx
    obtain ⟨rfl, rfl⟩ := hx
    have hin : (p, lay) ∈ backedBlocks rl :=
      h.blocks.mem_iff.2 (List.mem_append_left _ (by rw [List.map_cons, hl]; simp))
    rw [← h.regions] at hr
    obtain ⟨rl', e1, e2, e3, e4, e5⟩ := freeIn_ok hr h.heaps hin
    rw [h.regions] at e1 e2 e3 e5
    have hperm : (backedBlocks rl').Perm (gs.map (fun x => (x.1, heapLayout x.2)) ++ freeBlocks free) := by
      have := e4.symm.trans h.blocks
      rw [List.map_cons, List.cons_append, hl] at this
      exact List.Perm.cons_inv this
    refine ⟨⟨rl', e1, e3, ?_, h.heads, ?_, fun x hx => h.valid x (by simp [hx])⟩, ⟨e2, rfl, rfl, rfl⟩, ?_, ?_, by simp⟩
    · unfold freed; rw [hi]
      intro k hk
      refine (h.lists k hk).congr fun q hq a a1 a2 => e5 a (.inr (.inl ?_))
      have hb := (blockSize_bounds hk).1
      refine ⟨(q, ⟨blockSize k, blockSize k⟩), h.blocks.mem_iff.2 (List.mem_append_right _ (mem_freeBlocks.2 ⟨k, hk, hq, rfl⟩)), ?_,
        a1, by simp only; omega⟩
      intro he
      rw [Prod.mk.injEq] at he
      have hap := h.apart (by rw [← h.regions]; exact hr)
      rw [List.map_cons, List.cons_append, List.pairwise_cons] at hap
      refine hap.1 (q, ⟨blockSize k, blockSize k⟩) (List.mem_append_right _ (mem_freeBlocks.2 ⟨k, hk, hq, rfl⟩)) ⟨q, ?_, ?_, Nat.le_refl _, ?_⟩
      · simp only; omega
      · simp only [hl]; rw [← he.2, ← he.1]; simp only; omega
      · simp only; omega
    · unfold freed; rw [hi]; exact hperm
    · intro a ha
      rw [hl] at ha
      rcases ha with ha | ha
      · exact e5 a (.inl (by rw [← h.regions]; exact ha))
      · exact e5 a (.inr (.inl ha))
    · intro a a1 a2
      rw [hl] at a2
      exact e5 a (.inr (.inr ⟨a1, a2.2⟩))

/-! ### Growing -/

theorem updateInfo_alike {H : Heap} {dbg : Bool} {f f' : Fsb H} (h : f.updateInfo dbg = .ok f') :
    f' = { f with numberOfPages := f'.numberOfPages } := by
  unfold Fsb.updateInfo at h
  simp only at h
  split at h
  · cases h
  · injection h with h; subst h; rfl

theorem count_alike {H : Heap} (f : Fsb H) (a n : Nat) : f.count a n = { f with stats := (f.count a n).stats } := by
  unfold Fsb.count
  split <;> rfl

/-- A region added at the front. -/
theorem expand_shape {dbg : Bool} {base len : Nat} (hx : f.expand E dbg m base len = (.ok f', m')) :
    E.node < len ∧ base % 8 = 0 ∧ f'.regions = ⟨base, len, (E.H.init (base + E.node) (len - E.node) m).1⟩ :: f.regions ∧
      f'.heads = f.heads ∧ f'.handle = f.handle ∧ f'.gran = f.gran ∧ f'.memType = f.memType ∧ f'.reserved = f.reserved ∧
      m' = (E.H.init (base + E.node) (len - E.node) m).2 := by
  unfold Fsb.expand at hx
  split at hx
  · cases dbg <;> cases hx
  · rename_i hc
    simp only [Prod.mk.injEq] at hx
    obtain ⟨hx, rfl⟩ := hx
    have e := updateInfo_alike hx
    rw [count_alike] at e
    rw [e]
    exact ⟨by omega, by omega, rfl, rfl, rfl, rfl, rfl, rfl, rfl⟩

/-- The new region is apart from the others: the invariant goes on, and memory outside the new region is as it was. -/
theorem expand_ok {dbg : Bool} {base len : Nat} (h : FsbOk hE f m gs rl free) (hr' : RegionsOk E f'.regions)
    (hx : f.expand E dbg m base len = (.ok f', m')) :
    (∃ rl', FsbOk hE f' m' gs rl' free) ∧ ∀ a, ¬ (base ≤ a ∧ a < base + len) → m' a = m a := by
  obtain ⟨h1, h2, h3, h4, _, _, _, _, h5⟩ := expand_shape hx
  have hf : ∀ a, ¬ (base ≤ a ∧ a < base + len) → m' a = m a := by
    intro a ha
    rw [h5]
    exact hE.heap.initFrame (by omega)
  rw [h3] at hr'
  have hap := List.pairwise_cons.1 hr'.apart
  have hr : RegionsOk E f.regions := hr'.tail
  have h' : FsbOk hE f m' gs rl free := by
    refine h.frame hr fun a ⟨r, hr2, a1, a2⟩ _ => hf a ?_
    rintro ⟨a3, a4⟩
    exact hap.1 r hr2 ⟨a, a3, a4, by omega, a2⟩
  have hb := hr'.big _ (List.mem_cons_self)
  have h8 := hr'.base8 _ (List.mem_cons_self)
  have hl8 := hr'.len8 _ (List.mem_cons_self)
  simp only at hb h8 hl8
  refine ⟨⟨(⟨base, len, (E.H.init (base + E.node) (len - E.node) m).1⟩, []) :: rl, ?_⟩, hf⟩
  refine ⟨by rw [List.map_cons, h.regions, h3], ?_, by rw [h4]; exact h'.lists, by rw [h4]; exact h.heads, ?_, h.valid⟩
  · intro x hx
    rcases List.mem_cons.1 hx with rfl | hx
    · simp only
      have h8' := hE.node8
      rw [h5, show base + len = base + E.node + (len - E.node) by omega]
      exact hE.heap.init (by omega) (by omega) (by omega)
    · exact h'.heaps x hx
  · simpa [backedBlocks] using h.blocks

end Verif.Alloc
