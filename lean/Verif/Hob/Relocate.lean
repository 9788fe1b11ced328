import Verif.Hob.Props
/-!
C43: relocation of a HOB list keeps what every entry shows, and makes the list independent of the memory the
HOBs came from.
-/
namespace Verif.Hob

/-! ### Specification -/

/-- The entry that refers to the new blocks (`blk.1` for the structure, `blk.2` for the data of a GUID HOB). -/
def Hob.movedTo (h : Hob) (blk : Nat × Nat) : Hob :=
  match h with
  | .handoff _ => .handoff blk.1
  | .alloc _ => .alloc blk.1
  | .module _ => .module blk.1
  | .capsule _ => .capsule blk.1
  | .resource _ => .resource blk.1
  | .guid _ _ n => .guid blk.1 blk.2 n
  | .fv _ => .fv blk.1
  | .fv2 _ => .fv2 blk.1
  | .fv3 _ => .fv3 blk.1
  | .cpu _ => .cpu blk.1
  | .resource2 _ => .resource2 blk.1
  | .misc t => .misc t

/-- The blocks for the entries, in order, as the regions of the moved entries. -/
def newRegions : List (Nat × Nat) → List Hob → List (Nat × Nat)
  | blk :: bs, h :: l => (h.movedTo blk).regions ++ newRegions bs l
  | _, _ => []

/-- The allocator returned enough blocks; they overlap neither each other nor anything the list refers to. -/
structure FreshBlocks (blocks : List (Nat × Nat)) (l : List Hob) : Prop where
  enough : blocks.length = l.length
  apart : (newRegions blocks l).Pairwise Apart
  fresh : ∀ r ∈ newRegions blocks l, ∀ h ∈ l, ∀ s ∈ h.regions, Apart r s

/-- The two memories have the same bytes in a region. -/
def SameOn (m m' : Mem) (r : Nat × Nat) : Prop := ∀ i, i < r.2 → m' (r.1 + i) = m (r.1 + i)

/-! ### Proofs -/

theorem rd_length (m : Mem) : ∀ (n a : Nat), (rd m a n).length = n
  | 0, _ => rfl
  | n + 1, a => by simp [rd, rd_length m n]

theorem rd_getElem? (m : Mem) : ∀ (n a i : Nat), i < n → (rd m a n)[i]? = some (m (a + i))
  | 0, _, _, h => by omega
  | n + 1, a, 0, _ => by simp [rd]
  | n + 1, a, i + 1, h => by
    simp only [rd, List.getElem?_cons_succ]
    rw [rd_getElem? m n (a + 1) i (by omega)]
    congr 2; omega

theorem rd_congr {m m' : Mem} : ∀ {n a b : Nat}, (∀ i, i < n → m' (b + i) = m (a + i)) → rd m' b n = rd m a n
  | 0, _, _, _ => rfl
  | n + 1, a, b, h => by
    have h0 := h 0 (by omega)
    simp only [rd, Nat.add_zero] at h0 ⊢
    rw [h0, rd_congr (n := n) (fun i hi => ?_)]
    have := h (i + 1) (by omega)
    rw [Nat.add_assoc, Nat.add_comm 1 i, Nat.add_assoc, Nat.add_comm 1 i]
    exact this

theorem copyTo_in {m : Mem} {a n b i : Nat} (h : i < n) : copyTo m a n b (b + i) = m (a + i) := by
  have e : b + i - b = i := by omega
  simp only [copyTo, wr, Nat.le_add_right, if_true, e, List.getD_eq_getElem?_getD, rd_getElem? m n a i h,
    Option.getD_some]

theorem copyTo_out {m : Mem} {a n b x : Nat} (h : ∀ i, i < n → x ≠ b + i) : copyTo m a n b x = m x := by
  simp only [copyTo, wr]
  split
  · rename_i hb
    have : ¬ x - b < n := fun hlt => h _ hlt (by omega)
    have e : (rd m a n)[x - b]? = none := by
      rw [List.getElem?_eq_none_iff, rd_length]; omega
    rw [List.getD_eq_getElem?_getD, e, Option.getD_none]
  · rfl

/-- A copy of a structure reads as the structure. -/
theorem copied {m m' : Mem} {a b n : Nat} (h : ∀ i, i < n → m' (b + i) = m (a + i)) :
    ∀ k j, k + j ≤ n → rd m' (b + k) j = rd m (a + k) j := by
  intro k j hk
  apply rd_congr
  intro i hi
  have := h (k + i) (by omega)
  rw [Nat.add_assoc, Nat.add_assoc]; exact this

theorem copied_u8 {m m' : Mem} {a b n : Nat} (h : ∀ i, i < n → m' (b + i) = m (a + i)) (k : Nat) (hk : k < n) :
    u8 m' (b + k) = u8 m (a + k) := h k hk

section
variable {m m' : Mem} {a b : Nat}

theorem copied_header {n : Nat} (hn : 8 ≤ n) (h : ∀ i, i < n → m' (b + i) = m (a + i)) :
    readHeader m' b = readHeader m a := by
  have c := copied h
  have c0 := c 0
  simp only [Nat.add_zero] at c0
  simp only [readHeader, u16, u32, c0 2 (by omega), c 2 2 (by omega), c 4 4 (by omega)]

theorem copied_desc (h : ∀ i, i < 48 → m' (b + i) = m (a + i)) : readDesc m' (b + 8) = readDesc m (a + 8) := by
  have c := copied h
  simp only [readDesc, guid, u32, u64, Nat.add_assoc, Nat.reduceAdd, c 8 16 (by omega), c 24 8 (by omega),
    c 32 8 (by omega), c 40 4 (by omega), c 44 4 (by omega)]

theorem copied_resource (h : ∀ i, i < 48 → m' (b + i) = m (a + i)) : readResource m' b = readResource m a := by
  have c := copied h
  simp only [readResource, copied_header (by omega) h, guid, u32, u64, c 8 16 (by omega), c 24 4 (by omega),
    c 28 4 (by omega), c 32 8 (by omega), c 40 8 (by omega)]
end

/-- Where the bytes an entry refers to are the same, the entry shows the same. -/
theorem view_moved {m m' : Mem} {h : Hob} {blk : Nat × Nat}
    (hc : ∀ (k : Nat) (r s : Nat × Nat), h.regions[k]? = some r → (h.movedTo blk).regions[k]? = some s →
      ∀ i, i < r.2 → m' (s.1 + i) = m (r.1 + i)) :
    view m' (h.movedTo blk) = view m h := by
  have c0 := hc 0
  cases h with
  | misc t => rfl
  | guid a d n =>
    have c1 := hc 1 (d, n) (blk.2, n) rfl rfl
    have c := copied (c0 (a, 24) (blk.1, 24) rfl rfl)
    simp only [Hob.movedTo, view, readGuid, guid, copied_header (by omega) (c0 (a, 24) (blk.1, 24) rfl rfl),
      c 8 16 (by omega), rd_congr c1]
  | handoff a =>
    have q := c0 (a, 56) (blk.1, 56) rfl rfl
    have c := copied q
    simp only [Hob.movedTo, view, readHandoff, copied_header (by omega) q, u32, u64, c 8 4 (by omega),
      c 12 4 (by omega), c 16 8 (by omega), c 24 8 (by omega), c 32 8 (by omega), c 40 8 (by omega),
      c 48 8 (by omega)]
  | alloc a =>
    have q := c0 (a, 48) (blk.1, 48) rfl rfl
    simp only [Hob.movedTo, view, readAlloc, copied_header (by omega) q, copied_desc q]
  | module a =>
    have q := c0 (a, 72) (blk.1, 72) rfl rfl
    have c := copied q
    simp only [Hob.movedTo, view, readModule, copied_header (by omega) q,
      copied_desc (fun i hi => q i (by dsimp only; omega)), guid, u64, c 48 16 (by omega), c 64 8 (by omega)]
  | capsule a =>
    have q := c0 (a, 24) (blk.1, 24) rfl rfl
    have c := copied q
    simp only [Hob.movedTo, view, readFv, copied_header (by omega) q, u64, c 8 8 (by omega), c 16 8 (by omega)]
  | fv a =>
    have q := c0 (a, 24) (blk.1, 24) rfl rfl
    have c := copied q
    simp only [Hob.movedTo, view, readFv, copied_header (by omega) q, u64, c 8 8 (by omega), c 16 8 (by omega)]
  | resource a =>
    have q := c0 (a, 48) (blk.1, 48) rfl rfl
    simp only [Hob.movedTo, view, copied_resource q]
  | fv2 a =>
    have q := c0 (a, 56) (blk.1, 56) rfl rfl
    have c := copied q
    simp only [Hob.movedTo, view, readFv2, copied_header (by omega) q, u64, guid, c 8 8 (by omega),
      c 16 8 (by omega), c 24 16 (by omega), c 40 16 (by omega)]
  | fv3 a =>
    have q := c0 (a, 64) (blk.1, 64) rfl rfl
    have c := copied q
    simp only [Hob.movedTo, view, readFv3, copied_header (by omega) q, u64, u32, guid, c 8 8 (by omega),
      c 16 8 (by omega), c 24 4 (by omega), copied_u8 q 28 (by dsimp only; omega), c 32 16 (by omega),
      c 48 16 (by omega)]
  | cpu a =>
    have q := c0 (a, 16) (blk.1, 16) rfl rfl
    have c := copied q
    simp only [Hob.movedTo, view, readCpu, copied_header (by omega) q, copied_u8 q 8 (by dsimp only; omega),
      copied_u8 q 9 (by dsimp only; omega), c 10 6 (by omega)]
  | resource2 a =>
    have q := c0 (a, 56) (blk.1, 56) rfl rfl
    have c := copied q
    simp only [Hob.movedTo, view, readResource2, copied_resource (fun i hi => q i (by dsimp only; omega)), u64,
      c 48 8 (by omega)]

/-- Moving an entry to where it is. -/
def Hob.here : Hob → Nat × Nat
  | .handoff a | .alloc a | .module a | .capsule a | .resource a | .fv a | .fv2 a | .fv3 a | .cpu a
  | .resource2 a => (a, 0)
  | .guid a d _ => (a, d)
  | .misc _ => (0, 0)

theorem movedTo_here (h : Hob) : h.movedTo h.here = h := by cases h <;> rfl

/-- An entry shows the same in memories that agree on its regions. -/
theorem view_same {m m' : Mem} {h : Hob} (hs : ∀ r ∈ h.regions, SameOn m m' r) : view m' h = view m h := by
  have := view_moved (m := m) (m' := m') (h := h) (blk := h.here) (by
    intro k r s hr hs'
    rw [movedTo_here, hr, Option.some.injEq] at hs'
    subst hs'
    exact hs r (List.mem_of_getElem? hr))
  rwa [movedTo_here] at this

theorem relocateOne_out {m : Mem} {b d x : Nat} {h : Hob}
    (hx : ∀ r ∈ (h.movedTo (b, d)).regions, ∀ i, i < r.2 → x ≠ r.1 + i) : (relocateOne m b d h).1 x = m x := by
  cases h <;> simp only [Hob.movedTo, Hob.regions, List.mem_cons, List.not_mem_nil, or_false, forall_eq,
    forall_eq_or_imp] at hx <;>
    simp only [relocateOne] <;>
    first
    | rfl
    | exact (copyTo_out hx.2).trans (copyTo_out hx.1)
    | exact copyTo_out hx

theorem relocateOne_hob (m : Mem) (b d : Nat) (h : Hob) : (relocateOne m b d h).2 = h.movedTo (b, d) := by
  cases h <;> rfl

theorem relocateOne_view {m : Mem} {b d : Nat} {h : Hob}
    (hp : ((h.movedTo (b, d)).regions).Pairwise Apart)
    (hf : ∀ r ∈ (h.movedTo (b, d)).regions, ∀ s ∈ h.regions, Apart r s) :
    view (relocateOne m b d h).1 (h.movedTo (b, d)) = view m h := by
  apply view_moved
  intro k r s hr hs i hi
  cases h with
  | misc t => simp [Hob.regions] at hr
  | guid a x n =>
    simp only [Hob.movedTo, Hob.regions, List.mem_cons, List.not_mem_nil, or_false, forall_eq,
      forall_eq_or_imp, List.pairwise_cons] at hp hf
    simp only [relocateOne]
    match k with
    | 0 =>
      simp only [Hob.movedTo, Hob.regions, List.getElem?_cons_zero, Option.some.injEq] at hr hs
      subst hr; subst hs
      exact (copyTo_out (fun j hj => hp.1 i j hi hj)).trans (copyTo_in hi)
    | 1 =>
      simp only [Hob.movedTo, Hob.regions, List.getElem?_cons_zero, List.getElem?_cons_succ,
        Option.some.injEq] at hr hs
      subst hr; subst hs
      exact (copyTo_in hi).trans (copyTo_out (fun j hj e => hf.1.2 j i hj hi e.symm))
    | k + 2 => simp [Hob.regions] at hr
  | _ =>
    match k with
    | 0 =>
      simp only [Hob.movedTo, Hob.regions, List.getElem?_cons_zero, Option.some.injEq] at hr hs
      subst hr; subst hs
      simp only [relocateOne]
      exact copyTo_in hi
    | k + 1 => simp [Hob.regions] at hr

theorem relocate_out {x : Nat} : ∀ {blocks : List (Nat × Nat)} {l : List Hob} {m : Mem},
    (∀ r ∈ newRegions blocks l, ∀ i, i < r.2 → x ≠ r.1 + i) → (relocate m blocks l).1 x = m x
  | [], l, m, _ => by simp [relocate]
  | _ :: _, [], m, _ => by simp [relocate]
  | (b, d) :: bs, h :: l, m, hx => by
    simp only [newRegions, List.mem_append] at hx
    simp only [relocate]
    rw [relocate_out (fun r hr => hx r (Or.inr hr)), relocateOne_out (fun r hr => hx r (Or.inl hr))]

theorem relocate_hobs : ∀ {blocks : List (Nat × Nat)} {l : List Hob} {m : Mem}, blocks.length = l.length →
    (relocate m blocks l).2 = (blocks.zip l).map (fun p => p.2.movedTo p.1)
  | [], [], m, _ => by simp [relocate]
  | [], _ :: _, m, h => by simp at h
  | _ :: _, [], m, h => by simp at h
  | (b, d) :: bs, h :: l, m, hl => by
    simp only [relocate, List.zip_cons_cons, List.map_cons, relocateOne_hob]
    rw [relocate_hobs (by simpa using hl)]

theorem relocate_views : ∀ {blocks : List (Nat × Nat)} {l : List Hob} {m : Mem}, FreshBlocks blocks l →
    (relocate m blocks l).2.map (view (relocate m blocks l).1) = l.map (view m)
  | [], [], m, _ => by simp [relocate]
  | [], _ :: _, m, h => by have := h.enough; simp at this
  | _ :: _, [], m, h => by have := h.enough; simp at this
  | (b, d) :: bs, h :: l, m, hf => by
    have hp := hf.apart
    have hfr := hf.fresh
    simp only [newRegions, List.pairwise_append, List.mem_append] at hp hfr
    have ih : FreshBlocks bs l := ⟨by have := hf.enough; simpa using this, hp.2.1,
      fun r hr g hg s hs => hfr r (Or.inr hr) g (List.mem_cons_of_mem _ hg) s hs⟩
    simp only [relocate, List.map_cons]
    have h1 : view (relocate (relocateOne m b d h).1 bs l).1 (relocateOne m b d h).2 = view m h := by
      rw [relocateOne_hob, ← relocateOne_view (m := m) hp.1
        (fun r hr s hs => hfr r (Or.inl hr) h List.mem_cons_self s hs)]
      apply view_same
      intro r hr i hi
      apply relocate_out
      intro s hs j hj
      exact hp.2.2 r hr s hs i j hi hj
    have h2 : l.map (view (relocateOne m b d h).1) = l.map (view m) := by
      apply List.map_congr_left
      intro g hg
      apply view_same
      intro r hr i hi
      apply relocateOne_out
      intro s hs j hj e
      exact hfr s (Or.inl hs) g (List.mem_cons_of_mem _ hg) r hr j i hj hi e.symm
    rw [h1, relocate_views ih, h2]

theorem zip_regions {blocks : List (Nat × Nat)} {l : List Hob} :
    ∀ h ∈ (blocks.zip l).map (fun p => p.2.movedTo p.1), ∀ r ∈ h.regions, r ∈ newRegions blocks l := by
  induction blocks generalizing l with
  | nil => intro h hh; simp at hh
  | cons blk bs ih =>
    cases l with
    | nil => intro h hh; simp at hh
    | cons g l =>
      intro h hh r hr
      simp only [List.zip_cons_cons, List.map_cons, List.mem_cons] at hh
      simp only [newRegions, List.mem_append]
      rcases hh with rfl | hh
      · exact Or.inl hr
      · exact Or.inr (ih h hh r hr)

/-- **C43.** After `relocate_hobs` every entry shows what it showed before, the entries refer to the new blocks
only, and nothing else in memory has changed. -/
theorem relocate_spec {blocks : List (Nat × Nat)} {l : List Hob} (m : Mem) (h : FreshBlocks blocks l) :
    (relocate m blocks l).2.map (view (relocate m blocks l).1) = l.map (view m) ∧
    (∀ g ∈ (relocate m blocks l).2, ∀ r ∈ g.regions, r ∈ newRegions blocks l) ∧
    ∀ x, (∀ r ∈ newRegions blocks l, ∀ i, i < r.2 → x ≠ r.1 + i) → (relocate m blocks l).1 x = m x := by
  refine ⟨relocate_views h, ?_, fun x hx => relocate_out hx⟩
  rw [relocate_hobs h.enough]
  exact zip_regions

/-- **C43.** A relocated list no longer depends on the memory the HOBs came from: whatever is later written
outside the new blocks, every entry still shows the HOB as it was discovered. -/
theorem relocated_independent {blocks : List (Nat × Nat)} {l : List Hob} {m m' : Mem} (h : FreshBlocks blocks l)
    (hk : ∀ r ∈ newRegions blocks l, SameOn (relocate m blocks l).1 m' r) :
    (relocate m blocks l).2.map (view m') = l.map (view m) := by
  obtain ⟨h1, h2, _⟩ := relocate_spec m h
  rw [← h1]
  apply List.map_congr_left
  intro g hg
  exact view_same fun r hr => hk r (h2 g hg r hr)

end Verif.Hob
