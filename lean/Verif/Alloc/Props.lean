import Verif.Alloc.WorldInv
/-!
C27: blocks given out by the heap are aligned, inside memory the GCD has allocated to that heap, apart from each other and from
every other allocation, and keep their contents, in every state any history of calls can produce.
-/
namespace Verif.Alloc
open Verif.Gcd
open Verif.Hob (Mem)

variable {E : Env} {w w' : World E.H} {h h' : History}

theorem live_sub {g : Gcd} {b n im c k : Nat} (hl : Live g b n im) (h1 : b ≤ c) (h2 : c + k ≤ b + n) : Live g c k im :=
  fun a a1 a2 => hl a (by omega) (by omega)

/-- C27: a block given out is aligned, not at address 0, in the address space, and in memory that the GCD has allocated to the
allocator that gave it out. -/
theorem block_placed (hE : EnvOk E) (hp : Possible E (w, h)) {x : Grant} (hx : x ∈ h.grants) :
    x.ptr % x.layout.align = 0 ∧ x.ptr ≠ 0 ∧ x.ptr + x.layout.size ≤ w.gcd.max ∧
      ∃ f, w.fsbs[x.owner]? = some f ∧ Live w.gcd x.ptr x.layout.size f.handle := by
  obtain ⟨F, ok⟩ := possible_world (hE := hE) hp
  obtain ⟨f, rl, hf, hok, hm⟩ := ok.grant hx
  obtain ⟨h0, r, hr, h1, h2, h3, _⟩ := hok.grant_ok hm
  obtain ⟨hl1, hl2⟩ := ok.live _ (List.mem_append_left _ (mem_regions hf hr))
  have hlt := live_lt ok.reach hl1 hl2
  have hpos := (ok.regions _ f hf r hr).pos
  simp only at h0 h1 h2 h3 hl1 hl2 hlt
  exact ⟨h0, by omega, by omega, f, hf, live_sub hl2 (by omega) (by omega)⟩

theorem pairwise_by_owner {Q : Grant → Grant → Prop} : ∀ {l : List Grant},
    (∀ i, (l.filter (fun x => x.owner = i)).Pairwise Q) → (∀ x ∈ l, ∀ y ∈ l, x.owner ≠ y.owner → Q x y) → l.Pairwise Q
  | [], _, _ => List.Pairwise.nil
  | x :: l, h1, h2 => by
    refine List.pairwise_cons.2 ⟨fun y hy => ?_, pairwise_by_owner (fun i => ?_) fun a ha b hb => h2 a (by simp [ha]) b (by simp [hb])⟩
    · by_cases ho : x.owner = y.owner
      · have := h1 x.owner
        rw [List.filter_cons_of_pos (by simp), List.pairwise_cons] at this
        exact this.1 y (List.mem_filter.2 ⟨hy, by simp [ho]⟩)
      · exact h2 x (by simp) y (by simp [hy]) ho
    · exact (h1 i).sublist ((List.sublist_cons_self x l).filter _)

/-- C27: no two blocks given out have a byte in common, whichever allocators gave them out. -/
theorem blocks_apart (hE : EnvOk E) (hp : Possible E (w, h)) :
    h.grants.Pairwise fun x y => ¬ Overlap x.ptr x.layout.size y.ptr y.layout.size := by
  obtain ⟨F, ok⟩ := possible_world (hE := hE) hp
  apply pairwise_by_owner
  · intro i
    by_cases hi : i < w.fsbs.length
    · obtain ⟨rl, hok⟩ := ok.fsb i _ (List.getElem?_eq_getElem hi)
      have := hok.grants_apart (ok.regionsOk (List.getElem?_eq_getElem hi))
      unfold grantsOf at this
      rw [List.map_map, List.pairwise_map] at this
      refine this.imp fun {x y} hxy => ?_
      rintro ⟨a, a1, a2, a3, a4⟩
      have h1 := heapLayout_size x.layout
      have h2 := heapLayout_size y.layout
      exact hxy ⟨a, a1, by simp only [Function.comp]; omega, a3, by simp only [Function.comp]; omega⟩
    · have : h.grants.filter (fun x => x.owner = i) = [] := by
        rw [List.filter_eq_nil_iff]
        intro x hx
        have : x.owner < w.fsbs.length := ok.owners x hx
        simp only [decide_eq_true_eq]; omega
      rw [this]; exact List.Pairwise.nil
  · intro x hx y hy ho
    rintro ⟨a, a1, a2, a3, a4⟩
    obtain ⟨f, _, hf, _, _⟩ := ok.grant hx
    obtain ⟨g, _, hg, _, _⟩ := ok.grant hy
    exact ok.heaps_apart ho hf hg (ok.grant_in hx hf (in_heapLayout ⟨a1, a2⟩)) (ok.grant_in hy hg (in_heapLayout ⟨a3, a4⟩))

/-- C27: no block given out has a byte in common with a range the GCD has allocated for another use (page allocations among them),
and those have no byte in common with each other. -/
theorem block_apart_from_pages (hE : EnvOk E) (hp : Possible E (w, h)) :
    (∀ x ∈ h.grants, ∀ s ∈ h.spans, ¬ Overlap x.ptr x.layout.size s.base s.len) ∧
      (h.spans.Pairwise fun s t => ¬ Overlap s.base s.len t.base t.len) ∧
      ∀ s ∈ h.spans, Live w.gcd s.base s.len s.handle := by
  obtain ⟨F, ok⟩ := possible_world (hE := hE) hp
  obtain ⟨_, hc2, hc3⟩ := List.pairwise_append.1 ok.claims
  refine ⟨?_, hc2, fun s hs => (ok.live s (List.mem_append_right _ hs)).2⟩
  intro x hx s hs
  rintro ⟨a, a1, a2, a3, a4⟩
  obtain ⟨f, _, hf, _, _⟩ := ok.grant hx
  obtain ⟨r, hr, r1, r2⟩ := ok.grant_in hx hf (in_heapLayout ⟨a1, a2⟩)
  exact hc3 _ (mem_regions hf hr) s hs ⟨a, by simp only; omega, r2, a3, a4⟩

/-- C27: the allocators leave the contents of what they have given out alone, and all memory that is not theirs: a step changes a
byte of a block that is given out before and after, of a range allocated before and after, or of memory that no allocator
manages, only if it is somebody writing to memory. -/
theorem contents_kept (hE : EnvOk E) (hp : Possible E (w, h)) (hs : Step E (w, h) (w', h')) {a : Nat}
    (ha : (∃ x ∈ h.grants, x ∈ h'.grants ∧ In x.ptr x.layout a) ∨ (∃ s ∈ h'.spans, s.base ≤ a ∧ a < s.base + s.len) ∨
      (∀ s ∈ w'.regions, ¬ (s.base ≤ a ∧ a < s.base + s.len))) :
    w'.mem a = w.mem a ∨ (w'.gcd = w.gcd ∧ w'.fsbs = w.fsbs ∧ h' = h) := by
  obtain ⟨F, ok⟩ := possible_world (hE := hE) hp
  obtain ⟨F', ok', hk, _⟩ := step_world ok hs
  rcases hk with hk | hk
  · refine .inl (hk a ?_)
    rcases ha with ha | ⟨s, hs, a1, a2⟩ | ha
    · exact .inr ha
    · refine .inl fun t ht hc => ?_
      exact (List.pairwise_append.1 ok'.claims).2.2 t ht s hs ⟨a, hc.1, hc.2, a1, a2⟩
    · exact .inl ha
  · exact .inr hk

theorem Layout.Valid.pos {l : Layout} (h : l.Valid) : 0 < l.align := by
  obtain ⟨⟨k, hk⟩, _⟩ := h
  rw [hk]; exact Nat.two_pow_pos k

theorem padded_le {l : Layout} (h : l.Valid) : l.size ≤ l.padded ∧ l.padded < l.size + l.align := by
  have h0 := h.pos
  unfold Layout.padded
  have h1 := Nat.div_add_mod (l.size + l.align - 1) l.align
  have h2 := Nat.mod_lt (l.size + l.align - 1) h0
  rw [Nat.mul_comm] at h1
  omega

/-- C27: when there is no room nothing changes (but the count of calls), and the caller learns how much memory would be enough. -/
theorem no_room_changes_nothing {f f' : Fsb E.H} {m m' : Mem} {lay : Layout} (hv : lay.Valid) {n : Nat}
    (hx : f.alloc E m lay = (.outOfMemory n, f', m')) :
    m' = m ∧ f'.heads = f.heads ∧ f'.regions = f.regions ∧ f'.numberOfPages = f.numberOfPages ∧ lay.size + E.node < n := by
  obtain ⟨rfl, rfl, rfl, _⟩ := alloc_none hx
  refine ⟨rfl, rfl, rfl, rfl, ?_⟩
  have h1 := heapLayout_size lay
  have h2 := padded_le (heapLayout_valid hv)
  unfold required
  omega

/-- C27: a block given back is the next one given out for its size class, and neither the GCD nor the heaps behind are asked. -/
theorem freed_block_reused (hE : EnvOk E) (hp : Possible E (w, h)) {x : Grant} (hx : x ∈ h.grants) {f : Fsb E.H}
    (hf : w.fsbs[x.owner]? = some f) {lay : Layout} {k : Nat} (h1 : listIndex x.layout = some k) (h2 : listIndex lay = some k) :
    ∃ f' m', (f.dealloc E w.mem x.ptr x.layout).1.alloc E (f.dealloc E w.mem x.ptr x.layout).2 lay = (.ok x.ptr, f', m') ∧
      f'.regions = f.regions := by
  obtain ⟨_, h0, _⟩ := block_placed hE hp hx
  obtain ⟨F, ok⟩ := possible_world (hE := hE) hp
  obtain ⟨rl, hok⟩ := ok.fsb _ f hf
  have hk := (listIndex_lt h1).1
  have hd : (f.heads.set k x.ptr).getD k 0 = x.ptr := getD_set_self (by rw [hok.heads]; exact hk)
  unfold Fsb.dealloc Fsb.alloc
  simp only [h1, h2, hd]
  rw [if_pos h0]
  exact ⟨_, _, rfl, rfl⟩

end Verif.Alloc
