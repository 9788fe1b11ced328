import Verif.Alloc.FsbOps
/-!
The invariant of the system: every allocator is in order, and nothing that has been given out overlaps anything else.
-/
namespace Verif.Alloc
open Verif.Gcd
open Verif.Hob (Mem)

variable {E : Env}

/-- What allocator `i` has given out. -/
def grantsOf (l : List Grant) (i : Nat) : List (Nat × Layout) := (l.filter (fun x => x.owner = i)).map fun x => (x.ptr, x.layout)

def regionsOf {H : Heap} (f : Fsb H) : List Span := f.regions.map fun r => ⟨f.handle, r.base, r.len⟩

/-- Ranges apart. -/
def SpansApart (s t : Span) : Prop := ¬ Overlap s.base s.len t.base t.len

theorem spansApart_symm {s t : Span} (h : SpansApart s t) : SpansApart t s := fun h' => h (overlap_symm h')

/-- What a region must look like. -/
structure RegionOk (E : Env) (r : Region E.H) : Prop where
  base8 : r.base % 8 = 0
  len8 : r.len % 8 = 0
  big : E.node + 32 ≤ r.len
  pos : 0 < r.base

structure WorldOk (hE : EnvOk E) (w : World E.H) (h : History) (F : Nat → Nat → List Nat) : Prop where
  reach : Reachable E.gcdNode w.gcd
  fsb : ∀ (i : Nat) f, w.fsbs[i]? = some f → ∃ rl, FsbOk hE f w.mem (grantsOf h.grants i) rl (F i)
  claims : (w.regions ++ h.spans).Pairwise SpansApart
  live : ∀ s ∈ w.regions ++ h.spans, 0 < s.len ∧ Live w.gcd s.base s.len s.handle
  regions : ∀ (i : Nat) f, w.fsbs[i]? = some f → ∀ r ∈ f.regions, RegionOk E r
  owners : ∀ x ∈ h.grants, x.owner < w.fsbs.length

variable {hE : EnvOk E} {w w' : World E.H} {h h' : History} {F : Nat → Nat → List Nat}

theorem regions_eq {H : Heap} (w : World H) : w.regions = w.fsbs.flatMap regionsOf := rfl

theorem mem_regions {i : Nat} {f : Fsb E.H} (hf : w.fsbs[i]? = some f) {r : Region E.H} (hr : r ∈ f.regions) :
    (⟨f.handle, r.base, r.len⟩ : Span) ∈ w.regions := by
  rw [regions_eq, List.mem_flatMap]
  exact ⟨f, List.mem_of_getElem? hf, List.mem_map.2 ⟨r, hr, rfl⟩⟩

theorem mem_grantsOf {l : List Grant} {i : Nat} {x : Nat × Layout} : x ∈ grantsOf l i ↔ (⟨i, x.1, x.2⟩ : Grant) ∈ l := by
  unfold grantsOf
  simp only [List.mem_map, List.mem_filter, decide_eq_true_eq]
  constructor
  · rintro ⟨g, ⟨h1, h2⟩, rfl⟩
    subst h2; exact h1
  · intro h1; exact ⟨_, ⟨h1, rfl⟩, rfl⟩

theorem live_lt (hr : Reachable E.gcdNode w.gcd) {b n im : Nat} (hn : 0 < n) (hl : Live w.gcd b n im) : b + n ≤ w.gcd.max := by
  obtain ⟨c, hc, _⟩ := hl (b + n - 1) (by omega) (by omega)
  have hi := (reachable_inv hr).inv
  rcases hi.map with ⟨_, hb⟩ | ⟨_, hg, _⟩
  · rw [hb] at hc; cases hc
  · have := (cellAt_bounds hg.tiles hc).2; omega

/-- The regions of one allocator. -/
theorem regionsOk_of (hreach : Reachable E.gcdNode w.gcd) (hclaims : w.regions.Pairwise SpansApart)
    (hlive : ∀ s ∈ w.regions, 0 < s.len ∧ Live w.gcd s.base s.len s.handle) {i : Nat} {f : Fsb E.H} (hf : w.fsbs[i]? = some f)
    (hreg : ∀ r ∈ f.regions, RegionOk E r) : RegionsOk E f.regions := by
  have hap := hclaims
  rw [regions_eq, List.pairwise_flatMap] at hap
  have h1 := hap.1 f (List.mem_of_getElem? hf)
  unfold regionsOf at h1
  rw [List.pairwise_map] at h1
  refine ⟨h1, fun r hr => (hreg r hr).base8, fun r hr => (hreg r hr).len8,
    fun r hr => (hreg r hr).big, fun r hr => (hreg r hr).pos, fun r hr => ?_⟩
  obtain ⟨hp, hl⟩ := hlive _ (mem_regions hf hr)
  have h2 := live_lt hreach hp hl
  have h3 := (reachable_inv hreach).inv.ltW
  simp only at h2
  omega

theorem WorldOk.regionsOk (ok : WorldOk hE w h F) {i : Nat} {f : Fsb E.H} (hf : w.fsbs[i]? = some f) : RegionsOk E f.regions :=
  regionsOk_of ok.reach (List.pairwise_append.1 ok.claims).1 (fun s hs => ok.live s (List.mem_append_left _ hs)) hf (ok.regions i f hf)

/-- The regions of two allocators. -/
theorem WorldOk.apart (ok : WorldOk hE w h F) {i j : Nat} {f g : Fsb E.H} (hij : i ≠ j) (hf : w.fsbs[i]? = some f) (hg : w.fsbs[j]? = some g)
    {r s : Region E.H} (hr : r ∈ f.regions) (hs : s ∈ g.regions) : ¬ Overlap r.base r.len s.base s.len := by
  have hap := (List.pairwise_append.1 ok.claims).1
  rw [regions_eq, List.pairwise_flatMap] at hap
  have hp := List.pairwise_iff_getElem.1 hap.2
  obtain ⟨hi, ei⟩ := List.getElem?_eq_some_iff.1 hf
  obtain ⟨hj, ej⟩ := List.getElem?_eq_some_iff.1 hg
  rcases Nat.lt_or_ge i j with hlt | hge
  · have := hp i j hi hj hlt ⟨f.handle, r.base, r.len⟩ (by rw [ei]; exact List.mem_map.2 ⟨r, hr, rfl⟩)
      ⟨g.handle, s.base, s.len⟩ (by rw [ej]; exact List.mem_map.2 ⟨s, hs, rfl⟩)
    exact this
  · have := hp j i hj hi (by omega) ⟨g.handle, s.base, s.len⟩ (by rw [ej]; exact List.mem_map.2 ⟨s, hs, rfl⟩)
      ⟨f.handle, r.base, r.len⟩ (by rw [ei]; exact List.mem_map.2 ⟨r, hr, rfl⟩)
    exact spansApart_symm this

/-- Two allocators share no heap memory. -/
theorem WorldOk.heaps_apart (ok : WorldOk hE w h F) {i j : Nat} {f g : Fsb E.H} (hij : i ≠ j) (hf : w.fsbs[i]? = some f) (hg : w.fsbs[j]? = some g)
    {a : Nat} (h1 : InHeaps E f.regions a) (h2 : InHeaps E g.regions a) : False := by
  obtain ⟨r, hr, r1, r2⟩ := h1
  obtain ⟨s, hs, s1, s2⟩ := h2
  exact ok.apart hij hf hg hr hs ⟨a, by omega, by omega, by omega, by omega⟩

/-- A block given out, with the allocator that gave it. -/
theorem WorldOk.grant (ok : WorldOk hE w h F) {x : Grant} (hx : x ∈ h.grants) :
    ∃ f rl, w.fsbs[x.owner]? = some f ∧ FsbOk hE f w.mem (grantsOf h.grants x.owner) rl (F x.owner) ∧ (x.ptr, x.layout) ∈ grantsOf h.grants x.owner := by
  have ho := ok.owners x hx
  obtain ⟨rl, hf⟩ := ok.fsb x.owner _ (List.getElem?_eq_getElem ho)
  exact ⟨_, rl, List.getElem?_eq_getElem ho, hf, mem_grantsOf.2 hx⟩

theorem WorldOk.grant_in (ok : WorldOk hE w h F) {x : Grant} (hx : x ∈ h.grants) {f : Fsb E.H} (hf : w.fsbs[x.owner]? = some f) {a : Nat}
    (ha : In x.ptr (heapLayout x.layout) a) : InHeaps E f.regions a := by
  obtain ⟨f', rl, h1, h2, h3⟩ := ok.grant hx
  rw [hf] at h1; injection h1 with h1; subst h1
  obtain ⟨_, r, hr, r1, r2, _, r3⟩ := h2.grant_ok h3
  unfold In at ha
  exact ⟨r, hr, by simp only at r1; omega, by simp only at r3; omega⟩

theorem in_heapLayout {p a : Nat} {l : Layout} (h : In p l a) : In p (heapLayout l) a := by
  have := heapLayout_size l
  unfold In at *; omega

/-! ### Replacing one allocator -/

theorem flatMap_set_same {α β : Type} {g : α → List β} : ∀ {l : List α} {i : Nat} {a a' : α}, l[i]? = some a → g a' = g a →
    (l.set i a').flatMap g = l.flatMap g
  | [], i, _, _, h, _ => by simp at h
  | x :: l, 0, a, a', h, he => by
    simp only [List.getElem?_cons_zero, Option.some.injEq] at h; subst h
    rw [List.set_cons_zero, List.flatMap_cons, List.flatMap_cons, he]
  | x :: l, i + 1, a, a', h, he => by
    rw [List.set_cons_succ, List.flatMap_cons, List.flatMap_cons, flatMap_set_same (by simpa using h) he]

theorem flatMap_set_cons {α β : Type} {g : α → List β} {s : β} : ∀ {l : List α} {i : Nat} {a a' : α}, l[i]? = some a → g a' = s :: g a →
    ((l.set i a').flatMap g).Perm (s :: l.flatMap g)
  | [], i, _, _, h, _ => by simp at h
  | x :: l, 0, a, a', h, he => by
    simp only [List.getElem?_cons_zero, Option.some.injEq] at h; subst h
    rw [List.set_cons_zero, List.flatMap_cons, List.flatMap_cons, he]
    exact List.Perm.refl _
  | x :: l, i + 1, a, a', h, he => by
    rw [List.set_cons_succ, List.flatMap_cons, List.flatMap_cons]
    exact (List.Perm.append_left _ (flatMap_set_cons (by simpa using h) he)).trans List.perm_middle

theorem Alike.regionsOf {f f' : Fsb E.H} (ha : Alike f f') : regionsOf f' = regionsOf f := by
  have key : ∀ (k : Nat) (rs : List (Region E.H)), rs.map (fun r => (⟨k, r.base, r.len⟩ : Span)) =
      (rs.map fun r => (r.base, r.len)).map fun q => (⟨k, q.1, q.2⟩ : Span) := by
    intro k rs; rw [List.map_map]; rfl
  unfold Alloc.regionsOf
  rw [key, key, ha.shape, ha.handle]

theorem set_get {l : List (Fsb E.H)} {i j : Nat} {f g : Fsb E.H} {f' : Fsb E.H} (hf : l[i]? = some f) (hg : (l.set i f')[j]? = some g) :
    (j = i ∧ g = f') ∨ (j ≠ i ∧ l[j]? = some g) := by
  by_cases hij : i = j
  · subst hij
    have : i < l.length := (List.getElem?_eq_some_iff.1 hf).1
    rw [List.getElem?_set_self this] at hg
    injection hg with hg
    exact .inl ⟨rfl, hg.symm⟩
  · rw [List.getElem?_set_ne hij] at hg
    exact .inr ⟨fun e => hij e.symm, hg⟩

/-- One allocator has given out or taken back a block. -/
theorem WorldOk.replace (ok : WorldOk hE w h F) {i : Nat} {f f' : Fsb E.H} (hf : w.fsbs[i]? = some f) (ha : Alike f f') {m' : Mem}
    {gs' : List Grant} {free' : Nat → List Nat} {rl' : List (Backed E)}
    (hown : ∀ x ∈ gs', x.owner < w.fsbs.length)
    (hgs : ∀ j, j ≠ i → (grantsOf gs' j).Perm (grantsOf h.grants j)) (hfs : FsbOk hE f' m' (grantsOf gs' i) rl' free')
    (hfr : ∀ a, ¬ InHeaps E f.regions a → m' a = w.mem a) :
    WorldOk hE { w with mem := m', fsbs := w.fsbs.set i f' } { h with grants := gs' } (fun j => if j = i then free' else F j) := by
  have hreg : (w.fsbs.set i f').flatMap Alloc.regionsOf = w.fsbs.flatMap Alloc.regionsOf := flatMap_set_same hf ha.regionsOf
  refine ⟨ok.reach, ?_, ?_, ?_, ?_, by simpa using hown⟩
  · intro j g hg
    rcases set_get hf hg with ⟨rfl, rfl⟩ | ⟨hj, hg⟩
    · simp only [if_true]; exact ⟨rl', hfs⟩
    · simp only [if_neg hj]
      obtain ⟨rl, hok⟩ := ok.fsb j g hg
      refine ⟨rl, (hok.frame (ok.regionsOk hg) fun a hin _ => hfr a fun hin' => ?_).perm (hgs j hj)⟩
      exact ok.heaps_apart hj hg hf hin hin'
  · have := ok.claims
    rw [regions_eq] at this ⊢
    simp only
    rw [hreg]; exact this
  · have := ok.live
    rw [regions_eq] at this ⊢
    simp only
    rw [hreg]; exact this
  · intro j g hg
    rcases set_get hf hg with ⟨rfl, rfl⟩ | ⟨hj, hg⟩
    · intro r hr
      have : (r.base, r.len) ∈ g.regions.map (fun r => (r.base, r.len)) := List.mem_map.2 ⟨r, hr, rfl⟩
      rw [ha.shape] at this
      obtain ⟨q, hq, he⟩ := List.mem_map.1 this
      simp only [Prod.mk.injEq] at he
      have hk := ok.regions j f hf q hq
      exact ⟨he.1 ▸ hk.base8, he.2 ▸ hk.len8, he.2 ▸ hk.big, he.1 ▸ hk.pos⟩
    · exact ok.regions j g hg

/-! ### The steps -/

theorem grantsOf_cons_self (l : List Grant) (i p : Nat) (lay : Layout) : grantsOf (⟨i, p, lay⟩ :: l) i = (p, lay) :: grantsOf l i := by
  simp [grantsOf]

theorem grantsOf_cons_ne (l : List Grant) {i j : Nat} (h : j ≠ i) (p : Nat) (lay : Layout) : grantsOf (⟨i, p, lay⟩ :: l) j = grantsOf l j := by
  unfold grantsOf
  rw [List.filter_cons_of_neg (by simp only [decide_eq_true_eq]; exact fun e => h e.symm)]

/-- What an operation of allocator `i` does to the free lists: blocks leave them only to be given out. -/
def FreeKept (w : World E.H) (m' : Mem) (h' : History) (F F' : Nat → Nat → List Nat) : Prop :=
  ∀ i k q, i < w.fsbs.length → k < 10 → q ∈ F i k → (∃ lay, (⟨i, q, lay⟩ : Grant) ∈ h'.grants) ∨
    (q ∈ F' i k ∧ ∀ a, q + 8 ≤ a → a < q + blockSize k → m' a = w.mem a)

/-- Memory changes only in the heap of the allocator, and not in the blocks given out before and after. -/
def Kept (f : Fsb E.H) (h h' : History) (m m' : Mem) : Prop :=
  ∀ a, ¬ InHeaps E f.regions a ∨ (∃ x ∈ h.grants, x ∈ h'.grants ∧ In x.ptr x.layout a) → m' a = m a

theorem alloc_world (ok : WorldOk hE w h F) {i : Nat} {f f' : Fsb E.H} (hf : w.fsbs[i]? = some f) {lay : Layout} (hv : lay.Valid)
    {r : AllocRes} {m' : Mem} (hx : f.alloc E w.mem lay = (r, f', m')) :
    ∃ F', WorldOk hE { w with mem := m', fsbs := w.fsbs.set i f' } { h with grants := grant h.grants i lay r } F' ∧
      Kept f h { h with grants := grant h.grants i lay r } w.mem m' ∧
      FreeKept w m' { h with grants := grant h.grants i lay r } F F' ∧ Alike f f' := by
  have hi : i < w.fsbs.length := (List.getElem?_eq_some_iff.1 hf).1
  obtain ⟨rl, hok⟩ := ok.fsb i f hf
  have hr := ok.regionsOk hf
  cases r with
  | ok p =>
    obtain ⟨⟨rl', free', e1, e2⟩, e3, e4⟩ := alloc_ok hok hr hv hx
    simp only [Alloc.grant]
    have e4' : ∀ a, ¬ InHeaps E f.regions a → m' a = w.mem a := fun a ha => e4 a (.inl (by rw [hok.regions]; exact ha))
    refine ⟨_, ok.replace hf e3 (gs' := ⟨i, p, lay⟩ :: h.grants) (free' := free') (rl' := rl') ?_ ?_ ?_ e4', ?_, ?_, e3⟩
    · intro x hx
      rcases List.mem_cons.1 hx with rfl | hx
      · exact hi
      · exact ok.owners x hx
    · intro j hj; rw [grantsOf_cons_ne _ hj]
    · rw [grantsOf_cons_self]; exact e1
    · intro a ha
      rcases ha with ha | ⟨x, hx, _, hin⟩
      · exact e4' a ha
      · by_cases hxi : x.owner = i
        · have hmem : (x.ptr, heapLayout x.layout) ∈ backedBlocks rl := hok.blocks.mem_iff.2 (List.mem_append_left _
            (List.mem_map.2 ⟨(x.ptr, x.layout), mem_grantsOf.2 (by rw [← hxi]; exact hx), rfl⟩))
          refine e4 a (.inr ⟨_, hmem, ?_, in_heapLayout hin⟩)
          intro he
          have hap := e1.grants_apart (e3.shape.regionsOk hr)
          rw [List.map_cons, List.pairwise_cons] at hap
          refine hap.1 (x.ptr, heapLayout x.layout) (List.mem_map.2 ⟨(x.ptr, x.layout), mem_grantsOf.2 (by rw [← hxi]; exact hx), rfl⟩) ?_
          rw [he]
          have hin' := in_heapLayout hin
          unfold In at hin'
          rw [Prod.mk.injEq] at he
          rw [he.1, he.2] at hin'
          exact ⟨a, hin'.1, hin'.2, hin'.1, hin'.2⟩
        · obtain ⟨g, _, hg, _, _⟩ := ok.grant hx
          exact e4' a fun hc => ok.heaps_apart hxi hg hf (ok.grant_in hx hg (in_heapLayout hin)) hc
    · intro j k q hj hk hq
      by_cases hji : j = i
      · subst hji
        rcases e2 k hk q hq with rfl | hq'
        · exact .inl ⟨lay, by simp⟩
        · by_cases hqp : q = p
          · exact .inl ⟨lay, by simp [hqp]⟩
          · right
            simp only [if_true]
            refine ⟨hq', fun a a1 a2 => e4 a (.inr ⟨(q, ⟨blockSize k, blockSize k⟩), ?_, ?_, ?_, ?_⟩)⟩
            · exact hok.blocks.mem_iff.2 (List.mem_append_right _ (mem_freeBlocks.2 ⟨k, hk, hq, rfl⟩))
            · intro he; rw [Prod.mk.injEq] at he; exact hqp he.1
            · simp only; omega
            · simp only; omega
      · right
        simp only [if_neg hji]
        refine ⟨hq, fun a a1 a2 => e4' a fun hc => ?_⟩
        obtain ⟨rg, hgk⟩ := ok.fsb j _ (List.getElem?_eq_getElem hj)
        obtain ⟨_, r, hr', r1, r2, r3⟩ := hgk.free_ok hk hq
        exact ok.heaps_apart hji (List.getElem?_eq_getElem hj) hf ⟨r, hr', by omega, by omega⟩ hc
  | outOfMemory n =>
    obtain ⟨rfl, rfl, _, _⟩ := alloc_none hx
    have ha : Alike f { f with stats := { f.stats with allocCalls := f.stats.allocCalls + 1 } } := ⟨rfl, rfl, rfl, rfl⟩
    refine ⟨_, ok.replace hf ha (gs' := h.grants) ok.owners (fun j _ => List.Perm.refl _) (hok.stats rfl rfl) (fun a _ => rfl), fun a _ => rfl, ?_, ha⟩
    intro j k q _ _ hq
    refine .inr ⟨?_, fun a _ _ => rfl⟩
    show q ∈ (if j = i then F i else F j) k
    split
    · subst_vars; exact hq
    · exact hq

theorem grantsOf_perm {l l' : List Grant} (hp : l.Perm l') (i : Nat) : (grantsOf l i).Perm (grantsOf l' i) := (hp.filter _).map _

theorem mem_freed {free : Nat → List Nat} {p k q : Nat} {lay : Layout} (hq : q ∈ free k) : q ∈ freed free p lay k := by
  unfold freed
  cases listIndex lay with
  | none => exact hq
  | some j =>
    simp only [setList]
    split
    · subst_vars; exact List.mem_cons_of_mem _ hq
    · exact hq

theorem dealloc_world (ok : WorldOk hE w h F) {f f' : Fsb E.H} {x : Grant} (hx : x ∈ h.grants) (hf : w.fsbs[x.owner]? = some f)
    {m' : Mem} (hd : f.dealloc E w.mem x.ptr x.layout = (f', m')) :
    ∃ F', WorldOk hE { w with mem := m', fsbs := w.fsbs.set x.owner f' } { h with grants := h.grants.erase x } F' ∧
      Kept f h { h with grants := h.grants.erase x } w.mem m' ∧
      FreeKept w m' { h with grants := h.grants.erase x } F F' ∧ Alike f f' ∧
      (∀ k, listIndex x.layout = some k → x.ptr ∈ F' x.owner k ∧ ∀ a, x.ptr + 8 ≤ a → m' a = w.mem a) ∧
      (∀ a, x.ptr + 16 ≤ a → In x.ptr (heapLayout x.layout) a → m' a = w.mem a) := by
  obtain ⟨rl, hok⟩ := ok.fsb x.owner f hf
  have hr := ok.regionsOk hf
  have hperm : h.grants.Perm (x :: h.grants.erase x) := List.perm_cons_erase hx
  have hpi : (grantsOf h.grants x.owner).Perm ((x.ptr, x.layout) :: grantsOf (h.grants.erase x) x.owner) := by
    have := grantsOf_perm hperm x.owner
    rw [show x = ⟨x.owner, x.ptr, x.layout⟩ from rfl, grantsOf_cons_self] at this
    exact this
  have hok' := hok.perm hpi.symm
  obtain ⟨⟨rl', e1⟩, e3, e4, e5, e6⟩ := dealloc_ok hok' hr hd
  have e4' : ∀ a, ¬ InHeaps E f.regions a → m' a = w.mem a := fun a ha => e4 a (.inl (by rw [hok.regions]; exact ha))
  refine ⟨_, ok.replace hf e3 (gs' := h.grants.erase x) (free' := freed (F x.owner) x.ptr x.layout) (rl' := rl') ?_ ?_ e1 e4', ?_, ?_, e3, ?_, e5⟩
  · intro y hy; exact ok.owners y (List.mem_of_mem_erase hy)
  · intro j hj
    have := grantsOf_perm hperm j
    rw [show x = ⟨x.owner, x.ptr, x.layout⟩ from rfl, grantsOf_cons_ne _ hj] at this
    exact this.symm
  · intro a ha
    rcases ha with ha | ⟨y, hy, hy', hin⟩
    · exact e4' a ha
    · by_cases hyi : y.owner = x.owner
      · have hmem : (y.ptr, heapLayout y.layout) ∈ backedBlocks rl := hok.blocks.mem_iff.2 (List.mem_append_left _
          (List.mem_map.2 ⟨(y.ptr, y.layout), mem_grantsOf.2 (by rw [← hyi]; exact hy), rfl⟩))
        refine e4 a (.inr ⟨_, hmem, ?_, in_heapLayout hin⟩)
        intro he
        have hap := hok'.grants_apart hr
        rw [List.map_cons, List.pairwise_cons] at hap
        refine hap.1 (y.ptr, heapLayout y.layout) (List.mem_map.2 ⟨(y.ptr, y.layout), mem_grantsOf.2 (by rw [← hyi]; exact hy'), rfl⟩) ?_
        rw [he]
        have hin' := in_heapLayout hin
        unfold In at hin'
        rw [Prod.mk.injEq] at he
        rw [he.1, he.2] at hin'
        exact ⟨a, hin'.1, hin'.2, hin'.1, hin'.2⟩
      · obtain ⟨g, _, hg, _, _⟩ := ok.grant hy
        exact e4' a fun hc => ok.heaps_apart hyi hg hf (ok.grant_in hy hg (in_heapLayout hin)) hc
  · intro j k q hj hk hq
    right
    by_cases hji : j = x.owner
    · subst hji
      simp only [if_true]
      refine ⟨?_, fun a a1 a2 => e4 a (.inr ⟨(q, ⟨blockSize k, blockSize k⟩), ?_, ?_, ?_, ?_⟩)⟩
      · exact mem_freed hq
      · exact hok.blocks.mem_iff.2 (List.mem_append_right _ (mem_freeBlocks.2 ⟨k, hk, hq, rfl⟩))
      · exact hok.free_ne hr (mem_grantsOf.2 hx) hk hq
      · simp only; omega
      · simp only; omega
    · simp only [if_neg hji]
      refine ⟨hq, fun a a1 a2 => e4' a fun hc => ?_⟩
      obtain ⟨rg, hgk⟩ := ok.fsb j _ (List.getElem?_eq_getElem hj)
      obtain ⟨_, r, hr', r1, r2, r3⟩ := hgk.free_ok hk hq
      exact ok.heaps_apart hji (List.getElem?_eq_getElem hj) hf ⟨r, hr', by omega, by omega⟩ hc
  · intro k hk
    refine ⟨?_, e6 (by rw [hk]; rfl)⟩
    simp only [if_true]
    unfold freed
    rw [hk]
    simp [setList]

theorem expand_world (ok : WorldOk hE w h F) {i : Nat} {f f' : Fsb E.H} (hf : w.fsbs[i]? = some f) {s : Span} (hs : s ∈ h.spans)
    (hh : s.handle = f.handle) (hb : s.base ≠ 0) (hl : s.len % UEFI_PAGE_SIZE = 0) {dbg : Bool} {m' : Mem}
    (hx : f.expand E dbg w.mem s.base s.len = (.ok f', m')) :
    WorldOk hE { w with mem := m', fsbs := w.fsbs.set i f' } { h with spans := h.spans.erase s } F ∧
      ∀ a, ¬ (s.base ≤ a ∧ a < s.base + s.len) → m' a = w.mem a := by
  obtain ⟨h1, h2, h3, h4, h5, h6, h7, h8, h9⟩ := expand_shape hx
  have hperm : ((w.fsbs.set i f').flatMap Alloc.regionsOf ++ h.spans.erase s).Perm (w.regions ++ h.spans) := by
    have e : Alloc.regionsOf f' = s :: Alloc.regionsOf f := by
      unfold Alloc.regionsOf
      rw [h3, List.map_cons, h5, ← hh]
    refine ((flatMap_set_cons hf e).append_right _).trans ?_
    rw [List.cons_append]
    exact List.perm_middle.symm.trans (List.Perm.append_left _ (List.perm_cons_erase hs).symm)
  have hclaims : ((w.fsbs.set i f').flatMap Alloc.regionsOf ++ h.spans.erase s).Pairwise SpansApart :=
    (hperm.pairwise_iff spansApart_symm).2 ok.claims
  have hlive : ∀ t ∈ (w.fsbs.set i f').flatMap Alloc.regionsOf ++ h.spans.erase s, 0 < t.len ∧ Live w.gcd t.base t.len t.handle :=
    fun t ht => ok.live t (hperm.mem_iff.1 ht)
  have hreg : ∀ (j : Nat) g, (w.fsbs.set i f')[j]? = some g → ∀ r ∈ g.regions, RegionOk E r := by
    intro j g hg
    rcases set_get hf hg with ⟨rfl, rfl⟩ | ⟨_, hg⟩
    · intro r hr
      rw [h3] at hr
      rcases List.mem_cons.1 hr with rfl | hr
      · have := hE.nodeSmall
        have := (ok.live s (List.mem_append_right _ hs)).1
        unfold UEFI_PAGE_SIZE at hl
        exact ⟨h2, by simp only; omega, by simp only; omega, by simp only; omega⟩
      · exact ok.regions j f hf r hr
    · exact ok.regions j g hg
  have hr' : RegionsOk E f'.regions := by
    refine regionsOk_of (w := { w with mem := m', fsbs := w.fsbs.set i f' }) (i := i) ok.reach (List.pairwise_append.1 hclaims).1
      (fun t ht => hlive t (List.mem_append_left _ ht)) ?_ (hreg i f' ?_) <;>
    · exact List.getElem?_set_self (List.getElem?_eq_some_iff.1 hf).1
  obtain ⟨rl, hok⟩ := ok.fsb i f hf
  obtain ⟨⟨rl', e1⟩, e2⟩ := expand_ok hok hr' hx
  refine ⟨⟨ok.reach, ?_, hclaims, hlive, hreg, by simpa using ok.owners⟩, e2⟩
  intro j g hg
  rcases set_get hf hg with ⟨rfl, rfl⟩ | ⟨hj, hg⟩
  · exact ⟨rl', e1⟩
  · obtain ⟨rl2, hok2⟩ := ok.fsb j g hg
    refine ⟨rl2, hok2.frame (ok.regionsOk hg) fun a ⟨r, hr, a1, a2⟩ _ => e2 a fun ⟨a3, a4⟩ => ?_⟩
    exact (List.pairwise_append.1 ok.claims).2.2 _ (mem_regions hg hr) s hs ⟨a, by simp only; omega, a2, a3, a4⟩

theorem touches_overlap {s : Span} {b n : Nat} (h : s.touches b n = false) : ¬ Overlap s.base s.len b n := by
  unfold Span.touches at h
  rw [decide_eq_false_iff_not] at h
  rintro ⟨a, a1, a2, a3, a4⟩
  exact h ⟨by omega, by omega⟩

theorem step_run (g : Gcd) (n : Nat) (op : Op) : g.step n op = g.run n [op] := rfl

theorem gcd_world (ok : WorldOk hE w h F) {op : Op} (ho : op.InRange)
    (hfree : ∀ base len p, op = .free base len p → ∀ s ∈ w.regions, s.touches base len = false) :
    WorldOk hE { w with gcd := w.gcd.step E.gcdNode op } { h with spans := spansAfter w.gcd h.spans op } F := by
  have hreach : Reachable E.gcdNode (w.gcd.step E.gcdNode op) := by
    rw [step_run]
    exact reachable_run ok.reach (by simpa using ho)
  have hsub : ∀ l' : List Span, l'.Sublist h.spans → (∀ b n p, op = .free b n p → ∀ s ∈ l', s.touches b n = false) →
      (w.regions ++ l').Pairwise SpansApart ∧ ∀ s ∈ w.regions ++ l', 0 < s.len ∧ Live (w.gcd.step E.gcdNode op) s.base s.len s.handle := by
    intro l' hl' hf'
    have hss : (w.regions ++ l').Sublist (w.regions ++ h.spans) := List.Sublist.append_left hl' _
    refine ⟨ok.claims.sublist hss, fun s hs => ?_⟩
    obtain ⟨h1, h2⟩ := ok.live s (hss.subset hs)
    refine ⟨h1, live_step ok.reach h1 h2 ho fun b n p he => ?_⟩
    rcases List.mem_append.1 hs with hs | hs
    · exact touches_overlap (hfree b n p he s hs)
    · exact touches_overlap (hf' b n p he s hs)
  have hwrap : ∀ l' : List Span, ((w.regions ++ l').Pairwise SpansApart ∧ ∀ s ∈ w.regions ++ l', 0 < s.len ∧ Live (w.gcd.step E.gcdNode op) s.base s.len s.handle) →
      WorldOk hE { w with gcd := w.gcd.step E.gcdNode op } { h with spans := l' } F :=
    fun l' hl' => ⟨hreach, ok.fsb, hl'.1, hl'.2, ok.regions, ok.owners⟩
  apply hwrap
  cases op with
  | allocate at_ ty shift len image device =>
    have hbase := hsub h.spans (List.Sublist.refl _) (fun _ _ _ h => by cases h)
    rcases hx : w.gcd.allocate at_ ty shift len image device with ⟨r, g'⟩
    cases r with
    | ok a =>
      obtain ⟨_, _, _, _, _, c, hu, hc, _, _, _, _, hup, _⟩ := allocate_ok ok.reach (at_ := at_) ⟨ho.1, ho.2.1, ho.2.2⟩ hx
      rw [show spansAfter w.gcd h.spans (.allocate at_ ty shift len image device) = ⟨image, a, len⟩ :: h.spans by simp only [spansAfter, hx]]
      refine ⟨?_, ?_⟩
      · have : (w.regions ++ ⟨image, a, len⟩ :: h.spans).Perm (⟨image, a, len⟩ :: (w.regions ++ h.spans)) := List.perm_middle
        refine (this.pairwise_iff spansApart_symm).2 (List.pairwise_cons.2 ⟨?_, hbase.1⟩)
        intro s hs
        rintro ⟨b, b1, b2, b3, b4⟩
        obtain ⟨x, hx1, hx2, _⟩ := (ok.live s hs).2 b b3 b4
        have := hu.2 b b1 b2
        rw [hx1] at this
        injection this with this
        rw [this, hc] at hx2; cases hx2
      · intro s hs
        rcases List.mem_append.1 hs with hs | hs
        · exact hbase.2 s (List.mem_append_left _ hs)
        · rcases List.mem_cons.1 hs with rfl | hs
          · refine ⟨hu.1, fun b b1 b2 => ?_⟩
            have e : (w.gcd.step E.gcdNode (.allocate at_ ty shift len image device)) = g' := by
              show (w.gcd.allocate at_ ty shift len image device).2 = g'
              rw [hx]
            simp only at b1 b2
            rw [e, hup b, if_pos ⟨b1, b2⟩]
            exact ⟨_, rfl, rfl, rfl⟩
          · exact hbase.2 s (List.mem_append_right _ hs)
    | err e =>
      rw [show spansAfter w.gcd h.spans (.allocate at_ ty shift len image device) = h.spans by simp only [spansAfter, hx]]
      exact hbase
    | panic =>
      rw [show spansAfter w.gcd h.spans (.allocate at_ ty shift len image device) = h.spans by simp only [spansAfter, hx]]
      exact hbase
  | free base len p =>
    refine hsub _ List.filter_sublist ?_
    intro b n p' he s hs
    injection he with e1 e2 e3
    subst e1; subst e2
    have := (List.mem_filter.1 hs).2
    simpa using this
  | _ => exact hsub _ (List.Sublist.refl _) (fun _ _ _ h => by cases h)

theorem write_world (ok : WorldOk hE w h F) {m' : Mem}
    (hm : ∀ s ∈ w.regions, ∀ a, s.base ≤ a → a < s.base + s.len → (∀ x ∈ h.grants, ¬ In x.ptr x.layout a) → m' a = w.mem a) :
    WorldOk hE { w with mem := m' } h F := by
  refine ⟨ok.reach, ?_, ok.claims, ok.live, ok.regions, ok.owners⟩
  intro i f hf
  obtain ⟨rl, hok⟩ := ok.fsb i f hf
  refine ⟨rl, hok.frame (ok.regionsOk hf) fun a hin hg => ?_⟩
  obtain ⟨r, hr, a1, a2⟩ := hin
  refine hm _ (mem_regions hf hr) a (by simp only; omega) a2 fun x hx hin' => ?_
  by_cases hxi : x.owner = i
  · exact hg (x.ptr, x.layout) (mem_grantsOf.2 (by rw [← hxi]; exact hx)) (in_heapLayout hin')
  · obtain ⟨g, _, hg', _, _⟩ := ok.grant hx
    exact ok.heaps_apart hxi hg' hf (ok.grant_in hx hg' (in_heapLayout hin')) ⟨r, hr, a1, a2⟩

theorem chain_zero {m : Mem} : Chain m 0 [] := rfl

theorem create_world (ok : WorldOk hE w h F) (type gran handle : Nat) :
    ∃ F', WorldOk hE { w with fsbs := w.fsbs ++ [Fsb.new E.H type gran handle] } h F' ∧ ∀ i k, i < w.fsbs.length → F' i k = F i k := by
  have hreg : (w.fsbs ++ [Fsb.new E.H type gran handle]).flatMap Alloc.regionsOf = w.regions := by
    rw [List.flatMap_append, regions_eq]
    simp [Alloc.regionsOf, Fsb.new]
  have hget : ∀ (i : Nat) f, (w.fsbs ++ [Fsb.new E.H type gran handle])[i]? = some f →
      (w.fsbs[i]? = some f ∧ i < w.fsbs.length) ∨ (i = w.fsbs.length ∧ f = Fsb.new E.H type gran handle) := by
    intro i f hf
    rcases Nat.lt_trichotomy i w.fsbs.length with hlt | heq | hgt
    · rw [List.getElem?_append_left hlt] at hf; exact .inl ⟨hf, hlt⟩
    · subst heq
      simp only [List.getElem?_concat_length, Option.some.injEq] at hf
      exact .inr ⟨rfl, hf.symm⟩
    · rw [List.getElem?_append_right (by omega), List.getElem?_eq_none (by simp; omega)] at hf; cases hf
  refine ⟨fun i => if i < w.fsbs.length then F i else fun _ => [], ⟨ok.reach, ?_, ?_, ?_, ?_, ?_⟩, fun i k hi => by simp only [if_pos hi]⟩
  · intro i f hf
    rcases hget i f hf with ⟨hf, hi⟩ | ⟨rfl, rfl⟩
    · simp only [if_pos hi]; exact ok.fsb i f hf
    · simp only [Nat.lt_irrefl, if_false]
      have hg : grantsOf h.grants w.fsbs.length = [] := by
        unfold grantsOf
        rw [List.map_eq_nil_iff, List.filter_eq_nil_iff]
        intro x hx
        have := ok.owners x hx
        simp only [decide_eq_true_eq]; omega
      refine ⟨[], rfl, by simp, ?_, by simp [Fsb.new, BLOCK_SIZES], by simp [hg, backedBlocks, freeBlocks], by simp [hg]⟩
      intro k hk
      have e : (Fsb.new E.H type gran handle).heads.getD k 0 = 0 := by
        show (List.replicate 10 0).getD k 0 = 0
        rw [List.getD_eq_getElem?_getD, List.getElem?_replicate]
        simp [hk]
      rw [e]; exact chain_zero
  · have := ok.claims
    rw [regions_eq]; simp only; rw [hreg]; exact this
  · have := ok.live
    rw [regions_eq]; simp only; rw [hreg]; exact this
  · intro i f hf
    rcases hget i f hf with ⟨hf, hi⟩ | ⟨rfl, rfl⟩
    · exact ok.regions i f hf
    · intro r hr; simp [Fsb.new] at hr
  · intro x hx
    have := ok.owners x hx
    simp only [List.length_append, List.length_cons, List.length_nil]; omega

/-- A step keeps the invariant. Blocks given out before and after keep their contents, unless somebody has written to memory. -/
theorem step_world (ok : WorldOk hE w h F) (hs : Step E (w, h) (w', h')) :
    ∃ F', WorldOk hE w' h' F' ∧
      ((∀ a, (∀ s ∈ w'.regions, ¬ (s.base ≤ a ∧ a < s.base + s.len)) ∨ (∃ x ∈ h.grants, x ∈ h'.grants ∧ In x.ptr x.layout a) → w'.mem a = w.mem a) ∨
        (w'.gcd = w.gcd ∧ w'.fsbs = w.fsbs ∧ h' = h)) ∧
      FreeKept w w'.mem h' F F' ∧ w.fsbs.length ≤ w'.fsbs.length := by
  have hout : ∀ {i : Nat} {f f' : Fsb E.H} {m' : Mem} {gs : List Grant}, w.fsbs[i]? = some f → Alike f f' →
      Kept f h { h with grants := gs } w.mem m' →
      ∀ a, (∀ s ∈ World.regions { w with mem := m', fsbs := w.fsbs.set i f' }, ¬ (s.base ≤ a ∧ a < s.base + s.len)) ∨
        (∃ x ∈ h.grants, x ∈ gs ∧ In x.ptr x.layout a) → m' a = w.mem a := by
    intro i f f' m' gs hf ha hk a hc
    apply hk
    rcases hc with hc | hc
    · left
      rintro ⟨r, hr, a1, a2⟩
      have hreg : (w.fsbs.set i f').flatMap Alloc.regionsOf = w.fsbs.flatMap Alloc.regionsOf := flatMap_set_same hf ha.regionsOf
      refine hc ⟨f.handle, r.base, r.len⟩ ?_ ⟨by simp only; omega, a2⟩
      rw [regions_eq]; simp only; rw [hreg, ← regions_eq]
      exact mem_regions hf hr
    · exact .inr hc
  cases hs with
  | alloc hf hv hx =>
    obtain ⟨F', h1, h2, h3, h4⟩ := alloc_world ok hf hv hx
    exact ⟨F', h1, .inl (hout hf h4 h2), h3, by simp⟩
  | dealloc hx hf hd =>
    obtain ⟨F', h1, h2, h3, h4, _⟩ := dealloc_world ok hx hf hd
    exact ⟨F', h1, .inl (hout hf h4 h2), h3, by simp⟩
  | @expand _ _ i f f' dbg s m' hf hs hh _ hb hl hx =>
    obtain ⟨h1, h2⟩ := expand_world ok hf hs hh hb hl hx
    refine ⟨F, h1, .inl ?_, ?_, by simp⟩
    · intro a ha
      apply h2
      rcases ha with ha | ⟨x, hx', _, hin⟩
      · refine ha s ?_
        obtain ⟨_, _, h3, _, h5, _⟩ := expand_shape hx
        have e : (⟨f'.handle, s.base, s.len⟩ : Span) = s := by rw [h5, ← hh]
        rw [← e]
        have hi : i < w.fsbs.length := (List.getElem?_eq_some_iff.1 hf).1
        refine mem_regions (w := { w with mem := m', fsbs := w.fsbs.set i f' }) (List.getElem?_set_self hi) (r := ⟨s.base, s.len, (E.H.init (s.base + E.node) (s.len - E.node) w.mem).1⟩) ?_
        rw [h3]; exact List.mem_cons_self
      · rintro ⟨a1, a2⟩
        obtain ⟨g, _, hg, _, _⟩ := ok.grant hx'
        obtain ⟨r, hr, r1, r2⟩ := ok.grant_in hx' hg (in_heapLayout hin)
        exact (List.pairwise_append.1 ok.claims).2.2 _ (mem_regions hg hr) s hs ⟨a, by simp only; omega, r2, a1, a2⟩
    · intro j k q hj hk hq
      refine .inr ⟨hq, fun a a1 a2 => h2 a fun ⟨a3, a4⟩ => ?_⟩
      obtain ⟨rg, hgk⟩ := ok.fsb j _ (List.getElem?_eq_getElem hj)
      obtain ⟨_, r, hr', r1, r2, r3⟩ := hgk.free_ok hk hq
      exact (List.pairwise_append.1 ok.claims).2.2 _ (mem_regions (List.getElem?_eq_getElem hj) hr') s hs
        ⟨a, by simp only; omega, by simp only; omega, a3, a4⟩
  | @account _ _ i f f' hf h1 h2 h3 h4 h5 =>
    have ha : Alike f f' := ⟨by rw [SameShape, h2], h3, h4, h5⟩
    obtain ⟨rl, hok⟩ := ok.fsb i f hf
    have hw := ok.replace hf ha (gs' := h.grants) (m' := w.mem) ok.owners (fun j _ => List.Perm.refl _) (hok.stats h2 h1) (fun a _ => rfl)
    refine ⟨_, hw, .inl fun a _ => rfl, ?_, by simp⟩
    intro j k q _ _ hq
    refine .inr ⟨?_, fun a _ _ => rfl⟩
    show q ∈ (if j = i then F i else F j) k
    split
    · subst_vars; exact hq
    · exact hq
  | gcd ho hfr =>
    exact ⟨F, gcd_world ok ho hfr, .inl fun a _ => rfl, fun j k q _ _ hq => .inr ⟨hq, fun a _ _ => rfl⟩, Nat.le_refl _⟩
  | write hm =>
    refine ⟨F, write_world ok hm, .inr ⟨rfl, rfl, rfl⟩, ?_, Nat.le_refl _⟩
    intro j k q hj hk hq
    obtain ⟨rg, hgk⟩ := ok.fsb j _ (List.getElem?_eq_getElem hj)
    obtain ⟨_, r, hr', r1, r2, r3⟩ := hgk.free_ok hk hq
    refine .inr ⟨hq, fun a a1 a2 => ?_⟩
    refine hm _ (mem_regions (List.getElem?_eq_getElem hj) hr') a (by simp only; omega) (by simp only; omega) fun x hx hin => ?_
    by_cases hxj : x.owner = j
    · have := (List.pairwise_append.1 (hgk.apart (ok.regionsOk (List.getElem?_eq_getElem hj)))).2.2 (x.ptr, heapLayout x.layout)
        (List.mem_map.2 ⟨(x.ptr, x.layout), mem_grantsOf.2 (by rw [← hxj]; exact hx), rfl⟩) (q, ⟨blockSize k, blockSize k⟩)
        (mem_freeBlocks.2 ⟨k, hk, hq, rfl⟩)
      have hin' := in_heapLayout hin
      exact this ⟨a, hin'.1, hin'.2, by simp only; omega, by simp only; omega⟩
    · obtain ⟨g, _, hg', _, _⟩ := ok.grant hx
      exact ok.heaps_apart hxj hg' (List.getElem?_eq_getElem hj) (ok.grant_in hx hg' (in_heapLayout hin)) ⟨r, hr', by omega, by omega⟩
  | create =>
    obtain ⟨F', h1, h2⟩ := create_world ok _ _ _
    refine ⟨F', h1, .inl fun a _ => rfl, ?_, by simp⟩
    intro j k q hj hk hq
    exact .inr ⟨by rw [h2 j k hj]; exact hq, fun a _ _ => rfl⟩

theorem started_world {x : World E.H × History} (hs : Started E x) : WorldOk hE x.1 x.2 (fun _ _ => []) := by
  obtain ⟨h1, h2, h3⟩ := hs
  refine ⟨h1, ?_, ?_, ?_, ?_, ?_⟩
  · intro i f hf; rw [h2] at hf; simp at hf
  · rw [regions_eq, h2, h3]; simp
  · rw [regions_eq, h2, h3]; simp
  · intro i f hf; rw [h2] at hf; simp at hf
  · rw [h3]; simp

theorem steps_world {x y : World E.H × History} (hs : Steps E x y) : (∃ F, WorldOk hE x.1 x.2 F) → ∃ F, WorldOk hE y.1 y.2 F := by
  induction hs with
  | refl => exact id
  | step _ hstep ih =>
    intro h
    obtain ⟨F, ok⟩ := ih h
    obtain ⟨F', ok', _⟩ := step_world ok hstep
    exact ⟨F', ok'⟩

theorem possible_world {x : World E.H × History} (hp : Possible E x) : ∃ F, WorldOk hE x.1 x.2 F := by
  obtain ⟨x0, h0, hs⟩ := hp
  exact steps_world hs ⟨_, started_world h0⟩

end Verif.Alloc
