import Verif.MemMap.Paged
import Verif.Gcd.Props
/-!
C56: what the memory map says. For every reachable memory space and every set of allocators.
-/
namespace Verif.MemMap
open Gcd

variable {nodeSize : Nat} {g g' : Gcd} {owners : List (Nat × Nat)}

theorem reachable_tiles (hr : Reachable nodeSize g) (hne : g.blocks ≠ []) : Tiles 0 g.blocks g.max ∧ Coalesced g.blocks ∧ g.max < W := by
  have hi := (reachable_inv hr).inv
  rcases hi.map with ⟨_, h⟩ | ⟨_, h, _⟩
  · exact absurd h hne
  · exact ⟨h.tiles, h.coal, hi.ltW⟩

/-- The map is always well-formed. -/
theorem map_well_formed (hr : Reachable nodeSize g) (active : Bool) : WellFormed (memoryMap owners active g.blocks) := by
  by_cases hne : g.blocks = []
  · rw [hne]; exact ⟨fun e he => (List.not_mem_nil he).elim, .nil, .nil⟩
  · obtain ⟨h1, _, h2⟩ := reachable_tiles hr hne
    exact (map_ok h1 h2).1

/-- What the map reports is so: the address is memory in a state that has the reported type and attributes. -/
theorem map_sound (hr : Reachable nodeSize g) (hd : Distinct owners) (active : Bool) {a t w : Nat}
    (h : Reports (memoryMap owners active g.blocks) a t w) :
    ∃ c, cellAt g.blocks a = some c ∧ HasType owners c t ∧ HasAttr active c t w := by
  by_cases hne : g.blocks = []
  · rw [hne] at h
    obtain ⟨e, he, _⟩ := h
    cases he
  · obtain ⟨h1, _, h2⟩ := reachable_tiles hr hne
    obtain ⟨e, he, e1, e2, e3, e4⟩ := ((map_ok (owners := owners) (active := active) h1 h2).2 a t w).1 h
    obtain ⟨b, hb, hbe⟩ := List.mem_filterMap.1 he
    obtain ⟨f1, f2, f3, f4, f5, f6⟩ := entryFor_some hbe
    unfold Entry.stop at e2
    refine ⟨b.st, cellAt_mem h1 hb (by omega) (by omega), ?_, ?_⟩
    · rw [← e3]; exact (memType_iff hd).1 f1
    · rw [← e4, ← e3, f2]; exact entryAttr_ok _ _ _

/-- If no page is in two states, the map reports every address that has a type. -/
theorem map_complete (hr : Reachable nodeSize g) (hd : Distinct owners) (hm : g.max % 4096 = 0) (hp : PageUniform g.blocks) (active : Bool)
    {a t w : Nat} {c : Cell} (hc : cellAt g.blocks a = some c) (ht : HasType owners c t) (hw : HasAttr active c t w) :
    Reports (memoryMap owners active g.blocks) a t w := by
  have hne : g.blocks ≠ [] := by intro h; rw [h] at hc; cases hc
  obtain ⟨h1, h3, h2⟩ := reachable_tiles hr hne
  obtain ⟨b, hb, b1, b2, b3⟩ := cellAt_block hc
  have hal := blocks_aligned h1 h3 hp hm b hb
  have hpos := (tiles_mem h1 hb)
  refine ((map_ok (owners := owners) (active := active) h1 h2).2 a t w).2
    ⟨⟨t, b.base, b.len / 4096, entryAttr active t b.st⟩, List.mem_filterMap.2 ⟨b, hb, ?_⟩, b1, ?_, rfl, ?_⟩
  · unfold entryFor
    rw [b3, (memType_iff hd).2 ht]
    simp only []
    rw [if_neg (by omega), if_neg (by omega)]
  · show a < b.base + b.len / 4096 * 4096
    omega
  · rw [b3]; exact hasAttr_unique (entryAttr_ok _ _ _) hw

/-- For every history of calls about whole pages: the map reports exactly the addresses that have a type, with the type and the
attributes they have. -/
theorem map_exact (nodeSize bits : Nat) (prio : Bool) (ops : List Op) (hb : bits < 64) (hb2 : 12 ≤ bits) (ho : ∀ op ∈ ops, Op.InRange op)
    (hw : ∀ op ∈ ops, WholePages op) (hd : Distinct owners) (active : Bool) (a t w : Nat) :
    Reports (memoryMap owners active ((Gcd.start bits prio).run nodeSize ops).blocks) a t w ↔
      ∃ c, cellAt ((Gcd.start bits prio).run nodeSize ops).blocks a = some c ∧ HasType owners c t ∧ HasAttr active c t w := by
  have hr : Reachable nodeSize ((Gcd.start bits prio).run nodeSize ops) := ⟨bits, prio, ops, ho, rfl⟩
  have hm : ((Gcd.start bits prio).run nodeSize ops).max % 4096 = 0 := by
    rw [(run_same (start_inv bits prio) ho).1]
    show oneShl bits % 4096 = 0
    rw [oneShl_eq hb]
    exact aligned_of_shift (Nat.mod_self _) hb2
  constructor
  · exact map_sound hr hd active
  · rintro ⟨c, h1, h2, h3⟩
    exact map_complete hr hd hm (whole_pages_uniform nodeSize bits prio ops hb hb2 ho hw) active h1 h2 h3

/-- There is one well-formed way to report this: any list of entries that does is the map. -/
theorem map_unique (hr : Reachable nodeSize g) (hd : Distinct owners) (hm : g.max % 4096 = 0) (hp : PageUniform g.blocks) (active : Bool)
    {l : List Entry} (hl : WellFormed l)
    (heq : ∀ a t w, Reports l a t w ↔ ∃ c, cellAt g.blocks a = some c ∧ HasType owners c t ∧ HasAttr active c t w) :
    memoryMap owners active g.blocks = l := by
  refine wellFormed_unique (map_well_formed hr active) hl fun a t w => ?_
  rw [heq]
  constructor
  · exact map_sound hr hd active
  · rintro ⟨c, h1, h2, h3⟩
    exact map_complete hr hd hm hp active h1 h2 h3

/-- An address that is allocated by an allocator is reported with its type. -/
theorem map_allocated (hr : Reachable nodeSize g) (hd : Distinct owners) (hm : g.max % 4096 = 0) (hp : PageUniform g.blocks) (active : Bool)
    {addr len image t : Nat} (ho : (image, t) ∈ owners) (hl : Live g addr len image) {a : Nat} (h1 : addr ≤ a) (h2 : a < addr + len) :
    ∃ w, Reports (memoryMap owners active g.blocks) a t w ∧ ∀ t' w', Reports (memoryMap owners active g.blocks) a t' w' → t' = t := by
  obtain ⟨c, hc, _, him⟩ := hl a h1 h2
  have hf := find_of_mem hd ho
  refine ⟨_, map_complete hr hd hm hp active hc (.owned (him ▸ ho)) (entryAttr_ok active t c), fun t' w' h => ?_⟩
  obtain ⟨c', hc', ht', _⟩ := map_sound hr hd active h
  rw [hc] at hc'
  injection hc' with hc'
  subst hc'
  have := (memType_iff hd).2 ht'
  unfold memType at this
  rw [him, hf] at this
  injection this with this
  exact this.symm

/-- An address is reported as free system memory only if it is unowned system memory. -/
theorem map_conventional (hr : Reachable nodeSize g) (hd : Distinct owners) (hno : ∀ o ∈ owners, o.2 ≠ 7) (active : Bool) {a w : Nat}
    (h : Reports (memoryMap owners active g.blocks) a 7 w) :
    ∃ c, cellAt g.blocks a = some c ∧ c.type = .systemMemory ∧ ∀ o ∈ owners, o.1 ≠ c.image := by
  obtain ⟨c, hc, ht, _⟩ := map_sound hr hd active h
  refine ⟨c, hc, ?_⟩
  generalize h7 : (7 : Nat) = t at ht
  cases ht with
  | owned hm => exact absurd h7.symm (hno _ hm)
  | conventional hn hc => exact ⟨hc, hn⟩
  | io _ _ _ => cases h7
  | ioPort _ _ _ => cases h7
  | persistent _ _ => cases h7
  | unaccepted _ _ => cases h7
  | reserved _ _ => cases h7

/-- Nothing that runtime services need is left out of what the operating system must keep: their memory has the runtime bit. -/
theorem map_runtime (hr : Reachable nodeSize g) (hd : Distinct owners) (active : Bool) {a t w : Nat} (ht : t = 5 ∨ t = 6)
    (h : Reports (memoryMap owners active g.blocks) a t w) : w.testBit 63 = true := by
  obtain ⟨c, _, _, hw⟩ := map_sound hr hd active h
  rw [hw 63]
  simp [ht]

end Verif.MemMap
