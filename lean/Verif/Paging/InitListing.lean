import Verif.Gcd.Listing
import Verif.Paging.Init
/-! The calls by which the page table is built (`Verif.Paging.Init`) are those for the two listings of the memory space (`Verif.Gcd.Listing`). -/
namespace Verif.Paging

open Verif.Gcd Verif.Gcd.Services

/-- The memory space is asked to map an allocated address, not executable and with its cache attributes, and no other address in this step. -/
theorem allocated_called {nodeSize : Nat} {g : Gcd} (hr : Reachable nodeSize g) (hne : g.blocks ≠ []) {a : Nat} (ha : a < g.max) :
    (∃ c ∈ allocatedCalls g.blocks, c.base ≤ a ∧ a < c.base + c.len) ↔ ∃ b, memoryDescriptor g a true = (.success, some b) ∧ b.st.allocated = true := by
  rw [← (Listing.lists_filter hr hne fun c => c.allocated).1 a ha]
  constructor
  · rintro ⟨c, hc, h1, h2⟩
    obtain ⟨d, hd, rfl⟩ := List.mem_map.1 hc
    exact ⟨d, hd, h1, h2⟩
  · rintro ⟨d, hd, h1, h2⟩
    exact ⟨_, List.mem_map.2 ⟨d, hd, rfl⟩, h1, h2⟩

/-- Each such call gives the cache attributes that GetMemorySpaceDescriptor gives for the address, and XP (0x4000). -/
theorem allocated_call_attributes {nodeSize : Nat} {g : Gcd} (hr : Reachable nodeSize g) (hne : g.blocks ≠ []) {a : Nat} (ha : a < g.max) {c : SetCall}
    (hc : c ∈ allocatedCalls g.blocks) (h1 : c.base ≤ a) (h2 : a < c.base + c.len) :
    ∃ b, memoryDescriptor g a true = (.success, some b) ∧ c.attrs = (b.st.attrs &&& 0x101F) ||| 0x4000 := by
  obtain ⟨d, hd, rfl⟩ := List.mem_map.1 hc
  obtain ⟨b, e, hs⟩ := (Listing.lists_filter hr hne fun c => c.allocated).2 d hd a ha h1 h2
  exact ⟨b, e, by rw [hs]; rfl⟩

/-- The second step works on the second listing. -/
theorem mmio_listing_used {g : Gcd} {l : List (Block Cell)} (h : Listing.mmioAndReserved g = .ok l) : mmioBlocks g.blocks = l := by
  unfold Listing.mmioAndReserved at h
  split at h
  · cases h
  · cases h
    unfold mmioBlocks
    congr 1
    funext b
    cases b.st.allocated <;> cases b.st.type <;> rfl

example : ∃ c ∈ allocatedCalls demoGcd.blocks, c.base ≤ 0xFC000 ∧ 0xFC000 < c.base + c.len := by decide +kernel

end Verif.Paging
