import Verif.Gcd.ServicesProps
/-! The two partial listings of the memory space, `/repo/patina_dxe_core/src/gcd/spin_locked_gcd.rs` lines 997-1040, from which the page table is built. -/
namespace Verif.Gcd.Listing

open Verif.Gcd Verif.Gcd.Services

/-- `get_allocated_memory_descriptors`, lines 997-1016, into an empty buffer that has room for `capacity` descriptors. -/
def allocated (g : Gcd) (capacity : Nat) : Outcome EfiError (List (Block Cell)) :=
  if g.max = 0 then .err .notReady
  else if capacity < g.blocks.length then .err .invalidParameter
  else .ok (g.blocks.filter fun b => b.st.allocated)

/-- `get_mmio_and_reserved_descriptors`, lines 1018-1040, into an empty buffer, which grows. -/
def mmioAndReserved (g : Gcd) : Outcome EfiError (List (Block Cell)) :=
  if g.max = 0 then .err .notReady
  else .ok (g.blocks.filter fun b => b.st.allocated == false && (b.st.type == .memoryMappedIo || b.st.type == .reserved))

/-- A listing of exactly the addresses whose state, as GetMemorySpaceDescriptor gives it, is as described by `P`. -/
def Lists (g : Gcd) (P : Cell → Prop) (l : List (Block Cell)) : Prop :=
  (∀ a, a < g.max → ((∃ d ∈ l, d.base ≤ a ∧ a < d.base + d.len) ↔ ∃ b, memoryDescriptor g a true = (.success, some b) ∧ P b.st)) ∧
  ∀ d ∈ l, ∀ a, a < g.max → d.base ≤ a → a < d.base + d.len → ∃ b, memoryDescriptor g a true = (.success, some b) ∧ b.st = d.st

variable {nodeSize : Nat} {g : Gcd}

theorem lists_filter (hr : Reachable nodeSize g) (hne : g.blocks ≠ []) (p : Cell → Bool) : Lists g (fun c => p c = true) (g.blocks.filter fun b => p b.st) := by
  refine ⟨fun a ha => ?_, fun d hd a ha h1 h2 => ?_⟩
  · obtain ⟨b, e, hb, b1, b2, _, hu⟩ := descriptor_serves hr hne ha
    constructor
    · rintro ⟨d, hd, h1, h2⟩
      obtain ⟨hm, hp⟩ := List.mem_filter.1 hd
      exact ⟨b, e, by rw [← hu d hm h1 h2]; exact hp⟩
    · rintro ⟨b', e', hp⟩
      rw [e] at e'
      cases e'
      exact ⟨b, List.mem_filter.2 ⟨hb, hp⟩, b1, b2⟩
  · obtain ⟨b, e, _, _, _, _, hu⟩ := descriptor_serves hr hne ha
    exact ⟨b, e, (hu d (List.mem_filter.1 hd).1 h1 h2).symm⟩

/-- The first listing gives exactly what is allocated. -/
theorem allocated_listed (hr : Reachable nodeSize g) (hne : g.blocks ≠ []) (h0 : g.max ≠ 0) {capacity : Nat} (hc : g.blocks.length ≤ capacity) :
    ∃ l, allocated g capacity = .ok l ∧ Lists g (fun c => c.allocated = true) l := by
  refine ⟨_, ?_, lists_filter hr hne fun c => c.allocated⟩
  unfold allocated
  rw [if_neg h0, if_neg (by omega)]

/-- The second gives exactly the memory-mapped I/O and the reserved memory that is not allocated. -/
theorem mmio_listed (hr : Reachable nodeSize g) (hne : g.blocks ≠ []) (h0 : g.max ≠ 0) :
    ∃ l, mmioAndReserved g = .ok l ∧ Lists g (fun c => c.allocated = false ∧ (c.type = .memoryMappedIo ∨ c.type = .reserved)) l := by
  refine ⟨_, by unfold mmioAndReserved; rw [if_neg h0], ?_⟩
  have := lists_filter hr hne fun c => c.allocated == false && (c.type == .memoryMappedIo || c.type == .reserved)
  simpa only [Bool.and_eq_true, Bool.or_eq_true, beq_iff_eq] using this

/-- Nothing is in both, so that no page is mapped twice. -/
theorem listings_apart {capacity : Nat} {l l' : List (Block Cell)} (h : allocated g capacity = .ok l) (h' : mmioAndReserved g = .ok l') : ∀ d ∈ l, d ∉ l' := by
  unfold allocated at h
  unfold mmioAndReserved at h'
  repeat' split at h
  all_goals first | cases h | skip
  split at h'
  · cases h'
  · cases h'
    intro d hd hd'
    have h1 := (List.mem_filter.1 hd).2
    have h2 := (List.mem_filter.1 hd').2
    rw [h1] at h2
    simp at h2

example : ∃ l, allocated demoGcd 100 = .ok l ∧ Lists demoGcd (fun c => c.allocated = true) l := allocated_listed demo_reachable (by decide +kernel) (by decide +kernel) (by decide +kernel)
example : ∃ l, mmioAndReserved demoGcd = .ok l ∧ Lists demoGcd (fun c => c.allocated = false ∧ (c.type = .memoryMappedIo ∨ c.type = .reserved)) l :=
  mmio_listed demo_reachable (by decide +kernel) (by decide +kernel)
example : ∃ b l, allocated demoGcd 100 = .ok (b :: l) := by
  refine ⟨(demoGcd.blocks.filter fun b => b.st.allocated).head (by decide +kernel), (demoGcd.blocks.filter fun b => b.st.allocated).tail, by decide +kernel⟩

end Verif.Gcd.Listing
