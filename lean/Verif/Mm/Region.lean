import Verif.Mm.Props
/-! `CommunicateBuffer::from_firmware_region`, `/repo/components/patina_mm/src/config.rs` lines 246-290, and which regions become communicate buffers. -/
namespace Verif.Mm

/-- `from_firmware_region`, config.rs lines 267-290, where `usize` has 64 bits, so that every address converts (line 274). The memory found at the address is an argument, as for
`Buf.fromRaw`. -/
def Buf.fromRegion (addr : Nat) (mem : List UInt8) (id : Nat) : Outcome BufStatus Buf :=
  if addr + mem.length ≥ 2 ^ 64 then .err .addressValidationFailed
  else Buf.fromRaw addr mem id

/-- C42: a region of firmware memory becomes a buffer exactly if it has room for the 24 bytes of a header, is not at address zero, starts on a page and ends below the top of the
address space. The buffer then has the size and the number asked for, is all zero, and has no recipient and no message. -/
theorem region_accepted_iff (addr : Nat) (mem : List UInt8) (id : Nat) (b : Buf) :
    Buf.fromRegion addr mem id = .ok b ↔
      (24 ≤ mem.length ∧ addr ≠ 0 ∧ addr % 4096 = 0 ∧ addr + mem.length < 2 ^ 64) ∧ b = ⟨List.replicate mem.length 0, id, none, 0⟩ := by
  unfold Buf.fromRegion Buf.fromRaw HEADER
  constructor
  · intro h
    repeat' split at h
    all_goals first | cases h | skip
    exact ⟨⟨by omega, by assumption, by omega, by omega⟩, rfl⟩
  · rintro ⟨⟨h1, h2, h3, h4⟩, rfl⟩
    rw [if_neg (by omega), if_neg (by omega), if_neg h2, if_neg (by omega), if_neg (by omega)]
    rfl

/-- C42: the reason for a refusal. A region that wraps is refused as such, whatever else is wrong with it; then the size counts, then the address. -/
theorem region_refused (addr : Nat) (mem : List UInt8) (id : Nat) :
    (2 ^ 64 ≤ addr + mem.length → Buf.fromRegion addr mem id = .err .addressValidationFailed) ∧
    (addr + mem.length < 2 ^ 64 → mem.length < 24 → Buf.fromRegion addr mem id = .err .tooSmallForHeader) ∧
    (mem.length < 2 ^ 64 → 24 ≤ mem.length → addr = 0 → Buf.fromRegion addr mem id = .err .noBuffer) ∧
    (addr + mem.length < 2 ^ 64 → 24 ≤ mem.length → addr % 4096 ≠ 0 → Buf.fromRegion addr mem id = .err .notAligned) := by
  unfold Buf.fromRegion Buf.fromRaw HEADER
  refine ⟨fun h => ?_, fun h1 h2 => ?_, fun h1 h2 h3 => ?_, fun h1 h2 h3 => ?_⟩
  · rw [if_pos h]
  · rw [if_neg (by omega), if_pos h2]
  · rw [if_neg (by omega), if_neg (by omega), if_pos h3]
  · rw [if_neg (by omega), if_neg (by omega), if_neg (by intro h; rw [h] at h3; exact h3 rfl), if_pos h3]

/-- C42: raw parts and firmware regions are accepted alike. -/
theorem region_like_raw (addr : Nat) (mem : List UInt8) (id : Nat) (b : Buf) (hm : mem.length < 2 ^ 64) :
    Buf.fromRegion addr mem id = .ok b ↔ Buf.fromRaw addr mem id = .ok b := by
  constructor
  · intro h
    unfold Buf.fromRegion at h
    split at h
    · cases h
    · exact h
  · intro h
    have := (fromRaw_ok addr mem id b hm h).2.2.2.1
    unfold Buf.fromRegion
    rw [if_neg (by omega)]
    exact h

/-- C42: the capacity that a buffer states is exactly what it takes: after a recipient is set, a message is accepted if and only if it is no longer than that. -/
theorem capacity_exact (b : Buf) (g : Guid) (m : List UInt8) (hb : 24 ≤ b.mem.length) (hsz : b.mem.length < 2 ^ 64) (hold : b.msgLen < 2 ^ 64) :
    (b.setInfo g).1 = .ok () ∧ (b.setInfo g).2.capacity = b.capacity ∧ (((b.setInfo g).2.setMessage m).1 = .ok () ↔ m.length ≤ b.capacity) := by
  obtain ⟨h1, _, _, _, _⟩ := set_then_get b g [] (by simp only [HEADER, List.length_nil]; omega) hsz hold
  have hlen : (b.setInfo g).2.mem.length = b.mem.length := by
    unfold Buf.setInfo
    split
    · simp only [copyAt, headerBytes, List.length_append, List.length_take, List.length_drop, g.len, leBytes_length]
      omega
    · rfl
  refine ⟨h1, by unfold Buf.capacity; rw [hlen], fun h => ?_, fun h => ?_⟩
  · by_cases hx : b.mem.length < HEADER + m.length
    · have := (oversize_refused (b.setInfo g).2 m (by rw [hlen]; exact hx)).2
      rw [h] at this
      rcases this with h | h <;> cases h
    · unfold Buf.capacity
      omega
  · unfold Buf.capacity HEADER at h
    exact (set_then_get b g m (by simp only [HEADER]; omega) hsz hold).2.1

/-- C42: a buffer too small for the header says that it has no capacity. -/
theorem capacity_small (b : Buf) (h : b.mem.length ≤ 24) : b.capacity = 0 := by
  unfold Buf.capacity HEADER
  omega

example : (Buf.new (List.replicate 40 0) 0).capacity = 16 := by decide
example : ((Buf.new (List.replicate 40 0) 0).setInfo gA).1 = .ok () := (capacity_exact _ gA [] (by decide) (by decide) (by decide)).1
example : Buf.fromRegion 4096 (List.replicate 24 1) 3 = .ok ⟨List.replicate 24 0, 3, none, 0⟩ := (region_accepted_iff ..).2 ⟨by decide, rfl⟩
example : Buf.fromRegion (2 ^ 64 - 4096) (List.replicate 23 1) 3 = .err .tooSmallForHeader := (region_refused ..).2.1 (by decide) (by decide)
example : Buf.fromRegion 0 (List.replicate 24 1) 3 = .err .noBuffer := (region_refused ..).2.2.1 (by decide) (by decide) rfl
example : Buf.fromRegion (2 ^ 64 - 16) (List.replicate 16 1) 3 = .err .addressValidationFailed := (region_refused ..).1 (by decide)

end Verif.Mm
