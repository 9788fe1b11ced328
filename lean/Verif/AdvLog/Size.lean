import Verif.AdvLog.Props
/-! How much of the log an entry takes. -/
namespace Verif.AdvLog

/-- C29: an entry takes up its 24 bytes of header and its text, rounded up to the next multiple of 8 and not further. -/
theorem entry_size_exact (e : Entry) :
    (encode e).length = e.size ∧ e.size % 8 = 0 ∧ 24 + e.data.length ≤ e.size ∧ e.size < 24 + e.data.length + 8 := by
  have h : headerSize = 24 := by decide
  have hs : e.size = (24 + e.data.length + 7) / 8 * 8 := by unfold Entry.size align8; rw [h]
  refine ⟨?_, by omega, by omega, by omega⟩
  unfold encode encodeHeader
  simp only [List.length_append, leBytes_length, List.length_replicate, h]
  omega

example : (encode ⟨1, 2, 3, List.replicate 8 65⟩).length = 32 := by decide

end Verif.AdvLog
