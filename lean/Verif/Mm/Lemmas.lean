import Verif.Mm.Model
namespace Verif.Mm

theorem headerBytes_length (g : Guid) (n : Nat) : (headerBytes g n).length = HEADER := by
  simp [headerBytes, g.len, HEADER]

theorem copyAt_length (mem : List UInt8) (off : Nat) (s : List UInt8) (h : off + s.length ≤ mem.length) :
    (copyAt mem off s).length = mem.length := by
  simp [copyAt]; omega

/-- Memory laid out as header, payload, rest. -/
theorem copyAt_zero (mem : List UInt8) (s : List UInt8) : copyAt mem 0 s = s ++ mem.drop s.length := by
  simp [copyAt]

theorem verify_of_header (b : Buf) (g : Guid) (rest : List UInt8) (hr : b.recipient = some g)
    (hl : b.msgLen < 2 ^ 64) (hm : b.mem = headerBytes g b.msgLen ++ rest) : b.verify = .ok () := by
  have h1 := headerBytes_length g b.msgLen
  have hlen : ¬ b.mem.length < HEADER := by rw [hm, List.length_append, h1]; omega
  have ht : b.mem.take HEADER = headerBytes g b.msgLen := by rw [hm]; exact List.take_left' h1
  have hg : (headerBytes g b.msgLen).take 16 = g.bytes := List.take_left' g.len
  have hd : leVal ((headerBytes g b.msgLen).drop 16) = b.msgLen := by
    rw [headerBytes, List.drop_left' g.len]
    exact leVal_leBytes_of_lt hl
  simp [Buf.verify, Buf.expectedGuid, hlen, ht, hg, hd, hr]

theorem setMessage_mem (mem m : List UInt8) (g : Guid) (hc : HEADER + m.length ≤ mem.length) :
    copyAt (copyAt mem 0 (headerBytes g m.length)) HEADER m = headerBytes g m.length ++ m ++ mem.drop (HEADER + m.length) := by
  have hl := headerBytes_length g m.length
  rw [copyAt_zero, hl, copyAt, List.take_left' hl, ← List.drop_drop, List.drop_left' hl, List.drop_drop]

theorem verify_header {b : Buf} {g : Guid} (hr : b.recipient = some g) (h : b.verify = .ok ()) :
    b.mem.take HEADER = headerBytes g b.msgLen := by
  unfold Buf.verify at h
  split at h
  · cases h
  rename_i hl
  simp only [Buf.expectedGuid, hr] at h
  split at h
  · cases h
  rename_i hg
  split at h
  · cases h
  rename_i hn
  have hg := Decidable.of_not_not hg
  have hn := Decidable.of_not_not hn
  have h1 : (b.mem.take HEADER) = (b.mem.take HEADER).take 16 ++ (b.mem.take HEADER).drop 16 := (List.take_append_drop _ _).symm
  rw [h1, hg, headerBytes, ← hn]
  congr 1
  have h8 : ((b.mem.take HEADER).drop 16).length = 8 := by
    simp only [List.length_drop, List.length_take, HEADER] at *; omega
  have := leBytes_leVal ((b.mem.take HEADER).drop 16)
  rw [h8] at this
  exact this.symm

theorem verify_not_panic (b : Buf) : b.verify ≠ .panic := by
  unfold Buf.verify
  dsimp only
  by_cases h1 : b.mem.length < HEADER
  · rw [if_pos h1]; simp
  rw [if_neg h1]
  by_cases h2 : (b.mem.take HEADER).take 16 ≠ b.expectedGuid
  · rw [if_pos h2]; simp
  rw [if_neg h2]
  by_cases h3 : leVal ((b.mem.take HEADER).drop 16) ≠ b.msgLen
  · rw [if_pos h3]; simp
  rw [if_neg h3]; simp

theorem verify_len {b : Buf} (h : b.verify = .ok ()) : HEADER ≤ b.mem.length := by
  unfold Buf.verify at h
  split at h
  · cases h
  · omega

theorem getMessage_ok {b : Buf} (h : b.verify = .ok ()) : b.getMessage =
    if b.msgLen = 0 then .ok [] else if HEADER + b.msgLen > b.mem.length then .err .tooSmallForMessage
      else .ok ((b.mem.drop HEADER).take b.msgLen) := by
  simp [Buf.getMessage, h]

theorem getGuid_ok {b : Buf} (h : b.verify = .ok ()) : b.getGuid = .ok b.recipient := by
  simp [Buf.getGuid, h]

theorem onBuffer_spec {α : Type} (id : Nat) (f : Buf → α × Buf) (bs : List Buf) :
    (onBuffer id f bs = (none, bs) ∧ ∀ b ∈ bs, b.id ≠ id) ∨
    ∃ pre b post, bs = pre ++ b :: post ∧ (∀ x ∈ pre, x.id ≠ id) ∧ b.id = id ∧
      onBuffer id f bs = (some (f b).1, pre ++ (f b).2 :: post) := by
  induction bs with
  | nil => left; exact ⟨rfl, by simp⟩
  | cons b bs ih =>
    by_cases h : b.id = id
    · right
      exact ⟨[], b, bs, rfl, by simp, h, by simp [onBuffer, h]⟩
    · rcases ih with ⟨h1, h2⟩ | ⟨pre, x, post, h1, h2, h3, h4⟩
      · left
        refine ⟨by simp [onBuffer, h, h1], ?_⟩
        intro y hy
        rcases List.mem_cons.1 hy with rfl | hy
        · exact h
        · exact h2 y hy
      · right
        refine ⟨b :: pre, x, post, by simp [h1], ?_, h3, by simp [onBuffer, h, h4]⟩
        intro y hy
        rcases List.mem_cons.1 hy with rfl | hy
        · exact h
        · exact h2 y hy

end Verif.Mm
