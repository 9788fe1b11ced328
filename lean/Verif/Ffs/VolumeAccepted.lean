import Verif.Ffs.VolumeRobust
/-! What a volume that the parser accepts looks like, byte by byte. -/
namespace Verif.Ffs

/-- An accepted volume bears the signature `_FVH` and one of the two file system GUIDs. -/
theorem volume_accepted_bytes {b : List UInt8} {v : VolumeRef} (h : VolumeRef.new b = .ok v) :
    56 ≤ b.length ∧ (b.drop 40).take 4 = [0x5F, 0x46, 0x56, 0x48] ∧
      ((b.drop 16).take 16 = [0x78, 0xe5, 0x8c, 0x8c, 0x3d, 0x8a, 0x1c, 0x4f, 0x99, 0x35, 0x89, 0x61, 0x85, 0xc3, 0x2d, 0xd3] ∨
       (b.drop 16).take 16 = [0x7a, 0xc0, 0x73, 0x54, 0xcb, 0x3d, 0xca, 0x4d, 0xbd, 0x6f, 0x1e, 0x96, 0x89, 0xe7, 0x34, 0x9a]) := by
  have he : headerError b = none := by
    unfold VolumeRef.new at h
    split at h
    · cases h
    · assumption
  obtain ⟨c1, c2, _, _, _, _, _, c8, _⟩ := headerError_inv he
  refine ⟨by omega, ?_, ?_⟩
  · have e : rd b 40 4 = SIGNATURE := Decidable.of_not_not c2
    have := leBytes_rd (b := b) (i := 40) (n := 4) (by omega)
    rw [e] at this
    exact this.symm.trans (by decide)
  · have := leBytes_rd (b := b) (i := 16) (n := 16) (by omega)
    by_cases e : rd b 16 16 = FFS2
    · rw [e] at this
      exact .inl (this.symm.trans (by decide +kernel))
    · have e' : rd b 16 16 = FFS3 := Decidable.of_not_not fun hn => c8 ⟨e, hn⟩
      rw [e'] at this
      exact .inr (this.symm.trans (by decide +kernel))

example : ((tinyVolume 96 zeroSizeFile).drop 40).take 4 = [0x5F, 0x46, 0x56, 0x48] := by
  obtain ⟨v, hv, _⟩ := zero_size_file_hangs
  exact (volume_accepted_bytes hv).2.1

end Verif.Ffs
