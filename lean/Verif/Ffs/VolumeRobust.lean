import Verif.Ffs.VolumeMore
/-!
C40 for volumes: parsing any bytes, listing the files.
-/
namespace Verif.Ffs

theorem parseExt_ne_panic (b : List UInt8) (off : Nat) : parseExt b off ≠ .panic := by
  unfold parseExt; split
  · simp
  · split
    · simp
    · split <;> simp

theorem parseBlockMap_ne_panic (b : List UInt8) : parseBlockMap b ≠ .panic := by
  unfold parseBlockMap; split
  · simp
  · split
    · simp
    · split
      · simp
      · split <;> simp

theorem alignedStart_inv {n a : Nat} (hn : n + 8 < 2 ^ 64) (h : alignedStart n = .ok a) : n ≤ a ∧ a < n + 8 ∧ a % 8 = 0 := by
  unfold alignedStart at h
  obtain ⟨r, h1, h2, h3, h4⟩ := alignUp8 hn
  rw [h1] at h
  injection h with h
  omega

/-- C40, volumes. No bytes make the volume parser panic. -/
theorem volume_parse_no_panic (b : List UInt8) : VolumeRef.new b ≠ .panic := by
  unfold VolumeRef.new
  split
  · simp
  · cases h1 : parseExt b (rd b 52 2) with
    | err e => simp
    | panic => exact absurd h1 (parseExt_ne_panic _ _)
    | ok ext =>
      simp only [Outcome.ok_bind]
      cases h2 : parseBlockMap (slice b 56 (rd b 48 2 - 56)) with
      | err e => simp
      | panic => exact absurd h2 (parseBlockMap_ne_panic _)
      | ok bm =>
        simp only [Outcome.ok_bind]
        cases h3 : alignedStart (filesStart (rd b 48 2) (rd b 52 2) ext) with
        | err e => simp
        | panic =>
          unfold alignedStart at h3
          split at h3 <;> cases h3
        | ok co => simp

theorem ifSome {c : Prop} [Decidable c] {e : FfsError} {x : Option FfsError}
    (h : (if c then some e else x) = none) : ¬ c ∧ x = none := by
  by_cases hc : c
  · rw [if_pos hc] at h; cases h
  · rw [if_neg hc] at h; exact ⟨hc, h⟩

theorem headerError_inv {b : List UInt8} (h : headerError b = none) :
    ¬ b.length < 56 ∧ ¬ rd b 40 4 ≠ SIGNATURE ∧ ¬ rd b 48 2 < 56 ∧ ¬ rd b 48 2 > b.length ∧ ¬ rd b 48 2 % 2 ≠ 0 ∧
      ¬ sum16 (b.take (rd b 48 2)) ≠ 0 ∧ ¬ rd b 55 1 < 2 ∧ ¬ (rd b 16 16 ≠ FFS2 ∧ rd b 16 16 ≠ FFS3) ∧
      ¬ rd b 32 8 < rd b 48 2 ∧ ¬ rd b 32 8 > b.length ∧ ¬ rd b 52 2 > rd b 32 8 := by
  unfold headerError at h
  obtain ⟨c1, h⟩ := ifSome h
  obtain ⟨c2, h⟩ := ifSome h
  obtain ⟨c3, h⟩ := ifSome h
  obtain ⟨c4, h⟩ := ifSome h
  obtain ⟨c5, h⟩ := ifSome h
  obtain ⟨c6, h⟩ := ifSome h
  obtain ⟨c7, h⟩ := ifSome h
  obtain ⟨c8, h⟩ := ifSome h
  obtain ⟨c9, h⟩ := ifSome h
  obtain ⟨c10, h⟩ := ifSome h
  obtain ⟨c11, h⟩ := ifSome h
  exact ⟨c1, c2, c3, c4, c5, c6, c7, c8, c9, c10, c11⟩

/-- What a parsed volume satisfies. -/
theorem volumeRef_inv {b : List UInt8} {v : VolumeRef} (h : VolumeRef.new b = .ok v) (hb : b.length < 2 ^ 63) :
    v.data = b ∧ 56 ≤ b.length ∧ v.length ≤ b.length ∧ (v.guid = FFS2 ∨ v.guid = FFS3) ∧ 2 ≤ v.revision ∧
      v.blockMap ≠ [] ∧ noBlocks ∉ v.blockMap ∧ sum16 (b.take (rd b 48 2)) = 0 ∧
      (∀ e, v.ext = some e → v.extOffset + 20 ≤ b.length ∧ v.extOffset + e.size ≤ b.length) ∧
      v.contentOffset < b.length + 8 ∧ v.contentOffset % 8 = 0 := by
  unfold VolumeRef.new at h
  split at h
  · cases h
  · rename_i hne
    cases h1 : parseExt b (rd b 52 2) with
    | err e => rw [h1] at h; cases h
    | panic => rw [h1] at h; cases h
    | ok ext =>
      rw [h1] at h
      simp only [Outcome.ok_bind] at h
      cases h2 : parseBlockMap (slice b 56 (rd b 48 2 - 56)) with
      | err e => rw [h2] at h; cases h
      | panic => rw [h2] at h; cases h
      | ok bm =>
        rw [h2] at h
        simp only [Outcome.ok_bind] at h
        cases h3 : alignedStart (filesStart (rd b 48 2) (rd b 52 2) ext) with
        | err e => rw [h3] at h; cases h
        | panic => rw [h3] at h; cases h
        | ok co =>
          rw [h3] at h
          simp only [Outcome.ok_bind] at h
          injection h with h
          subst h
          have hext : ∀ e, ext = some e → rd b 52 2 + 20 ≤ b.length ∧ rd b 52 2 + e.size ≤ b.length := by
            intro e he
            unfold parseExt at h1
            split at h1
            · injection h1 with h1; rw [← h1] at he; cases he
            · split at h1
              · cases h1
              · split at h1
                · cases h1
                · injection h1 with h1
                  rw [← h1] at he
                  injection he with he
                  subst he
                  exact ⟨by omega, by simp only []; omega⟩
          have hbm : bm ≠ [] ∧ noBlocks ∉ bm := by
            unfold parseBlockMap at h2
            split at h2
            · cases h2
            · split at h2
              · cases h2
              · split at h2
                · cases h2
                · split at h2
                  · cases h2
                  · injection h2 with h2
                    subst h2
                    exact ⟨by assumption, by assumption⟩
          obtain ⟨c1, c2, c3, c4, c5, c6, c7, c8, c9, c10, c11⟩ := headerError_inv hne
          have hst : filesStart (rd b 48 2) (rd b 52 2) ext ≤ b.length := by
            cases ext with
            | none => simp only [filesStart]; omega
            | some e => exact (hext e rfl).2
          have := alignedStart_inv (by omega) h3
          refine ⟨rfl, by omega, by simp only []; omega, ?_, by simp only []; omega, hbm.1, hbm.2,
            by simpa using c6, hext, by simp only []; omega, this.2.2⟩
          simp only []
          apply Classical.byContradiction
          intro hx
          exact c8 ⟨fun h => hx (Or.inl h), fun h => hx (Or.inr h)⟩

/-- C40, volumes. `ext_header()` panics exactly when the extended header states a size below its own 20 bytes;
otherwise its data is a piece of the input. -/
theorem ext_header_panics_iff (v : VolumeRef) :
    (v.extHeader = .panic ↔ ∃ e, v.ext = some e ∧ e.size < 20) ∧
    (∀ e data, v.extHeader = .ok (some (e, data)) → Within data v.data ∧ v.ext = some e) := by
  unfold VolumeRef.extHeader
  constructor
  · cases he : v.ext with
    | none => simp
    | some e => simp only [Option.some.injEq, exists_eq_left']; split <;> simp <;> omega
  · intro e data hh
    cases he : v.ext with
    | none => rw [he] at hh; cases hh
    | some e' =>
      rw [he] at hh
      simp only [] at hh
      split at hh
      · cases hh
      · cases hh
        exact ⟨slice_within, rfl⟩

/-- C40, volumes. Starting to list the files panics exactly when the aligned start of the files lies behind the end of
the input. -/
theorem files_start_panics_iff (v : VolumeRef) : v.iter = .panic ↔ v.data.length < v.contentOffset := by
  unfold VolumeRef.iter
  split <;> simp_all

/-- `it'` is reached from `it` by taking `n` items. -/
inductive Reaches : Nat → FIter → FIter → Prop
  | refl (it : FIter) : Reaches 0 it it
  | step {n : Nat} {it it' it'' : FIter} {r : Except FfsError FileRef} :
    it.step = .item r it' → Reaches n it' it'' → Reaches (n + 1) it it''

/-- What a step can do: end, an error item after which the iterator is finished, a file that begins at the current
position, or a panic inside the file parser. -/
theorem step_inv {it : FIter} (hl : it.data.length + 8 < 2 ^ 64) :
    it.step = .done ∨ it.step = .panic ∨
    (∃ e, it.step = .item (.error e) { it with error := true }) ∨
    (∃ f n, it.step = .item (.ok f) { it with next := n } ∧ it.error = false ∧ it.next + 24 ≤ it.data.length ∧
      FileRef.new (it.data.drop it.next) = .ok f ∧ it.next + f.size ≤ n ∧ n < it.next + f.size + 8 ∧ n % 8 = 0) := by
  unfold FIter.step
  split
  · simp
  · split
    · simp
    · split
      · simp
      · split
        · simp
        · cases hf : FileRef.new (it.data.drop it.next) with
          | panic => simp
          | err e => simp
          | ok f =>
            rename_i h1 h2 h3 h4
            right; right; right
            simp only [FIter.advance]
            obtain ⟨i1, i2, i3, _⟩ := fileRef_inv hf
            rw [List.length_drop] at i3
            obtain ⟨n, a1, a2, a3, a4⟩ := alignUp8 (n := it.next + f.size) (by omega)
            rw [a1]
            refine ⟨f, n, rfl, by simpa using h1, ?_, rfl, a2, a4, a3⟩
            rw [List.length_drop] at h3; omega

theorem step_same_data {it it' : FIter} {r : Except FfsError FileRef} (hl : it.data.length + 8 < 2 ^ 64)
    (h : it.step = .item r it') : it'.data = it.data ∧ it'.erase = it.erase := by
  rcases step_inv hl with h1 | h1 | ⟨e, h1⟩ | ⟨f, n, h1, _⟩
  · rw [h1] at h; cases h
  · rw [h1] at h; cases h
  · rw [h1] at h; cases h; exact ⟨rfl, rfl⟩
  · rw [h1] at h; cases h; exact ⟨rfl, rfl⟩

theorem drain_error {it : FIter} (h : it.error = true) (n : Nat) : it.drain (n + 1) = some (.ok []) := by
  unfold FIter.drain FIter.step
  rw [h]; simp

/-- Draining ends within `length + 2` calls unless a file of size 0 is met. -/
theorem drain_ends (m : Nat) : ∀ it : FIter, it.data.length + 8 < 2 ^ 64 → it.data.length + 1 - it.next ≤ m →
    (∃ r, it.drain (m + 2) = some r) ∨
    (∃ n it' f, Reaches n it it' ∧ it'.step = .item (.ok f) { it' with next := it'.next } ∧ f.size = 0) ∨
    (it.next % 8 ≠ 0) := by
  induction m with
  | zero =>
    intro it hl hm
    left
    refine ⟨.ok [], ?_⟩
    unfold FIter.drain FIter.step
    split
    · rename_i h; split at h
      · rfl
      · rfl
    · rename_i h; split at h
      · cases h
      · rw [if_pos (by omega)] at h; cases h
    · rename_i h; split at h
      · cases h
      · rw [if_pos (by omega)] at h; cases h
  | succ m ih =>
    intro it hl hm
    by_cases h8 : it.next % 8 ≠ 0
    · exact Or.inr (Or.inr h8)
    rcases step_inv hl with h1 | h1 | ⟨e, h1⟩ | ⟨f, n, h1, he, h24, hf, hn1, hn2, hn3⟩
    · left; refine ⟨.ok [], ?_⟩; unfold FIter.drain; rw [h1]
    · left; refine ⟨.panic, ?_⟩; unfold FIter.drain; rw [h1]
    · left
      refine ⟨.ok [.error e], ?_⟩
      exact drain_cons h1 (drain_error rfl _)
    · by_cases h0 : f.size = 0
      · right; left
        have : n = it.next := by omega
        subst this
        exact ⟨0, it, f, .refl it, h1, h0⟩
      · have hlt : it.next < n := by omega
        rcases ih { it with next := n } hl (by simp only []; omega) with ⟨r, hr⟩ | ⟨k, it', g, hk, hs, hg⟩ | hx
        · left
          cases r with
          | ok rs => exact ⟨_, drain_cons h1 hr⟩
          | panic => refine ⟨.panic, ?_⟩; unfold FIter.drain; rw [h1]; simp only [hr]
          | err e => refine ⟨.err e, ?_⟩; unfold FIter.drain; rw [h1]; simp only [hr]
        · right; left
          exact ⟨k + 1, it', g, .step h1 hk, hs, hg⟩
        · exact absurd hn3 hx

theorem reaches_drain {n : Nat} {it it' : FIter} (h : Reaches n it it') (hd : ∀ fuel, it'.drain fuel = none) :
    ∀ fuel, it.drain fuel = none := by
  induction h with
  | refl => exact hd
  | step hs _ ih =>
    intro fuel
    cases fuel with
    | zero => rfl
    | succ k => unfold FIter.drain; rw [hs]; simp only [ih hd k]

theorem loop_forever {it : FIter} {f : FileRef} (h : it.step = .item (.ok f) { it with next := it.next }) :
    ∀ fuel, it.drain fuel = none := by
  intro fuel
  induction fuel with
  | zero => rfl
  | succ k ih =>
    unfold FIter.drain
    rw [h]
    simp only [ih]

/-- C40, volumes. Listing the files of a volume never ends exactly when the listing meets a file that states size 0.
Otherwise it ends after at most `length + 3` calls. -/
theorem files_hang_iff (b : List UInt8) (v : VolumeRef) (it : FIter) (h : VolumeRef.new b = .ok v)
    (hb : b.length < 2 ^ 63) (hi : v.iter = .ok it) :
    ((∀ fuel, v.files fuel = none) ↔
      ∃ n it' f it'', Reaches n it it' ∧ it'.step = .item (.ok f) it'' ∧ f.size = 0) ∧
    ((∃ fuel, v.files fuel ≠ none) → v.files (b.length + 3) ≠ none) := by
  obtain ⟨h1, _⟩ := volumeRef_inv h hb
  have hit : it = ⟨v.data.drop v.contentOffset, 0, eraseByte v.attributes, false⟩ := by
    unfold VolumeRef.iter at hi
    split at hi
    · cases hi
    · injection hi with hi; exact hi.symm
  have hlen : it.data.length ≤ b.length := by rw [hit]; simp only [List.length_drop]; rw [h1]; omega
  have hfiles : ∀ fuel, v.files fuel = none ↔ it.drain fuel = none := by
    intro fuel
    unfold VolumeRef.files
    rw [hi]
    simp only []
    cases hd : it.drain fuel with
    | none => simp
    | some r => cases r <;> simp
  have hreach : ∀ {n : Nat} {i i' : FIter}, Reaches n i i' → i.data.length + 8 < 2 ^ 64 → i.next % 8 = 0 →
      i'.data.length + 8 < 2 ^ 64 ∧ i'.next % 8 = 0 := by
    intro n i i' hr
    induction hr with
    | refl => exact fun a b => ⟨a, b⟩
    | step hs _ ih =>
      intro hl h8
      rcases step_inv hl with h1 | h1 | ⟨e, h1⟩ | ⟨f, n, h1, he, h24, hf, hn1, hn2, hn3⟩
      · rw [h1] at hs; cases hs
      · rw [h1] at hs; cases hs
      · rw [h1] at hs; cases hs; exact ih hl h8
      · rw [h1] at hs; cases hs; exact ih hl hn3
  have hz : it.next % 8 = 0 := by rw [hit]; rfl
  constructor
  · constructor
    · intro hall
      rcases drain_ends (it.data.length + 1) it (by omega) (by omega) with ⟨r, hr⟩ | ⟨n, it', f, a, b', c⟩ | hx
      · have := (hfiles _).1 (hall (it.data.length + 1 + 2))
        rw [hr] at this; cases this
      · exact ⟨n, it', f, _, a, b', c⟩
      · exact absurd hz hx
    · rintro ⟨n, it', f, it'', hr, hs, h0⟩ fuel
      rw [hfiles]
      obtain ⟨hl', h8'⟩ := hreach hr (by omega) hz
      refine reaches_drain hr (loop_forever (f := f) ?_) fuel
      rcases step_inv hl' with h1 | h1 | ⟨e, h1⟩ | ⟨g, n, h1, he, h24, hf, hn1, hn2, hn3⟩
      · rw [h1] at hs; cases hs
      · rw [h1] at hs; cases hs
      · rw [h1] at hs; cases hs
      · rw [h1] at hs
        injection hs with hs1 hs2
        injection hs1 with hs1
        subst hs1
        have : n = it'.next := by omega
        rw [h1, this]
  · rintro ⟨fuel, hne⟩ hnone
    rw [hfiles] at hnone
    rcases drain_ends (it.data.length + 1) it (by omega) (by omega) with ⟨r, hr⟩ | ⟨n, it', f, a, b', c⟩ | hx
    · have hk : b.length + 3 = it.data.length + 1 + 2 + (b.length - it.data.length) := by omega
      rw [hk, drain_mono hr] at hnone; cases hnone
    · exact hne ((hfiles fuel).2 (reaches_drain a (loop_forever b') fuel))
    · exact absurd hz hx

theorem drain_items (n : Nat) : ∀ (it : FIter) (rs : List (Except FfsError FileRef)), it.data.length + 8 < 2 ^ 64 →
    it.drain n = some (.ok rs) → ∀ f, .ok f ∈ rs → Within f.data it.data ∧
      ∃ o, FileRef.new (it.data.drop o) = .ok f := by
  induction n with
  | zero => intro it rs _ h; cases h
  | succ n ih =>
    intro it rs hl h f hf
    unfold FIter.drain at h
    cases hs : it.step with
    | done => rw [hs] at h; simp only [Option.some.injEq, Outcome.ok.injEq] at h; rw [← h] at hf; cases hf
    | panic => rw [hs] at h; simp at h
    | item r it' =>
      rw [hs] at h
      simp only [] at h
      cases hd : it'.drain n with
      | none => rw [hd] at h; cases h
      | some x =>
        cases x with
        | panic => rw [hd] at h; simp at h
        | err e => rw [hd] at h; simp at h
        | ok rs' =>
          rw [hd] at h
          simp only [Option.some.injEq, Outcome.ok.injEq] at h
          rw [← h] at hf
          have hsd := step_same_data hl hs
          rcases List.mem_cons.1 hf with hf | hf
          · subst hf
            rcases step_inv hl with h1 | h1 | ⟨e, h1⟩ | ⟨g, n, h1, he, h24, hg, hn1, hn2, hn3⟩
            · rw [h1] at hs; cases hs
            · rw [h1] at hs; cases hs
            · rw [h1] at hs; cases hs
            · rw [h1] at hs
              injection hs with hs1 _
              injection hs1 with hs1
              subst hs1
              obtain ⟨⟨rest, hr⟩, _⟩ := file_within _ _ hg
              refine ⟨Within.trans ⟨[], rest, by rw [hr]; simp⟩ (within_drop it.data it.next), it.next, hg⟩
          · have := ih it' rs' (by rw [hsd.1]; exact hl) hd f hf
            rw [hsd.1] at this
            exact this

/-- C40, volumes. Every file that is listed is a piece of the input. -/
theorem files_within (b : List UInt8) (v : VolumeRef) (h : VolumeRef.new b = .ok v) (hb : b.length < 2 ^ 63)
    (fuel : Nat) (items : List (Except FfsError FileRef)) (hf : v.files fuel = some (.ok items)) :
    ∀ f, .ok f ∈ items → Within f.data b := by
  intro f hm
  obtain ⟨h1, _⟩ := volumeRef_inv h hb
  unfold VolumeRef.files at hf
  cases hi : v.iter with
  | panic => rw [hi] at hf; simp at hf
  | err e => rw [hi] at hf; simp at hf
  | ok it =>
    rw [hi] at hf
    simp only [] at hf
    cases hd : it.drain fuel with
    | none => rw [hd] at hf; cases hf
    | some x =>
      cases x with
      | panic => rw [hd] at hf; simp at hf
      | err e => rw [hd] at hf; simp at hf
      | ok rs =>
        rw [hd] at hf
        simp only [Option.some.injEq, Outcome.ok.injEq] at hf
        rw [← hf] at hm
        have hmem := (List.mem_filter.1 hm).1
        have hit : it.data = b.drop v.contentOffset := by
          unfold VolumeRef.iter at hi
          split at hi
          · cases hi
          · injection hi with hi; rw [← hi, h1]
        have := (drain_items fuel it rs (by rw [hit, List.length_drop]; omega) hd f hmem).1
        rw [hit] at this
        exact this.trans (within_drop _ _)

/-- A minimal volume header in front of `rest`: length field `len`, one block entry. -/
def tinyVolume (len : Nat) (rest : List UInt8) : List UInt8 :=
  volumeHeader FFS2 0x800 len 72
    (0 - (sum16 (volumeHeader FFS2 0x800 len 72 0 0 ++ blockBytes [⟨1, 4096⟩]))).toNat 0 ++
    (blockBytes [⟨1, 4096⟩] ++ rest)

/-- The parser accepts these bytes and listing the files gives a list of this length within `fuel` calls. -/
def listsFiles (b : List UInt8) (fuel n : Nat) : Bool :=
  match VolumeRef.new b with
  | .ok v =>
    match v.files fuel with
    | some (.ok items) => items.length == n
    | _ => false
  | _ => false

/-- Finding: a volume that holds a file of stated size 0 makes every listing of its files run forever. -/
theorem zero_size_file_hangs :
    ∃ v, VolumeRef.new (tinyVolume 96 zeroSizeFile) = .ok v ∧ ∀ fuel, v.files fuel = none := by
  have hv : ∃ v, VolumeRef.new (tinyVolume 96 zeroSizeFile) = .ok v ∧ v.contentOffset = 72 ∧ v.attributes = 0x800 := by
    cases h : VolumeRef.new (tinyVolume 96 zeroSizeFile) with
    | ok v =>
      refine ⟨v, rfl, ?_⟩
      have : (match VolumeRef.new (tinyVolume 96 zeroSizeFile) with
        | .ok v => v.contentOffset == 72 && v.attributes == 0x800 | _ => false) = true := by decide +kernel
      rw [h] at this
      simpa using this
    | err e =>
      have : (match VolumeRef.new (tinyVolume 96 zeroSizeFile) with | .ok _ => true | _ => false) = true := by
        decide +kernel
      rw [h] at this; cases this
    | panic =>
      have : (match VolumeRef.new (tinyVolume 96 zeroSizeFile) with | .ok _ => true | _ => false) = true := by
        decide +kernel
      rw [h] at this; cases this
  obtain ⟨v, hv, hco, hat⟩ := hv
  have hlen : (tinyVolume 96 zeroSizeFile).length = 96 := by decide +kernel
  have hd := (volumeRef_inv hv (by rw [hlen]; decide)).1
  have hdrop : (tinyVolume 96 zeroSizeFile).drop 72 = zeroSizeFile := by decide +kernel
  have hiter : v.iter = .ok ⟨zeroSizeFile, 0, 0xff, false⟩ := by
    unfold VolumeRef.iter
    rw [hd, hco, hat, hlen, hdrop, if_neg (by decide)]
    rfl
  refine ⟨v, hv, ((files_hang_iff _ v _ hv (by rw [hlen]; decide) hiter).1).2 ?_⟩
  exact ⟨0, _, _, _, .refl _, rfl, rfl⟩

/-- A complete empty file of 24 bytes. -/
def emptyFile : List UInt8 := (File.mk 7 0x07 0 true []).header []

/-- Finding: the listing does not stop at the end of the volume. This volume says that it ends after its first file
(96 bytes), the file behind it is listed as well. -/
theorem lists_beyond_volume :
    (tinyVolume 96 emptyFile).length = 96 ∧ listsFiles (tinyVolume 96 emptyFile) 10 1 = true ∧
    listsFiles (tinyVolume 96 (emptyFile ++ emptyFile)) 10 2 = true := by decide +kernel

/-- Finding: an extended header at the end of the input whose end is not a multiple of 8 makes listing the files
panic; one that states a size below 20 makes `ext_header()` panic. -/
theorem volume_accessors_panic :
    (∃ b v, VolumeRef.new b = .ok v ∧ v.iter = .panic) ∧ (∃ b v, VolumeRef.new b = .ok v ∧ v.extHeader = .panic) := by
  have key : ∀ (b : List UInt8) (p : VolumeRef → Bool),
      (match VolumeRef.new b with | .ok v => p v | _ => false) = true → ∃ v, VolumeRef.new b = .ok v ∧ p v = true := by
    intro b p h
    cases hv : VolumeRef.new b with
    | ok v => rw [hv] at h; exact ⟨v, rfl, h⟩
    | err e => rw [hv] at h; cases h
    | panic => rw [hv] at h; cases h
  let vol : Nat → Nat → List UInt8 := fun size len =>
    volumeHeader FFS2 0x800 len 72
      (0 - (sum16 (volumeHeader FFS2 0x800 len 72 0 72 ++ blockBytes [⟨1, 4096⟩]))).toNat 72 ++
      (blockBytes [⟨1, 4096⟩] ++ (leBytes 16 5 ++ (leBytes 4 size ++ List.replicate (len - 92) 0)))
  constructor
  · obtain ⟨v, hv, hp⟩ := key (vol 21 93) (fun v => decide (v.data.length < v.contentOffset)) (by decide +kernel)
    exact ⟨_, v, hv, (files_start_panics_iff v).2 (by simpa using hp)⟩
  · obtain ⟨v, hv, hp⟩ := key (vol 19 96) (fun v => match v.ext with | some e => decide (e.size < 20) | none => false)
      (by decide +kernel)
    refine ⟨_, v, hv, (ext_header_panics_iff v).1.2 ?_⟩
    cases he : v.ext with
    | none => rw [he] at hp; cases hp
    | some e => rw [he] at hp; exact ⟨e, rfl, by simpa using hp⟩

end Verif.Ffs
