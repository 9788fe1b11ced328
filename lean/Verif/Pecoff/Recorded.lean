import Verif.Pecoff.RelocProps
/-!
C62: what relocation records for the operating system, and concrete images.
-/
namespace Verif.Pecoff
open Verif

/-- The entry with the value its field has in `out`; only 64-bit fixups are recorded. -/
def recordedEntry (rva page : Nat) (out : List UInt8) (q : Reloc) : Reloc :=
  { q with value := if q.typeAndOffset / 4096 = 10 then valueAt out (fieldOf rva page q).pos 8 else q.value }

theorem recordedEntry_congr {rva page : Nat} {o1 o2 : List UInt8} {q : Reloc} {ys : List Field}
    (ha : q.typeAndOffset / 4096 = 10 → ∀ y ∈ ys, (fieldOf rva page q).Apart y)
    (hr : ∀ j, (∀ y ∈ ys, ¬ y.Holds j) → o2[j]? = o1[j]?) :
    recordedEntry rva page o2 q = recordedEntry rva page o1 q := by
  unfold recordedEntry
  by_cases k : q.typeAndOffset / 4096 = 10
  · rw [if_pos k, if_pos k, valueAt_congr (b := o1)]
    intro j j1 j2
    refine hr j fun y hy => (ha k y hy).not_holds ⟨j1, ?_⟩
    have : (fieldOf rva page q).width = 8 := by simp [fieldOf, kindWidth, k]
    rw [this]
    exact j2
  · rw [if_neg k, if_neg k]

theorem width_pos {rva page : Nat} {q : Reloc} (k : q.typeAndOffset / 4096 = 10) :
    decide ((fieldOf rva page q).width ≠ 0) = true := by
  have : (fieldOf rva page q).width = 8 := by simp [fieldOf, kindWidth, k]
  rw [this]
  rfl

theorem relocEntries_records {dbg : Bool} {rva adj page : Nat} {bi : Nat} : ∀ (rs : List Reloc) (ri : Nat)
    (rs' : List Reloc) (img out : List UInt8), relocEntries dbg rva adj page [] bi ri rs img = (.ok rs', out) →
    img.length + rva ≤ W → ((rs.map (fieldOf rva page)).filter (·.width ≠ 0)).Pairwise Field.Apart →
    rs' = rs.map (recordedEntry rva page out) := by
  intro rs
  induction rs with
  | nil =>
    intro ri rs' img out h _ _
    simp only [relocEntries] at h
    cases h
    rfl
  | cons r rs ih =>
    intro ri rs' img out h hl hp
    simp only [relocEntries] at h
    have hpv : prevValue [] bi ri = none := rfl
    rw [hpv] at h
    rcases h1 : relocOne dbg rva adj page none r img with ⟨x, img1⟩
    rw [h1] at h
    cases x with
    | err e => cases h
    | panic => cases h
    | ok r1 =>
      simp only at h
      rcases h2 : relocEntries dbg rva adj page [] bi (ri + 1) rs img1 with ⟨y, img2⟩
      rw [h2] at h
      cases y with
      | err e => cases h
      | panic => cases h
      | ok rs1 =>
        cases h
        obtain ⟨a1, a2, a3, a4, a5⟩ := relocOne_ok h1 hl
        have hl1 : img1.length = img.length := by
          rw [a2]
          exact fold_length adj _ _ (entries_inside fun x hx => by
            rw [List.mem_singleton] at hx; subst hx; exact a1)
        have hsplit : ((r :: rs).map (fieldOf rva page)).filter (·.width ≠ 0) =
            (([r].map (fieldOf rva page)).filter (·.width ≠ 0)) ++ ((rs.map (fieldOf rva page)).filter (·.width ≠ 0)) := by
          have : (r :: rs) = [r] ++ rs := rfl
          rw [this, List.map_append, List.filter_append]
        rw [hsplit, List.pairwise_append] at hp
        obtain ⟨_, hp2, hp3⟩ := hp
        have e2 := ih (ri + 1) rs1 img1 _ h2 (by rw [hl1]; exact hl) hp2
        obtain ⟨b1, b2, b3⟩ := relocEntries_ok _ _ _ _ _ h2 (by rw [hl1]; exact hl)
        rw [List.map_cons, e2]
        congr 1
        have f3 := (foldl_fix adj _ img1 (entries_inside b1) hp2).2.2
        rw [← b2] at f3
        rw [recordedEntry_congr (o1 := img1) (fun k y hy => hp3 _ (by
            rw [List.mem_filter]; exact ⟨by simp, width_pos k⟩) y hy) f3]
        obtain ⟨ra, rb⟩ := r1
        unfold recordedEntry
        simp only at a3 a4 a5
        rw [a3]
        by_cases k : r.typeAndOffset / 4096 = 10
        · rw [if_pos k, a4 k trivial]
          have hw : (fieldOf rva page r).width = 8 := by simp [fieldOf, kindWidth, k]
          have hin := a1.inside' (by rw [hw]; decide)
          have hf : (([r].map (fieldOf rva page)).filter (·.width ≠ 0)) = [fieldOf rva page r] := by
            rw [List.map_cons, List.map_nil]
            exact List.filter_cons_of_pos (p := fun x : Field => decide (x.width ≠ 0)) (width_pos k)
          rw [hf, List.foldl_cons, List.foldl_nil] at a2
          have := fix_value (adj := adj) hin
          rw [← a2, hw] at this
          rw [this]
          rfl
        · rw [if_neg k, a5 k]

theorem relocBlocks_records {dbg : Bool} {rva adj : Nat} : ∀ (bs : List Block) (bi : Nat)
    (bs' : List Block) (img out : List UInt8), relocBlocks dbg rva adj [] bi bs img = (.ok bs', out) →
    img.length + rva ≤ W → (fieldsOf rva bs).Pairwise Field.Apart →
    bs' = bs.map (fun b => { b with relocs := b.relocs.map (recordedEntry rva b.pageRva out) }) := by
  intro bs
  induction bs with
  | nil =>
    intro bi bs' img out h _ _
    simp only [relocBlocks] at h
    cases h
    rfl
  | cons b bs ih =>
    intro bi bs' img out h hl hp
    simp only [relocBlocks] at h
    rcases h1 : relocEntries dbg rva adj b.pageRva [] bi 0 b.relocs img with ⟨x, img1⟩
    rw [h1] at h
    cases x with
    | err e => cases h
    | panic => cases h
    | ok rs1 =>
      simp only at h
      rcases h2 : relocBlocks dbg rva adj [] (bi + 1) bs img1 with ⟨y, img2⟩
      rw [h2] at h
      cases y with
      | err e => cases h
      | panic => cases h
      | ok bs1 =>
        cases h
        obtain ⟨a1, a2, a3⟩ := relocEntries_ok _ _ _ _ _ h1 hl
        have hl1 : img1.length = img.length := by
          rw [a2]
          exact fold_length adj _ _ (entries_inside a1)
        have hsplit : fieldsOf rva (b :: bs) =
            ((b.relocs.map (fieldOf rva b.pageRva)).filter (·.width ≠ 0)) ++ fieldsOf rva bs := by
          unfold fieldsOf; rw [List.flatMap_cons]
        rw [hsplit, List.pairwise_append] at hp
        obtain ⟨hp1, hp2, hp3⟩ := hp
        have e1 := relocEntries_records _ _ _ _ _ h1 hl hp1
        have e2 := ih (bi + 1) bs1 img1 _ h2 (by rw [hl1]; exact hl) hp2
        obtain ⟨b1, b2, b3⟩ := relocBlocks_ok _ _ _ _ _ h2 (by rw [hl1]; exact hl)
        have f3 := (foldl_fix adj _ img1 (fields_inside b1) hp2).2.2
        rw [← b2] at f3
        rw [List.map_cons, e2, e1]
        congr 2
        apply List.map_congr_left
        intro q hq
        exact (recordedEntry_congr (o1 := img1) (fun k y hy => hp3 _ (by
          rw [List.mem_filter]; exact ⟨List.mem_map_of_mem hq, width_pos k⟩) y hy) f3).symm

/-- **C62.** What is recorded about a relocated image: for every 64-bit fixup, the value its field now
holds. The blocks and entries are those of the directory. -/
theorem relocate_records (dbg : Bool) (info : PeInfo) (dest : Nat) (img out : List UInt8) (r : List Block)
    (bs : List Block) (lay : Layout info img bs) (hl : img.length + info.rvaOffset ≤ W)
    (h : relocateImage dbg info dest img [] = (.ok r, out))
    (moved : adjustment dest (valueAt img info.baseField.pos 8) info.rvaOffset ≠ 0) :
    r = bs.map (fun b => { b with relocs := b.relocs.map (recordedEntry info.rvaOffset b.pageRva out) }) := by
  obtain ⟨hb, ha⟩ := relocateImage_cases h
  change adjustment dest (valueAt img info.imageBaseFieldOffset 8) info.rvaOffset ≠ 0 at moved
  obtain ⟨p1, p2, p3⟩ := base_put (v := dest + W - info.rvaOffset) hb
  have hd : ((put img info.imageBaseFieldOffset (leBytes 8 (dest + W - info.rvaOffset))).drop info.dirField.pos).take
      info.dirField.width = (img.drop info.dirField.pos).take info.dirField.width :=
    slice_congr fun j j1 j2 => p2 j (lay.base_dir.symm.not_holds ⟨j1, j2⟩)
  unfold applyFixups at ha
  have li := lay.inside
  have le := lay.encodes
  rw [← hd] at le
  unfold PeInfo.dirField at li le
  cases hd : info.relocDir with
  | none =>
    rw [hd] at ha le
    simp only [List.take_zero] at le
    cases ha
    rw [encodes_nil le]
    rfl
  | some d =>
    rw [hd] at ha li le
    simp only at ha li le
    rw [if_neg moved, getRange_some.2 ⟨by rw [p1]; exact li, rfl⟩] at ha
    simp only at ha
    rw [(parse_iff _ _).2 le] at ha
    simp only at ha
    rw [if_neg (fun c => c.1 rfl)] at ha
    exact relocBlocks_records _ _ _ _ _ ha (by rw [p1]; exact hl) lay.apart

/-- The bytes recorded for an entry of the directory: what the image holds for a 64-bit fixup, four zero
bytes for a 32-bit one. -/
def recordedBytes (rva page : Nat) (out : List UInt8) (q : Reloc) : List UInt8 :=
  if q.typeAndOffset / 4096 = 10 then (out.drop (fieldOf rva page q).pos).take 8
  else if q.typeAndOffset / 4096 = 3 then [0, 0, 0, 0] else []

theorem mapM_some {α β : Type} (f : α → Option β) (g : α → β) : ∀ (l : List α), (∀ a ∈ l, f a = some (g a)) →
    l.mapM f = some (l.map g) := by
  intro l
  induction l with
  | nil => intro _; rfl
  | cons a l ih =>
    intro h
    rw [List.mapM_cons, h a List.mem_cons_self, ih fun x hx => h x (List.mem_cons_of_mem _ hx)]
    rfl

/-- **C62.** The flat record handed to the operating system: for every fixup in order, the bytes its
64-bit field holds. (Finding: 32-bit fixups are recorded as zero, not as the value they hold.) -/
theorem flatten_relocated (info : PeInfo) (img out : List UInt8) (bs : List Block)
    (lay : Layout info img bs) (hlen : out.length = img.length)
    (ok : ∀ b ∈ bs, ∀ r ∈ b.relocs, EntryOk info.rvaOffset img.length b.pageRva r) :
    flatten (bs.map (fun b => { b with relocs := b.relocs.map (recordedEntry info.rvaOffset b.pageRva out) })) =
      some (bs.flatMap fun b => b.relocs.flatMap (recordedBytes info.rvaOffset b.pageRva out)) := by
  have wf : ∀ b ∈ bs, b.Wf := by
    have : ∀ {d : List UInt8} {l : List Block}, Encodes d l → ∀ b ∈ l, b.Wf := by
      intro d l h
      induction h with
      | nil => intro b hb; exact (List.not_mem_nil hb).elim
      | last b pad w _ => intro c hc; rw [List.mem_singleton] at hc; subst hc; exact w
      | cons b pad rest l w _ _ ih =>
        intro c hc
        rcases List.mem_cons.1 hc with rfl | hc
        · exact w
        · exact ih c hc
    exact this lay.encodes
  unfold flatten
  have e1 : (bs.map (fun b => { b with relocs := b.relocs.map (recordedEntry info.rvaOffset b.pageRva out) })).flatMap (·.relocs) =
      bs.flatMap (fun b => b.relocs.map (recordedEntry info.rvaOffset b.pageRva out)) := by
    rw [List.flatMap_map]
  have key : ∀ (l : List Block), (∀ b ∈ l, b ∈ bs) →
      ((l.flatMap (fun b => b.relocs.map (recordedEntry info.rvaOffset b.pageRva out))).mapM flatReloc).map List.flatten =
      some (l.flatMap fun b => b.relocs.flatMap (recordedBytes info.rvaOffset b.pageRva out)) := by
    intro l
    induction l with
    | nil => intro _; rfl
    | cons b l ih =>
      intro hm
      have hb := hm b List.mem_cons_self
      have i := ih fun x hx => hm x (List.mem_cons_of_mem _ hx)
      have one : (b.relocs.map (recordedEntry info.rvaOffset b.pageRva out)).mapM flatReloc =
          some (b.relocs.map (recordedBytes info.rvaOffset b.pageRva out)) := by
        rw [List.mapM_map]
        apply mapM_some
        intro q hq
        have ek := ok b hb q hq
        have z := ((wf b hb).entries q hq).2
        show flatReloc (recordedEntry info.rvaOffset b.pageRva out q) = _
        unfold flatReloc recordedEntry recordedBytes
        simp only
        rcases ek.kind with k | k | k
        · rw [if_pos k, if_neg (by omega), if_neg (by omega)]
        · rw [if_neg (by omega), if_pos k, if_neg (by omega), if_neg (by omega), if_pos k, z]
          rfl
        · rw [if_neg (by omega), if_neg (by omega), if_pos k, if_pos k, if_pos k]
          congr 1
          have hw : (fieldOf info.rvaOffset b.pageRva q).width = 8 := by simp [fieldOf, kindWidth, k]
          have hin := ek.inside' (by rw [hw]; decide)
          rw [hw, ← hlen] at hin
          unfold valueAt
          have hl8 : ((out.drop (fieldOf info.rvaOffset b.pageRva q).pos).take 8).length = 8 := by
            rw [List.length_take, List.length_drop]; omega
          have := leBytes_leVal ((out.drop (fieldOf info.rvaOffset b.pageRva q).pos).take 8)
          rw [hl8] at this
          exact this
      rw [List.flatMap_cons, List.mapM_append, one]
      cases hx : (l.flatMap (fun b => b.relocs.map (recordedEntry info.rvaOffset b.pageRva out))).mapM flatReloc with
      | none => rw [hx] at i; cases i
      | some xs =>
        rw [hx] at i
        simp only [Option.map_some, Option.some.injEq] at i
        show some ((b.relocs.map (recordedBytes info.rvaOffset b.pageRva out) ++ xs).flatten) = _
        rw [List.flatten_append, i, List.flatMap_cons]
        congr 1
  rw [e1]
  exact key bs fun b hb => hb

/-! ### A concrete image -/

/-- Base field 0x1000, a 64-bit address 0x1020 at 8, a 32-bit address 0x1004 at 16, the directory at 24. -/
def demoImg : List UInt8 :=
  leBytes 8 0x1000 ++ leBytes 8 0x1020 ++ leBytes 4 0x1004 ++ [7, 7, 7, 7] ++
  [0, 0, 0, 0, 14, 0, 0, 0, 0x08, 0xA0, 0x10, 0x30, 0, 0, 0, 0] ++ [9, 9]

def demoPe : PeInfo :=
  { imageBaseFieldOffset := 0, sizeOfHeaders := 0, sections := [], relocDir := some ⟨24, 16⟩ }

def demoBs : List Block := [⟨0, 14, [⟨0xA008, 0⟩, ⟨0x3010, 0⟩, ⟨0, 0⟩]⟩]

theorem demo_layout : Layout demoPe demoImg demoBs where
  inside := by decide
  encodes := Encodes.last ⟨0, 14, [⟨0xA008, 0⟩, ⟨0x3010, 0⟩, ⟨0, 0⟩]⟩ [0, 0]
    ⟨by decide, by decide, by decide, by decide⟩ (by decide)
  base_dir := Or.inl (by decide)
  apart := by
    show List.Pairwise Field.Apart [⟨8, 8⟩, ⟨16, 4⟩]
    rw [List.pairwise_cons]
    exact ⟨fun y hy => by rw [List.mem_singleton] at hy; subst hy; exact Or.inl (by decide), List.pairwise_singleton _ _⟩
  base_apart := by
    show ∀ x ∈ [(⟨8, 8⟩ : Field), ⟨16, 4⟩], _
    intro x hx
    rcases List.mem_cons.1 hx with rfl | hx
    · exact Or.inr (by decide)
    · rw [List.mem_singleton] at hx; subst hx; exact Or.inr (by decide)
  dir_apart := by
    show ∀ x ∈ [(⟨8, 8⟩ : Field), ⟨16, 4⟩], _
    intro x hx
    rcases List.mem_cons.1 hx with rfl | hx
    · exact Or.inl (by decide)
    · rw [List.mem_singleton] at hx; subst hx; exact Or.inl (by decide)

/-- The demonstration image relocated to 0x5000, with what is recorded. -/
def demoOut : List UInt8 :=
  leBytes 8 0x5000 ++ leBytes 8 0x5020 ++ leBytes 4 0x5004 ++ [7, 7, 7, 7] ++
  [0, 0, 0, 0, 14, 0, 0, 0, 0x08, 0xA0, 0x10, 0x30, 0, 0, 0, 0] ++ [9, 9]

theorem demo_relocated : relocateImage true demoPe 0x5000 demoImg [] =
    (.ok [⟨0, 14, [⟨0xA008, 0x5020⟩, ⟨0x3010, 0⟩, ⟨0, 0⟩]⟩], demoOut) := by decide +kernel

/-- The hypotheses of `relocate_moves`, `relocate_pointer` and `relocate_records` are met. -/
example : valueAt demoOut 8 8 = (0x5000 + 0x20) % W :=
  relocate_pointer true demoPe 0x5000 demoImg demoOut [] _ demoBs demo_layout (by decide) demo_relocated ⟨8, 8⟩
    (by decide) rfl 0x20 (by decide +kernel)

/-- **Finding.** The driver stored its own value 0x77 in the field at 8. Relocating once more, with the
record that should protect the field, moves it all the same. -/
theorem changed_value_moved :
    (relocateImage true demoPe 0x9000 (put demoOut 8 (leBytes 8 0x77)) [⟨0, 14, [⟨0xA008, 0x5020⟩, ⟨0x3010, 0⟩, ⟨0, 0⟩]⟩]).1 =
      .ok [⟨0, 14, [⟨0xA008, 0⟩, ⟨0x3010, 0⟩, ⟨0, 0⟩]⟩] ∧
    valueAt (relocateImage true demoPe 0x9000 (put demoOut 8 (leBytes 8 0x77))
      [⟨0, 14, [⟨0xA008, 0x5020⟩, ⟨0x3010, 0⟩, ⟨0, 0⟩]⟩]).2 8 8 = 0x4077 := by decide +kernel

/-- **Finding.** An entry of any other kind (here 1, HIGH) panics instead of being refused. -/
theorem unknown_kind_panics :
    (relocateImage false demoPe 0x5000 (put demoImg 32 [0x08, 0x10]) []).1 = .panic := by decide +kernel

/-- **Finding.** The 32-bit address is recorded as zero although the image holds 0x5004. -/
theorem highlow_recorded_as_zero :
    flatten [⟨0, 14, [⟨0xA008, 0x5020⟩, ⟨0x3010, 0⟩, ⟨0, 0⟩]⟩] = some (leBytes 8 0x5020 ++ [0, 0, 0, 0]) ∧
    valueAt demoOut 16 4 = 0x5004 := by decide +kernel

end Verif.Pecoff
