import Verif.SdkBoot.Model
/-!
What the wrappers that return buffers give, and the global allocator.
-/
namespace Verif.SdkBoot

/-! ### The memory map -/

/-- Every descriptor has the size that the firmware reports. -/
def Map.Wf (m : Map) : Prop := ∀ d ∈ m.descriptors, d.length = m.size

theorem flatten_length {l : List (List UInt8)} {n : Nat} (h : ∀ d ∈ l, d.length = n) : l.flatten.length = l.length * n := by
  induction l with
  | nil => simp
  | cons a l ih =>
    rw [List.flatten_cons, List.length_append, h a (List.mem_cons_self ..), ih fun d hd => h d (List.mem_cons_of_mem _ hd), List.length_cons, Nat.add_mul, Nat.one_mul, Nat.add_comm]

/-- The buffer that is asked for. -/
def mapRoom (m : Map) : Nat := if 0 < m.descriptors.length * m.size then m.descriptors.length * m.size + 0x400 else 0

theorem get_zero (m : Map) : mapAsk m = mapRoom m := by
  unfold mapAsk Map.get mapRoom
  by_cases h : 0 < m.descriptors.length * m.size
  · rw [if_pos h, if_pos h]
  · rw [if_neg h, if_neg h]
    show m.descriptors.length * m.size = 0
    omega

/-- C106: if the map that the firmware has after the buffer is allocated fits, the call succeeds with the key and the version of that map, and the buffer has the bytes of its descriptors. What is missing:
`map_count_wrong`. -/
theorem map_read_partial {A : Allocator} {p : Pool} {m1 m2 : Map} {a : Nat} (ha : A p (mapRoom m1) = some a) (hf : m2.descriptors.length * m2.size ≤ mapRoom m1) :
    ∃ b p', getMemoryMap A p m1 m2 = (.ok b, p') ∧ b.address = a ∧ b.key = m2.key ∧ b.version = m2.version ∧ p'.live = (a, mapRoom m1) :: p.live ∧
      (m2.Wf → b.buffer.length = mapRoom m1 ∧ ∀ i (_ : i < m2.descriptors.length), (b.buffer.drop (m2.size * i)).take m2.size = m2.descriptors[i].map some) := by
  refine ⟨⟨a, m2.size, m2.descriptors.flatten.map some ++ List.replicate (mapRoom m1 - m2.descriptors.flatten.length) none, m2.key, m2.version⟩, { p with live := (a, mapRoom m1) :: p.live }, ?_, rfl, rfl, rfl, rfl, ?_⟩
  · unfold getMemoryMap
    simp only [get_zero]
    simp only [Pool.alloc, ha, Option.map_some]
    rw [show m2.get (mapRoom m1) = (m2.descriptors.length * m2.size, some m2.descriptors.flatten) by unfold Map.get; rw [if_neg (by omega)]]
  · intro hw
    have hl := flatten_length hw
    refine ⟨by simp only [List.length_append, List.length_map, List.length_replicate, hl]; omega, ?_⟩
    have key : ∀ (l : List (List UInt8)) (n : Nat) (tail : List (Option UInt8)), (∀ d ∈ l, d.length = n) → ∀ i (h : i < l.length), ((l.flatten.map some ++ tail).drop (n * i)).take n = l[i].map some := by
      intro l n tail
      induction l with
      | nil => intro _ i h; simp at h
      | cons d l ih =>
        intro hd i h
        have h0 := hd d (List.mem_cons_self ..)
        cases i with
        | zero =>
          simp only [Nat.mul_zero, List.drop_zero, List.flatten_cons, List.map_append, List.append_assoc, List.getElem_cons_zero]
          exact List.take_left' (by simpa using h0)
        | succ i =>
          simp only [List.flatten_cons, List.map_append, List.append_assoc, List.getElem_cons_succ]
          rw [show n * (i + 1) = (d.map some).length + n * i by simp [h0, Nat.mul_add, Nat.add_comm], ← List.drop_drop, List.drop_left]
          exact ih (fun x hx => hd x (List.mem_cons_of_mem _ hx)) i (by simpa using h)
    exact fun i hi => key _ _ _ hw i hi

/-- C106: the entries of the slice are the descriptors, as far as there are both, if the firmware uses descriptors of 40 bytes. -/
theorem map_entries_partial {A : Allocator} {p p' : Pool} {m1 m2 : Map} {b : MapBox} (h : getMemoryMap A p m1 m2 = (.ok b, p')) (hw : m2.Wf) (hs : m2.size = 40)
    {i : Nat} (hi : i < m2.descriptors.length) (hc : i < 40) : b.entry i = some (m2.descriptors[i].map some) := by
  cases ha : A p (mapRoom m1) with
  | none =>
    exfalso
    unfold getMemoryMap at h
    simp only [get_zero, Pool.alloc, ha, Option.map_none] at h
    cases h
  | some a =>
    by_cases hf : m2.descriptors.length * m2.size ≤ mapRoom m1
    · obtain ⟨b', p'', h', h1, _, _, _, h2⟩ := map_read_partial (m2 := m2) ha hf
      have hb : b'.count = m2.size := by
        unfold getMemoryMap at h'
        simp only [get_zero, Pool.alloc, ha, Option.map_some] at h'
        rw [show m2.get (mapRoom m1) = (m2.descriptors.length * m2.size, some m2.descriptors.flatten) by unfold Map.get; rw [if_neg (by omega)]] at h'
        simp only [Prod.mk.injEq, MapResult.ok.injEq] at h'
        rw [← h'.1]
      rw [h] at h'
      simp only [Prod.mk.injEq, MapResult.ok.injEq] at h'
      obtain ⟨rfl, rfl⟩ := h'
      obtain ⟨hl, he⟩ := h2 hw
      unfold MapBox.entry
      have : m2.size * (i + 1) ≤ m2.descriptors.length * m2.size := by rw [Nat.mul_comm]; exact Nat.mul_le_mul_right _ hi
      rw [hs] at this hf hb
      rw [if_pos ⟨by omega, by omega⟩]
      have := he i hi
      rw [hs] at this
      rw [this]
    · exfalso
      unfold getMemoryMap at h
      simp only [get_zero, Pool.alloc, ha, Option.map_some] at h
      rw [show m2.get (mapRoom m1) = (m2.descriptors.length * m2.size, none) by unfold Map.get; rw [if_pos (by omega)]] at h
      cases h

/-- The code does not meet the full property: the number of descriptors in the slice is not that of the map but the size of a descriptor in bytes, always. -/
theorem map_count_wrong {A : Allocator} {p p' : Pool} {m1 m2 : Map} {b : MapBox} (h : getMemoryMap A p m1 m2 = (.ok b, p')) : b.count = m2.size := by
  unfold getMemoryMap at h
  simp only [get_zero] at h
  cases ha : p.alloc A (mapRoom m1) with
  | none => rw [ha] at h; cases h
  | some x =>
    rw [ha] at h
    obtain ⟨a, p1⟩ := x
    simp only at h
    unfold Map.get at h
    by_cases hc : mapRoom m1 < m2.descriptors.length * m2.size
    · simp only [if_pos hc] at h
      cases h
    · simp only [if_neg hc, Prod.mk.injEq, MapResult.ok.injEq] at h
      rw [← h.1]

/-- The code does not meet the full property: with 1 to 14 descriptors of 40 bytes, the slice goes past the end of the buffer; the map did not change between the calls. -/
theorem map_past_end {A : Allocator} {p p' : Pool} {m : Map} {b : MapBox} (h : getMemoryMap A p m m = (.ok b, p')) (hw : m.Wf) (hs : m.size = 40) (h1 : 1 ≤ m.descriptors.length)
    (hn : m.descriptors.length ≤ 14) : b.buffer.length < 40 * b.count := by
  have hr : mapRoom m = m.descriptors.length * 40 + 0x400 := by
    unfold mapRoom
    rw [hs, if_pos (by omega)]
  have hc := map_count_wrong h
  cases ha : A p (mapRoom m) with
  | none =>
    exfalso
    unfold getMemoryMap at h
    simp only [get_zero, Pool.alloc, ha, Option.map_none] at h
    cases h
  | some a =>
    obtain ⟨b', p'', h', _, _, _, _, h2⟩ := map_read_partial (m2 := m) ha (by rw [hr, hs]; omega)
    rw [h] at h'
    simp only [Prod.mk.injEq, MapResult.ok.injEq] at h'
    obtain ⟨rfl, rfl⟩ := h'
    rw [(h2 hw).1, hc, hr, hs]
    omega

/-- The code does not meet the full property: with more than 40 descriptors of 40 bytes, those from the 41st on are not in the slice. -/
theorem map_cut {A : Allocator} {p p' : Pool} {m1 m2 : Map} {b : MapBox} (h : getMemoryMap A p m1 m2 = (.ok b, p')) (hs : m2.size = 40) {i : Nat} (hi : 40 ≤ i) : b.entry i = none := by
  unfold MapBox.entry
  rw [map_count_wrong h, hs, if_neg (by omega)]

/-- The code does not meet the full property: with 48 bytes for a descriptor, as other firmware has, an entry after the first is not a descriptor: here its first bytes are the last of the one before. -/
theorem map_stride_wrong : ∃ (m : Map) (b : MapBox) (p : Pool), m.Wf ∧ m.size = 48 ∧ m.descriptors.length = 20 ∧ getMemoryMap (fun _ _ => some 4096) ⟨[], []⟩ m m = (.ok b, p) ∧
    b.entry 1 = some (List.replicate 8 (some 0) ++ List.replicate 32 (some 1)) := by
  refine ⟨⟨48, List.replicate 48 0 :: List.replicate 19 (List.replicate 48 1), 1, 1⟩, _, _, ?_, rfl, by decide, rfl, ?_⟩
  · intro d hd
    rcases List.mem_cons.1 hd with rfl | hd
    · simp
    · rw [List.eq_of_mem_replicate hd]; simp
  · decide +kernel

/-- C106: if the map has grown by more than 1024 bytes the caller gets the size that is needed. -/
theorem map_too_small {A : Allocator} {p : Pool} {m1 m2 : Map} {a : Nat} (ha : A p (mapRoom m1) = some a) (hf : mapRoom m1 < m2.descriptors.length * m2.size) :
    getMemoryMap A p m1 m2 = (.tooSmall (m2.descriptors.length * m2.size), { p with live := (a, mapRoom m1) :: p.live }) := by
  unfold getMemoryMap
  simp only [get_zero]
  simp only [Pool.alloc, ha, Option.map_some]
  rw [show m2.get (mapRoom m1) = (m2.descriptors.length * m2.size, none) by unfold Map.get; rw [if_pos hf]]

/-- The code does not meet the full property: with that error the buffer stays allocated and nobody has it. -/
theorem map_error_leaks {A : Allocator} {p p' : Pool} {m1 m2 : Map} {n : Nat} (h : getMemoryMap A p m1 m2 = (.tooSmall n, p')) : ∃ a, p'.live = (a, mapRoom m1) :: p.live := by
  unfold getMemoryMap at h
  simp only [get_zero] at h
  cases ha : A p (mapRoom m1) with
  | none => simp only [Pool.alloc, ha, Option.map_none] at h; cases h
  | some a =>
    simp only [Pool.alloc, ha, Option.map_some] at h
    refine ⟨a, ?_⟩
    unfold Map.get at h
    by_cases hc : mapRoom m1 < m2.descriptors.length * m2.size
    · simp only [if_pos hc, Prod.mk.injEq] at h
      rw [← h.2]
    · simp only [if_neg hc, Prod.mk.injEq] at h
      cases h.1

/-! ### Handles -/

/-- C106: `locate_handle` returns the handles that match, in order, in a buffer that the caller has, if there are some and their number has not grown since the size was asked for. -/
theorem locate_handles {A : Allocator} {p : Pool} {h1 h2 : List Nat} {a : Nat} (ha : A p (8 * h1.length) = some a) (hn : h2 ≠ []) (hg : h2.length ≤ h1.length) :
    locateHandle A p h1 h2 = (.ok (a, h2), { p with live := (a, 8 * h1.length) :: p.live }) := by
  have h1n : h1 ≠ [] := by
    intro hc
    subst hc
    cases h2 with
    | nil => exact hn rfl
    | cons _ _ => simp at hg
  have hl : 0 < h1.length := List.length_pos_iff.2 h1n
  have hz : (locate h1 0).1 = 8 * h1.length := by
    unfold locate
    rw [if_neg h1n, if_pos (by omega)]
  unfold locateHandle
  rw [hz]
  simp only [Pool.alloc, ha, Option.map_some]
  have : locate h2 (8 * h1.length) = (8 * h2.length, .ok h2) := by
    unfold locate
    rw [if_neg hn, if_neg (by omega)]
  simp [this]

/-- The code does not meet the full property: if no handle matches, or their number has grown, the caller gets the error and the buffer stays allocated with nobody having it. -/
theorem locate_error_leaks {A : Allocator} {p : Pool} {h1 h2 : List Nat} {a : Nat} (ha : A p (8 * h1.length) = some a) (hg : h2 = [] ∨ h1.length < h2.length) :
    locateHandle A p h1 h2 = (.err (if h2 = [] then .notFound else .bufferTooSmall), { p with live := (a, 8 * h1.length) :: p.live }) := by
  have hz : (locate h1 0).1 = 8 * h1.length := by
    unfold locate
    by_cases h : h1 = []
    · subst h; rfl
    · have : 0 < h1.length := List.length_pos_iff.2 h
      rw [if_neg h, if_pos (by omega)]
  unfold locateHandle
  rw [hz]
  simp only [Pool.alloc, ha, Option.map_some]
  by_cases hn : h2 = []
  · subst hn
    simp [locate]
  · have : locate h2 (8 * h1.length) = (8 * h2.length, .err .bufferTooSmall) := by
      unfold locate
      rw [if_neg hn, if_pos (by rcases hg with hg | hg; exact absurd hg hn; omega)]
    simp [this, hn]

/-! ### Images and drivers -/

/-- The code does not meet the full property: the caller of `start_image` gets, with an error, a box on the stack of the SDK: even if the image has given no exit data; dropping the box frees what is not in the
pool, and exit data that the image has given stays allocated. -/
theorem exit_data_on_stack {stack : Nat} {given : Option Nat} {p : Pool} (hs : stack ≠ 0) (hp : stack ∉ p.live.map Prod.fst) :
    startImageError stack given = some stack ∧ stack ∈ (p.free stack).badFrees ∧ (p.free stack).live = p.live := by
  unfold startImageError Pool.free
  rw [if_pos hs, if_neg hp]
  exact ⟨rfl, List.mem_cons_self .., rfl⟩

/-- C106: the firmware gets the list of drivers that the caller gave, and none if that was empty. -/
theorem drivers_passed {hs : List Nat} (h : 0 ∉ hs) : (connectDrivers hs).map readList = if hs = [] then none else some (some hs) := by
  unfold connectDrivers
  by_cases hn : hs = []
  · simp [hn]
  · rw [if_neg hn, if_neg hn]
    simp only [Option.map_some, Option.some.injEq]
    clear hn
    induction hs with
    | nil => rfl
    | cons x hs ih =>
      have hx : x ≠ 0 := fun hc => h (hc ▸ List.mem_cons_self ..)
      simp only [List.cons_append, readList, if_neg hx]
      rw [ih fun hc => h (List.mem_cons_of_mem _ hc)]
      rfl

/-! ### The global allocator -/

theorem alignOffset_spec {p align : Nat} (h : 0 < align) : (p + alignOffset p align) % align = 0 ∧ alignOffset p align < align := by
  unfold alignOffset
  refine ⟨?_, Nat.mod_lt _ h⟩
  have hm := Nat.mod_lt p h
  by_cases h0 : p % align = 0
  · rw [h0, Nat.sub_zero, Nat.mod_self, Nat.add_zero, h0]
  · rw [Nat.mod_eq_of_lt (a := align - p % align) (by omega)]
    have hd := Nat.div_add_mod p align
    rw [show p + (align - p % align) = align * (p / align) + align by omega, Nat.add_mod_right, Nat.mul_mod_right]

/-- C107: what `alloc` returns is aligned as asked (the pool aligns to 8 bytes, alignments are powers of two), and lies with its size in the memory that the pool gave. -/
theorem alloc_aligned {size p : Nat} {k : Nat} (hp : p % 8 = 0) (m : Nat → Nat) :
    (galloc size (2 ^ k) p m).1 % 2 ^ k = 0 ∧ p ≤ (galloc size (2 ^ k) p m).1 ∧ (galloc size (2 ^ k) p m).1 + size ≤ p + request size (2 ^ k) := by
  by_cases h : 2 ^ k ≤ 8
  · have hk : k ≤ 3 := by
      rcases Nat.lt_or_ge 3 k with hc | hc
      · have := Nat.pow_lt_pow_right (a := 2) (by decide) hc
        omega
      · exact hc
    unfold galloc request
    rw [if_pos h, if_pos h]
    refine ⟨?_, Nat.le_refl _, Nat.le_refl _⟩
    have : (2 : Nat) ^ k ∣ 8 := Nat.pow_dvd_pow 2 hk
    exact Nat.mod_eq_zero_of_dvd (Nat.dvd_trans this (Nat.dvd_of_mod_eq_zero hp))
  · have hmax : max (2 ^ k) 8 = 2 ^ k := by omega
    unfold galloc request
    rw [if_neg h, if_neg h]
    simp only [extend, hmax]
    have := alignOffset_spec (p := p) (align := 2 ^ k) (Nat.pow_pos (by decide))
    refine ⟨this.1, by omega, by omega⟩

/-- C107: whatever the owner writes into its memory, `dealloc` with the same layout frees the address that the pool gave, in every build; the owner writes within `size` bytes, and other memory of the
allocation stays as it was (pointers are 8 bytes). -/
theorem dealloc_frees {dbg : Bool} {size k p : Nat} {m m' : Nat → Nat} (hm : ∀ x, ¬(x + 8 > (galloc size (2 ^ k) p m).1 ∧ x < (galloc size (2 ^ k) p m).1 + size) → p ≤ x → x + 8 ≤ p + request size (2 ^ k) → m' x = (galloc size (2 ^ k) p m).2 x) :
    gdealloc dbg size (2 ^ k) (galloc size (2 ^ k) p m).1 m' = .ok p := by
  by_cases h : 2 ^ k ≤ 8
  · unfold gdealloc galloc
    rw [if_pos h, if_pos h]
  · have hmax : max (2 ^ k) 8 = 2 ^ k := by omega
    have ho := alignOffset_spec (p := p) (align := 2 ^ k) (Nat.pow_pos (by decide))
    have hx := hm (p + alignOffset p (2 ^ k) + (size + 7) / 8 * 8)
    unfold galloc request at hx
    rw [if_neg h, if_neg h] at hx
    simp only [extend, hmax, if_true] at hx
    have hx := hx (by omega) (by omega) (by omega)
    unfold gdealloc galloc
    rw [if_neg h, if_neg h]
    simp only [extend, hmax, hx]
    rw [if_neg (by simp)]

/-- C107: the record of the pool address is outside of the memory of the owner, aligned for a pointer, and inside of what the pool gave. -/
theorem tracker_apart {size k p : Nat} (m : Nat → Nat) (h : 8 < 2 ^ k) :
    let q := (galloc size (2 ^ k) p m).1
    let t := q + (extend size (2 ^ k)).1
    q + size ≤ t ∧ t + 8 ≤ p + request size (2 ^ k) ∧ t % 8 = 0 := by
  have hmax : max (2 ^ k) 8 = 2 ^ k := by omega
  have ho := alignOffset_spec (p := p) (align := 2 ^ k) (Nat.pow_pos (by decide))
  unfold galloc request
  rw [if_neg (by omega), if_neg (by omega)]
  simp only [extend, hmax]
  refine ⟨by omega, by omega, ?_⟩
  have hk : 3 ≤ k := by
    rcases Nat.lt_or_ge k 3 with hc | hc
    · have := Nat.pow_lt_pow_right (a := 2) (by decide) hc
      omega
    · exact hc
  have h8 : (8 : Nat) ∣ 2 ^ k := Nat.pow_dvd_pow 2 hk
  have := Nat.dvd_trans h8 (Nat.dvd_of_mod_eq_zero ho.1)
  omega

example : (galloc 20 64 0x1008 (fun _ => 0)).1 = 0x1040 ∧ (galloc 20 64 0x1008 (fun _ => 0)).2 0x1058 = 0x1008 ∧ request 20 64 = 96 := by decide

example : (⟨40, List.replicate 10 (List.replicate 40 1), 7, 1⟩ : Map).Wf := by
  intro d hd
  rw [List.eq_of_mem_replicate hd]
  simp

end Verif.SdkBoot
