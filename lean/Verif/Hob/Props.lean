import Verif.Hob.Lemmas
/-!
C43: walking a HOB list.
-/
namespace Verif.Hob

/-- The references made to the HOBs of a list that starts at `a`. -/
def hobsAt : Nat → List Item → List Hob
  | _, [] => []
  | a, x :: xs => x.hobAt a :: hobsAt (a + x.bytes.length) xs

/-- Well-formed HOBs are in memory at `a`, without regard to what follows them. -/
structure PrefixAt (m : Mem) (a : Nat) (xs : List Item) : Prop where
  notNull : a ≠ 0
  holds : Holds m a (itemsBytes xs)
  inMemory : a + (itemsBytes xs).length < 2 ^ 64
  wellFormed : ∀ x ∈ xs, x.WellFormed

theorem prefixAt_tail {m : Mem} {a : Nat} {x : Item} {xs : List Item} (h : PrefixAt m a (x :: xs)) :
    PrefixAt m (a + x.bytes.length) xs ∧ Holds m a x.bytes ∧ x.WellFormed ∧ a + x.bytes.length < 2 ^ 64 := by
  have h1 := h.holds
  have h2 := h.inMemory
  have hn := h.notNull
  simp only [itemsBytes, holds_append, List.length_append] at h1 h2
  exact ⟨⟨by omega, h1.2, by omega, fun y hy => h.wellFormed y (List.mem_cons_of_mem _ hy)⟩, h1.1,
    h.wellFormed x List.mem_cons_self, by omega⟩

theorem ListAt.prefix {m : Mem} {a : Nat} {xs : List Item} {e : Header} (h : ListAt m a xs e) :
    PrefixAt m a xs := by
  have h1 := h.holds
  have h2 := h.inMemory
  simp only [holds_append, List.length_append, header_length] at h1 h2
  exact ⟨h.notNull, h1.1, by omega, h.wellFormed⟩

theorem ListAt.endHeader {m : Mem} {a : Nat} {xs : List Item} {e : Header} (h : ListAt m a xs e) :
    readHeader m (a + (itemsBytes xs).length) = e :=
  readHeader_holds (holds_append.1 h.holds).2

/-- `discover_hobs` passes over well-formed HOBs, adding each to the list. -/
theorem discover_prefix {m : Mem} {dbg : Bool} : ∀ {xs : List Item} {a : Nat} (l : List Hob) (fuel : Nat),
    PrefixAt m a xs → discover dbg m (fuel + xs.length) a l =
      discover dbg m fuel (a + (itemsBytes xs).length) (l ++ hobsAt a xs) := by
  intro xs
  induction xs with
  | nil => intro a l fuel _; simp [itemsBytes, hobsAt]
  | cons x xs ih =>
    intro a l fuel h
    obtain ⟨ht, hb, hw, hlt⟩ := prefixAt_tail h
    have h1 := discoverOne_item (dbg := dbg) hb hw
    have h2 := nextAddr_item (dbg := dbg) hw hlt
    have h3 := ih (l ++ [x.hobAt a]) fuel ht
    have hn := h.notNull
    rw [List.length_cons, ← Nat.add_assoc, discover, item_header hb, if_neg hn, if_neg h1.2, h1.1, Res.bind, h2,
      Res.bind, h3]
    simp only [itemsBytes, List.length_append, hobsAt, List.append_assoc, List.cons_append, List.nil_append,
      Nat.add_assoc]

theorem iterate_prefix {m : Mem} {dbg : Bool} : ∀ {xs : List Item} {a : Nat} (fuel : Nat),
    PrefixAt m a xs → ∃ hs : List Hob, hs.length = xs.length ∧
      iterate dbg m (fuel + xs.length) a =
        (iterate dbg m fuel (a + (itemsBytes xs).length)).bind (fun t => .ok (hs ++ t)) ∧
      (∀ (i : Nat) (x : Item), xs[i]? = some x → (∀ d, x ≠ .resource2 d) → hs[i]? = (hobsAt a xs)[i]?) ∧
      ∀ (i : Nat) (d : ResourceDescriptorV2), xs[i]? = some (.resource2 d) → ∃ b, hs[i]? = some (.resource2 b) := by
  intro xs
  induction xs with
  | nil =>
    intro a fuel _
    refine ⟨[], rfl, ?_, by intro i x h; simp at h, by intro i x h; simp at h⟩
    simp only [List.length_nil, Nat.add_zero, itemsBytes, List.nil_append]
    cases iterate dbg m fuel a <;> rfl
  | cons x xs ih =>
    intro a fuel h
    obtain ⟨ht, hb, hw, hlt⟩ := prefixAt_tail h
    have h0 := (discoverOne_item (dbg := dbg) hb hw).2
    have h1 := iterOne_item (dbg := dbg) hb hw
    have h2 := nextAddr_item (dbg := dbg) hw hlt
    obtain ⟨hs, hl, he, hi, hj⟩ := ih fuel ht
    refine ⟨x.iterAt m a :: hs, by simp [hl], ?_, ?_, ?_⟩
    · rw [List.length_cons, ← Nat.add_assoc, iterate, item_header hb, if_neg h0, h1, Res.bind, h2, Res.bind, he]
      simp only [itemsBytes, List.length_append, Nat.add_assoc]
      cases iterate dbg m fuel (a + (x.bytes.length + (itemsBytes xs).length)) <;> rfl
    · intro i z hz hd
      cases i with
      | zero =>
        simp only [List.getElem?_cons_zero, Option.some.injEq] at hz
        subst hz
        simp only [List.getElem?_cons_zero, hobsAt, Option.some.injEq]
        cases x with
        | resource2 d => exact absurd rfl (hd d)
        | _ => rfl
      | succ i =>
        simp only [List.getElem?_cons_succ, hobsAt] at hz ⊢
        exact hi i z hz hd
    · intro i d hz
      cases i with
      | zero =>
        simp only [List.getElem?_cons_zero, Option.some.injEq] at hz
        subst hz
        exact ⟨_, rfl⟩
      | succ i =>
        simp only [List.getElem?_cons_succ] at hz ⊢
        exact hj i d hz

theorem hobsAt_length : ∀ (xs : List Item) (a : Nat), (hobsAt a xs).length = xs.length
  | [], _ => rfl
  | _ :: xs, a => by simp [hobsAt, hobsAt_length xs]

theorem hobsAt_view {m : Mem} : ∀ {xs : List Item} {a : Nat}, PrefixAt m a xs →
    (hobsAt a xs).map (view m) = xs.map Item.seen
  | [], _, _ => rfl
  | x :: xs, a, h => by
    obtain ⟨ht, hb, hw, _⟩ := prefixAt_tail h
    simp only [hobsAt, List.map_cons, view_hobAt hb hw.1, hobsAt_view ht]

theorem hobAt_regions {x : Item} (hw : x.Typed) (a : Nat) :
    ∀ g ∈ (x.hobAt a).regions, a ≤ g.1 ∧ g.1 + g.2 ≤ a + x.bytes.length := by
  rw [bytes_length hw]
  cases x <;> simp [Item.hobAt, Hob.regions, Item.len] <;> omega

theorem hobsAt_regions {m : Mem} : ∀ {xs : List Item} {a : Nat}, PrefixAt m a xs → ∀ h ∈ hobsAt a xs,
    ∀ g ∈ h.regions, a ≤ g.1 ∧ g.1 + g.2 ≤ a + (itemsBytes xs).length
  | [], _, _ => by intro h hh; cases hh
  | x :: xs, a, hp => by
    obtain ⟨ht, _, hw, _⟩ := prefixAt_tail hp
    intro h hh g hg
    simp only [hobsAt, List.mem_cons] at hh
    simp only [itemsBytes, List.length_append]
    rcases hh with rfl | hh
    · have := hobAt_regions hw.1 a g hg
      omega
    · have := hobsAt_regions ht h hh g hg
      omega

/-- **C43.** `discover_hobs` on a HOB list adds one entry for every HOB of it, in order, and nothing after the
end marker. Through the entry every field of the HOB is read, and all the data of a GUID HOB. No entry refers
outside the list. -/
theorem discover_spec {m : Mem} {a : Nat} {xs : List Item} {e : Header} (h : ListAt m a xs e) (dbg : Bool)
    {fuel : Nat} (hf : xs.length < fuel) (l : List Hob) :
    ∃ hs : List Hob, discover dbg m fuel a l = .ok (l ++ hs) ∧ hs.map (view m) = xs.map Item.seen ∧
      ∀ r ∈ hs, ∀ g ∈ r.regions, a ≤ g.1 ∧ g.1 + g.2 ≤ a + (itemsBytes xs).length := by
  have hp := h.prefix
  refine ⟨hobsAt a xs, ?_, hobsAt_view hp, hobsAt_regions hp⟩
  obtain ⟨f, rfl⟩ : ∃ f, fuel = f + 1 + xs.length := ⟨fuel - xs.length - 1, by omega⟩
  rw [discover_prefix l (f + 1) hp, discover, if_neg (by have := h.notNull; omega), h.endHeader, if_pos]
  rw [h.isEnd]; rfl

/-- The iterator yields as many entries as there are HOBs, and for every HOB that is not a resource descriptor
of version 2 the same contents as `discover_hobs`.  Where there is a resource descriptor of version 2 it yields
some resource descriptor of version 2. -/
theorem iterate_spec {m : Mem} {a : Nat} {xs : List Item} {e : Header} (h : ListAt m a xs e) (dbg : Bool)
    {fuel : Nat} (hf : xs.length < fuel) :
    ∃ hs : List Hob, iterate dbg m fuel a = .ok hs ∧ hs.length = xs.length ∧
      (∀ (i : Nat) (x : Item), xs[i]? = some x → (∀ d, x ≠ .resource2 d) →
        (hs[i]?).map (view m) = some x.seen) ∧
      ∀ (i : Nat) (d : ResourceDescriptorV2), xs[i]? = some (.resource2 d) →
        ∃ d' : ResourceDescriptorV2, (hs[i]?).map (view m) = some (.resource2 d') := by
  have hp := h.prefix
  obtain ⟨f, rfl⟩ : ∃ f, fuel = f + 1 + xs.length := ⟨fuel - xs.length - 1, by omega⟩
  obtain ⟨hs, hl, he, hi, hj⟩ := iterate_prefix (dbg := dbg) (f + 1) hp
  refine ⟨hs, ?_, hl, ?_, ?_⟩
  · rw [he, iterate, h.endHeader, if_pos (by rw [h.isEnd]; rfl)]
    simp [Res.bind]
  · intro i x hx hd
    rw [hi i x hx hd]
    have := congrArg (fun q : List View => q[i]?) (hobsAt_view hp)
    simp only [List.getElem?_map, hx, Option.map_some] at this
    exact this
  · intro i d hx
    obtain ⟨b, hb⟩ := hj i d hx
    rw [hb]
    exact ⟨_, rfl⟩

/-- Without resource descriptors of version 2 the iterator shows exactly the HOBs of the list. -/
theorem iterate_all {m : Mem} {a : Nat} {xs : List Item} {e : Header} (h : ListAt m a xs e) (dbg : Bool)
    {fuel : Nat} (hf : xs.length < fuel) (hd : ∀ d, Item.resource2 d ∉ xs) :
    ∃ hs : List Hob, iterate dbg m fuel a = .ok hs ∧ hs.map (view m) = xs.map Item.seen := by
  obtain ⟨hs, he, hl, hi, -⟩ := iterate_spec h dbg hf
  refine ⟨hs, he, List.ext_getElem? fun i => ?_⟩
  rw [List.getElem?_map, List.getElem?_map]
  cases hx : xs[i]? with
  | none =>
    have : hs[i]? = none := by
      rw [List.getElem?_eq_none_iff] at hx ⊢; omega
    simp [this]
  | some x =>
    rw [hi i x hx (fun d hxd => hd d (hxd ▸ List.mem_of_getElem? hx)), Option.map_some]

theorem cListSize_prefix {m : Mem} {dbg : Bool} : ∀ {xs : List Item} {a : Nat} (n fuel : Nat),
    PrefixAt m a xs → cListSize dbg m (fuel + xs.length) a n =
      cListSize dbg m fuel (a + (itemsBytes xs).length) (n + (itemsBytes xs).length) := by
  intro xs
  induction xs with
  | nil => intro a n fuel _; simp [itemsBytes]
  | cons x xs ih =>
    intro a n fuel h
    obtain ⟨ht, hb, hw, hlt⟩ := prefixAt_tail h
    have h1 := discoverOne_item (dbg := dbg) hb hw
    have h2 := nextAddr_item (dbg := dbg) hw hlt
    have hn := h.notNull
    rw [List.length_cons, ← Nat.add_assoc, cListSize, item_header hb, if_neg hn, if_neg h1.2, h2, Res.bind,
      ih _ fuel ht, hw.2]
    simp only [itemsBytes, List.length_append, Nat.add_assoc]

/-- `get_c_hob_list_size` is the number of bytes of the list up to and including the end marker. -/
theorem cListSize_spec {m : Mem} {a : Nat} {xs : List Item} {e : Header} (h : ListAt m a xs e) (dbg : Bool)
    {fuel : Nat} (hf : xs.length < fuel) :
    cListSize dbg m fuel a 0 = .ok ((itemsBytes xs).length + e.length.toNat) := by
  obtain ⟨f, rfl⟩ : ∃ f, fuel = f + 1 + xs.length := ⟨fuel - xs.length - 1, by omega⟩
  rw [cListSize_prefix 0 (f + 1) h.prefix, cListSize, if_neg (by have := h.notNull; omega), h.endHeader, if_pos]
  · simp
  · rw [h.isEnd]; rfl

theorem size_hobAt {m : Mem} {a : Nat} {x : Item} (hb : Holds m a x.bytes) (hw : x.WellFormed)
    (ho : ∀ h p, x ≠ .other h p) : size m (x.hobAt a) = x.bytes.length := by
  have hh := item_header hb
  obtain ⟨ht, hl⟩ := hw
  cases x with
  | other h p => exact absurd rfl (ho h p)
  | guid d data => rw [Item.hobAt, size, hh, hl]
  | _ => rw [bytes_length ht]; rfl

/-- `HobList::size` of what was discovered is the number of bytes of the HOBs, if every type is known: the
end marker apart, what `get_c_hob_list_size` counts. -/
theorem listSize_spec {m : Mem} : ∀ {xs : List Item} {a : Nat}, PrefixAt m a xs →
    (∀ h p, Item.other h p ∉ xs) → listSize m (hobsAt a xs) = (itemsBytes xs).length
  | [], _, _, _ => rfl
  | x :: xs, a, h, ho => by
    obtain ⟨ht, hb, hw, _⟩ := prefixAt_tail h
    simp only [hobsAt, listSize, itemsBytes, List.length_append]
    rw [size_hobAt hb hw (fun d p e => ho d p (e ▸ List.mem_cons_self)),
      listSize_spec ht (fun d p e => ho d p (List.mem_cons_of_mem _ e))]

/-- The sizes agree: what was discovered has the size of the list without its end marker, and every entry
reports the header its HOB has in memory. -/
theorem discovered_size {m : Mem} {a : Nat} {xs : List Item} {e : Header} (h : ListAt m a xs e) (dbg : Bool)
    {fuel : Nat} (hf : xs.length < fuel) (ho : ∀ h p, Item.other h p ∉ xs) :
    ∃ hs : List Hob, discover dbg m fuel a [] = .ok hs ∧
      cListSize dbg m fuel a 0 = .ok (listSize m hs + e.length.toNat) ∧
      hs.map (header m) = xs.map Item.header := by
  have hp := h.prefix
  refine ⟨hobsAt a xs, ?_, by rw [cListSize_spec h dbg hf, listSize_spec hp ho], ?_⟩
  · obtain ⟨f, rfl⟩ : ∃ f, fuel = f + 1 + xs.length := ⟨fuel - xs.length - 1, by omega⟩
    rw [discover_prefix [] (f + 1) hp, discover, if_neg (by have := h.notNull; omega), h.endHeader, if_pos]
    · simp
    · rw [h.isEnd]; rfl
  · clear h hf
    induction xs generalizing a with
    | nil => rfl
    | cons x xs ih =>
      obtain ⟨ht, hb, hw, _⟩ := prefixAt_tail hp
      simp only [hobsAt, List.map_cons, ih (fun d p e => ho d p (List.mem_cons_of_mem _ e)) ht,
        List.cons.injEq, and_true]
      have hh := item_header hb
      cases x with
      | other d p => exact absurd List.mem_cons_self (ho d p)
      | _ => simpa only [Item.hobAt, header] using hh

/-! ### Malformed lists -/

/-- The sizes of the HOBs of fixed size, by type. -/
def fixedSizes : List (UInt16 × List Nat) :=
  [(1, [56]), (2, [48, 72]), (3, [48]), (5, [24]), (6, [16]), (9, [56]), (11, [24]), (12, [64]), (13, [56])]

/-- A HOB of fixed size with another length makes `discover_hobs` panic; a shorter or longer structure is never
accepted. -/
theorem wrong_size_panics {m : Mem} {a : Nat} {xs : List Item} (h : PrefixAt m a xs) {t : UInt16}
    {sizes : List Nat} (ht : (t, sizes) ∈ fixedSizes)
    (hh : (readHeader m (a + (itemsBytes xs).length)).type = t)
    (hs : (readHeader m (a + (itemsBytes xs).length)).length.toNat ∉ sizes) (dbg : Bool) {fuel : Nat}
    (hf : xs.length < fuel) (l : List Hob) : discover dbg m fuel a l = .panic := by
  obtain ⟨f, rfl⟩ : ∃ f, fuel = f + 1 + xs.length := ⟨fuel - xs.length - 1, by omega⟩
  rw [discover_prefix l (f + 1) h, discover, if_neg (by have := h.notNull; omega)]
  generalize a + (itemsBytes xs).length = b at hh hs
  simp only [fixedSizes, List.mem_cons, Prod.mk.injEq, List.not_mem_nil, or_false] at ht
  rcases ht with ⟨rfl, rfl⟩ | ⟨rfl, rfl⟩ | ⟨rfl, rfl⟩ | ⟨rfl, rfl⟩ | ⟨rfl, rfl⟩ | ⟨rfl, rfl⟩ | ⟨rfl, rfl⟩ |
    ⟨rfl, rfl⟩ | ⟨rfl, rfl⟩ <;>
  · simp only [List.mem_cons, List.not_mem_nil, or_false, not_or] at hs
    simp [discoverOne, hh, hs, HANDOFF, MEMORY_ALLOCATION, RESOURCE_DESCRIPTOR, GUID_EXTENSION, FV, FV2, FV3, CPU,
      UEFI_CAPSULE, RESOURCE_DESCRIPTOR2, END_OF_HOB_LIST, assertSize, allocHob, HANDOFF_SIZE, ALLOC_SIZE,
      MODULE_SIZE, RESOURCE_SIZE, FV_SIZE, FV2_SIZE, FV3_SIZE, CPU_SIZE, CAPSULE_SIZE, RESOURCE2_SIZE, Res.bind]

/-- A GUID HOB too short for its GUID: with overflow checks the walk panics. -/
theorem short_guid_panics {m : Mem} {a : Nat} {xs : List Item} (h : PrefixAt m a xs)
    (hh : (readHeader m (a + (itemsBytes xs).length)).type = 4)
    (hs : (readHeader m (a + (itemsBytes xs).length)).length.toNat < 24) {fuel : Nat}
    (hf : xs.length < fuel) (l : List Hob) : discover true m fuel a l = .panic := by
  obtain ⟨f, rfl⟩ : ∃ f, fuel = f + 1 + xs.length := ⟨fuel - xs.length - 1, by omega⟩
  rw [discover_prefix l (f + 1) h, discover, if_neg (by have := h.notNull; omega)]
  generalize a + (itemsBytes xs).length = b at hh hs
  have : ¬ 24 ≤ (readHeader m b).length.toNat := by omega
  simp [discoverOne, hh, HANDOFF, MEMORY_ALLOCATION, RESOURCE_DESCRIPTOR, GUID_EXTENSION, END_OF_HOB_LIST, dataLen,
    GUID_SIZE, this, Res.bind]

/-- Finding: without overflow checks such a HOB is accepted, and its data slice is said to be almost the whole
address space. -/
theorem short_guid_huge {m : Mem} {a : Nat} (hh : (readHeader m a).type = 4)
    (hs : (readHeader m a).length.toNat < 24) :
    ∃ n, discoverOne false m a = .ok (.guid a (a + 24) n) ∧ 2 ^ 64 - 24 ≤ n := by
  have : ¬ 24 ≤ (readHeader m a).length.toNat := by omega
  refine ⟨(readHeader m a).length.toNat + 2 ^ 64 - 24, ?_, by omega⟩
  simp [discoverOne, hh, HANDOFF, MEMORY_ALLOCATION, RESOURCE_DESCRIPTOR, GUID_EXTENSION, dataLen, GUID_SIZE, this,
    Res.bind]

/-- Finding: a HOB of unknown type and length zero is never passed. `discover_hobs` adds entries for ever, and
neither the iterator nor the size function ends. -/
theorem zero_length_never_ends {m : Mem} {a : Nat} (ha : a ≠ 0) (hlt : a < 2 ^ 64)
    (hh : (readHeader m a).type ∉ knownTypes) (hs : (readHeader m a).length = 0) (dbg : Bool) :
    (∀ fuel l, discover dbg m fuel a l = .running) ∧ (∀ fuel, iterate dbg m fuel a = .running) ∧
      ∀ fuel n, cListSize dbg m fuel a n = .running := by
  simp only [knownTypes, List.mem_cons, not_or, List.not_mem_nil] at hh
  have hn : nextAddr dbg a (readHeader m a) = .ok a := by
    have : ¬ 2 ^ 64 ≤ a := by omega
    simp only [nextAddr, hs, UInt16.toNat_zero, this, decide_false, Bool.and_false, Bool.false_eq_true, if_false,
      Nat.add_zero, Nat.mod_eq_of_lt hlt]
  have hd : discoverOne dbg m a = .ok (.misc (readHeader m a).type) := by
    simp only [discoverOne, HANDOFF, MEMORY_ALLOCATION, RESOURCE_DESCRIPTOR, GUID_EXTENSION, FV, FV2, FV3, CPU,
      UEFI_CAPSULE, RESOURCE_DESCRIPTOR2, hh, if_false]
  have hi : iterOne dbg m a = .ok (.misc (readHeader m a).type) := by
    simp only [iterOne, HANDOFF, MEMORY_ALLOCATION, RESOURCE_DESCRIPTOR, GUID_EXTENSION, FV, FV2, FV3, CPU,
      UEFI_CAPSULE, RESOURCE_DESCRIPTOR2, hh, if_false, false_and]
  have he : (readHeader m a).type ≠ END_OF_HOB_LIST := by
    simp only [END_OF_HOB_LIST]; exact hh.2.2.2.2.2.2.2.2.2.2.1
  refine ⟨fun fuel => ?_, fun fuel => ?_, fun fuel => ?_⟩
  · induction fuel with
    | zero => intro l; rfl
    | succ n ih => intro l; rw [discover, if_neg ha, if_neg he, hd, Res.bind, hn, Res.bind, ih]
  · induction fuel with
    | zero => rfl
    | succ n ih => rw [iterate, if_neg he, hi, Res.bind, hn, Res.bind, ih, Res.bind]
  · induction fuel with
    | zero => intro l; rfl
    | succ n ih => intro l; rw [cListSize, if_neg ha, if_neg he, hn, Res.bind, ih]

/-- Finding: the entry the iterator yields for a resource descriptor of version 2 refers to the address made of
the eight bytes of the HOB's header, not to the HOB. -/
theorem iterator_v2_address {m : Mem} {a : Nat} {d : ResourceDescriptorV2} {dbg : Bool}
    (h : Holds m a (Item.resource2 d).bytes) (hw : (Item.resource2 d).WellFormed) :
    iterOne dbg m a = .ok (.resource2 (d.v1.header.type.toNat + 2 ^ 16 * d.v1.header.length.toNat +
      2 ^ 32 * d.v1.header.reserved.toNat)) := by
  rw [iterOne_item h hw]
  simp only [Item.iterAt, Res.ok.injEq, Hob.resource2.injEq]
  have h8 : Holds m a d.v1.header.bytes := by
    simp only [Item.bytes, ResourceDescriptor.bytes, holds_append] at h
    simp only [h]
  rw [u64, rd_holds' h8 (header_length _)]
  have h1 := d.v1.header.type.toNat_lt
  have h2 := d.v1.header.length.toNat_lt
  have h3 := d.v1.header.reserved.toNat_lt
  simp only [Header.bytes, leVal_append, le16, le32, leBytes_length, List.length_append]
  rw [leVal_leBytes_of_lt (by simpa using h1), leVal_leBytes_of_lt (by simpa using h2),
    leVal_leBytes_of_lt (by simpa using h3)]
  simp only [UInt64.toNat_ofNat']
  omega

end Verif.Hob
