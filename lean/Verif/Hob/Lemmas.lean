import Verif.Hob.Spec
/-!
Reading back what is in memory.
-/
namespace Verif.Hob

theorem holds_nil (m : Mem) (a : Nat) : Holds m a [] := by intro i b h; simp at h

theorem holds_cons {m : Mem} {a : Nat} {x : UInt8} {l : List UInt8} :
    Holds m a (x :: l) ↔ m a = x ∧ Holds m (a + 1) l := by
  constructor
  · intro h
    refine ⟨h 0 x rfl, fun i b hb => ?_⟩
    have := h (i + 1) b (by simpa using hb)
    rw [Nat.add_assoc, Nat.add_comm 1 i]; exact this
  · rintro ⟨h0, h⟩ i b hb
    cases i with
    | zero => simp only [List.getElem?_cons_zero, Option.some.injEq] at hb; rw [← hb]; exact h0
    | succ i =>
      have := h i b (by simpa using hb)
      rw [Nat.add_assoc, Nat.add_comm 1 i] at this; exact this

theorem holds_append {m : Mem} {x y : List UInt8} : ∀ {a : Nat},
    Holds m a (x ++ y) ↔ Holds m a x ∧ Holds m (a + x.length) y := by
  induction x with
  | nil => intro a; simp [holds_nil]
  | cons c x ih =>
    intro a
    simp only [List.cons_append, holds_cons, ih, List.length_cons, and_assoc]
    rw [Nat.add_assoc, Nat.add_comm 1 x.length]

theorem rd_holds {m : Mem} : ∀ {bs : List UInt8} {a : Nat}, Holds m a bs → rd m a bs.length = bs
  | [], _, _ => rfl
  | x :: l, a, h => by
    obtain ⟨h0, h1⟩ := holds_cons.1 h
    simp only [List.length_cons, rd, h0, rd_holds h1]

theorem rd_holds' {m : Mem} {bs : List UInt8} {a n : Nat} (h : Holds m a bs) (hn : bs.length = n) :
    rd m a n = bs := hn ▸ rd_holds h

theorem u16_holds {m : Mem} {a : Nat} {x : UInt16} (h : Holds m a (le16 x)) : u16 m a = x := by
  have e := rd_holds' (n := 2) h (by simp [le16])
  have hx := x.toNat_lt
  rw [u16, e, le16, leVal_leBytes_of_lt (by simpa using hx)]
  simp

theorem u32_holds {m : Mem} {a : Nat} {x : UInt32} (h : Holds m a (le32 x)) : u32 m a = x := by
  have e := rd_holds' (n := 4) h (by simp [le32])
  have hx := x.toNat_lt
  rw [u32, e, le32, leVal_leBytes_of_lt (by simpa using hx)]
  simp

theorem u64_holds {m : Mem} {a : Nat} {x : UInt64} (h : Holds m a (le64 x)) : u64 m a = x := by
  have e := rd_holds' (n := 8) h (by simp [le64])
  have hx := x.toNat_lt
  rw [u64, e, le64, leVal_leBytes_of_lt (by simpa using hx)]
  simp

@[simp] theorem le16_length (x : UInt16) : (le16 x).length = 2 := by simp [le16]
@[simp] theorem le32_length (x : UInt32) : (le32 x).length = 4 := by simp [le32]
@[simp] theorem le64_length (x : UInt64) : (le64 x).length = 8 := by simp [le64]
@[simp] theorem header_length (h : Header) : h.bytes.length = 8 := by simp [Header.bytes]

theorem readHeader_holds {m : Mem} {a : Nat} {h : Header} (hh : Holds m a h.bytes) : readHeader m a = h := by
  simp only [Header.bytes, holds_append, List.length_append, le16_length, le32_length] at hh
  obtain ⟨⟨h1, h2⟩, h3⟩ := hh
  simp only [readHeader, u16_holds h1, u16_holds h2, u32_holds h3]

theorem readDesc_holds {m : Mem} {a : Nat} {d : AllocDesc} (hh : Holds m a d.bytes)
    (h1 : d.name.length = 16) (h2 : d.reserved.length = 4) : readDesc m a = d := by
  simp only [AllocDesc.bytes, holds_append, List.length_append, le32_length, le64_length, h1] at hh
  obtain ⟨⟨⟨⟨a1, a2⟩, a3⟩, a4⟩, a5⟩ := hh
  simp only [readDesc, guid, rd_holds' a1 h1, u64_holds a2, u64_holds a3, u32_holds a4, rd_holds' a5 h2]

theorem readResource_holds {m : Mem} {a : Nat} {d : ResourceDescriptor} (hh : Holds m a d.bytes)
    (h1 : d.owner.length = 16) : readResource m a = d := by
  simp only [ResourceDescriptor.bytes, holds_append, List.length_append, le32_length, le64_length, h1,
    header_length] at hh
  obtain ⟨⟨⟨⟨⟨a1, a2⟩, a3⟩, a4⟩, a5⟩, a6⟩ := hh
  simp only [readResource, guid, readHeader_holds a1, rd_holds' a2 h1, u32_holds a3, u32_holds a4,
    u64_holds a5, u64_holds a6]

/-- Every HOB starts with its header. -/
theorem item_header {m : Mem} {a : Nat} {x : Item} (h : Holds m a x.bytes) : readHeader m a = x.header := by
  apply readHeader_holds
  cases x <;> simp only [Item.bytes, ResourceDescriptor.bytes, holds_append] at h <;>
    simp only [Item.header, h]

/-- The reference the code is to make to a HOB at `a`. -/
def Item.hobAt (x : Item) (a : Nat) : Hob :=
  match x with
  | .handoff _ => .handoff a
  | .alloc _ => .alloc a
  | .module _ => .module a
  | .capsule _ => .capsule a
  | .resource _ => .resource a
  | .guid _ data => .guid a (a + 24) data.length
  | .fv _ => .fv a
  | .fv2 _ => .fv2 a
  | .fv3 _ _ => .fv3 a
  | .cpu _ => .cpu a
  | .resource2 _ => .resource2 a
  | .other h _ => .misc h.type

theorem view_hobAt {m : Mem} {a : Nat} {x : Item} (h : Holds m a x.bytes) (hw : x.Typed) :
    view m (x.hobAt a) = x.seen := by
  cases x with
  | handoff d =>
    simp only [Item.bytes, holds_append, List.length_append, le32_length, le64_length, header_length] at h
    obtain ⟨⟨⟨⟨⟨⟨⟨a1, a2⟩, a3⟩, a4⟩, a5⟩, a6⟩, a7⟩, a8⟩ := h
    simp only [Item.hobAt, view, Item.seen, readHandoff, readHeader_holds a1, u32_holds a2, u32_holds a3,
      u64_holds a4, u64_holds a5, u64_holds a6, u64_holds a7, u64_holds a8]
  | alloc d =>
    simp only [Item.bytes, holds_append, header_length] at h
    simp only [Item.hobAt, view, Item.seen, readAlloc, readHeader_holds h.1, readDesc_holds h.2 hw.2.1 hw.2.2]
  | module d =>
    simp only [Item.bytes, holds_append, header_length, List.length_append] at h
    obtain ⟨⟨⟨a1, a2⟩, a3⟩, a4⟩ := h
    simp only [AllocDesc.bytes, List.length_append, le32_length, le64_length, hw.2.1, hw.2.2.1,
      hw.2.2.2] at a3 a4
    simp only [Item.hobAt, view, Item.seen, readModule, readHeader_holds a1,
      readDesc_holds a2 hw.2.1 hw.2.2.1, guid, rd_holds' a3 hw.2.2.2, u64_holds a4]
  | capsule d =>
    simp only [Item.bytes, holds_append, header_length, le64_length, List.length_append] at h
    simp only [Item.hobAt, view, Item.seen, readFv, readHeader_holds h.1.1, u64_holds h.1.2, u64_holds h.2]
  | resource d =>
    simp only [Item.hobAt, view, Item.seen, readResource_holds h hw.2]
  | guid d data =>
    simp only [Item.bytes, holds_append, header_length, List.length_append, hw.2] at h
    simp only [Item.hobAt, view, Item.seen, readGuid, guid, readHeader_holds h.1.1, rd_holds' h.1.2 hw.2,
      rd_holds h.2]
  | fv d =>
    simp only [Item.bytes, holds_append, header_length, le64_length, List.length_append] at h
    simp only [Item.hobAt, view, Item.seen, readFv, readHeader_holds h.1.1, u64_holds h.1.2, u64_holds h.2]
  | fv2 d =>
    simp only [Item.bytes, holds_append, header_length, le64_length, List.length_append, hw.2.1] at h
    obtain ⟨⟨⟨⟨a1, a2⟩, a3⟩, a4⟩, a5⟩ := h
    simp only [Item.hobAt, view, Item.seen, readFv2, guid, readHeader_holds a1, u64_holds a2, u64_holds a3,
      rd_holds' a4 hw.2.1, rd_holds' a5 hw.2.2]
  | fv3 d pad =>
    simp only [Item.bytes, holds_append, header_length, le64_length, le32_length, List.length_append, hw.2.1,
      hw.2.2.1, List.length_cons, List.length_nil, holds_cons] at h
    obtain ⟨⟨⟨⟨⟨⟨⟨a1, a2⟩, a3⟩, a4⟩, a5, _⟩, _⟩, a6⟩, a7⟩ := h
    simp only [Item.hobAt, view, Item.seen, readFv3, guid, u8, readHeader_holds a1, u64_holds a2, u64_holds a3,
      u32_holds a4, a5, rd_holds' a6 hw.2.2.1, rd_holds' a7 hw.2.2.2]
  | cpu d =>
    simp only [Item.bytes, holds_append, header_length, List.length_append, List.length_cons, List.length_nil,
      holds_cons] at h
    obtain ⟨⟨a1, a2, a3, _⟩, a4⟩ := h
    simp only [Item.hobAt, view, Item.seen, readCpu, u8, readHeader_holds a1, a2, a3, rd_holds' a4 hw.2]
  | resource2 d =>
    simp only [Item.bytes, holds_append] at h
    obtain ⟨a1, a2⟩ := h
    simp only [ResourceDescriptor.bytes, List.length_append, le32_length, le64_length, hw.2, header_length] at a2
    simp only [Item.hobAt, view, Item.seen, readResource2, readResource_holds a1 hw.2, u64_holds a2]
  | other d p => rfl

/-- The number of bytes a HOB occupies. -/
def Item.len : Item → Nat
  | .handoff _ => 56
  | .alloc _ => 48
  | .module _ => 72
  | .capsule _ => 24
  | .resource _ => 48
  | .guid _ data => 24 + data.length
  | .fv _ => 24
  | .fv2 _ => 56
  | .fv3 _ _ => 64
  | .cpu _ => 16
  | .resource2 _ => 56
  | .other _ p => 8 + p.length

theorem bytes_length {x : Item} (hw : x.Typed) : x.bytes.length = x.len := by
  cases x <;> simp only [Item.Typed] at hw <;>
    simp [Item.bytes, AllocDesc.bytes, ResourceDescriptor.bytes, hw, ← Nat.add_assoc, Item.len]

/-- One step of `discover_hobs` on a well-formed HOB. -/
theorem discoverOne_item {m : Mem} {a : Nat} {x : Item} {dbg : Bool} (h : Holds m a x.bytes)
    (hw : x.WellFormed) : discoverOne dbg m a = .ok (x.hobAt a) ∧ x.header.type ≠ END_OF_HOB_LIST := by
  have hh := item_header h
  obtain ⟨ht, hl⟩ := hw
  rw [bytes_length ht] at hl
  simp only [discoverOne, hh]
  cases x with
  | other d p =>
    simp only [Item.Typed, knownTypes, List.mem_cons, not_or, List.not_mem_nil] at ht
    simp only [Item.header]
    simp only [HANDOFF, MEMORY_ALLOCATION, RESOURCE_DESCRIPTOR, GUID_EXTENSION, FV, FV2, FV3, CPU, UEFI_CAPSULE,
      RESOURCE_DESCRIPTOR2, END_OF_HOB_LIST, ht, if_false, Item.hobAt]
    simp [ht]
  | guid d data =>
    simp only [Item.Typed] at ht
    simp only [Item.header, Item.len] at hl ⊢
    simp only [ht.1, Item.hobAt, dataLen, hl, GUID_SIZE]
    simp [HANDOFF, MEMORY_ALLOCATION, RESOURCE_DESCRIPTOR, GUID_EXTENSION, Res.bind, END_OF_HOB_LIST]
  | _ =>
    simp only [Item.Typed] at ht
    simp only [Item.header, Item.len] at hl ⊢
    simp [ht, hl, HANDOFF, MEMORY_ALLOCATION, RESOURCE_DESCRIPTOR, GUID_EXTENSION, FV, FV2, FV3, CPU,
      UEFI_CAPSULE, RESOURCE_DESCRIPTOR2, END_OF_HOB_LIST, assertSize, allocHob, HANDOFF_SIZE, ALLOC_SIZE,
      MODULE_SIZE, RESOURCE_SIZE, FV_SIZE, FV2_SIZE, FV3_SIZE, CPU_SIZE, CAPSULE_SIZE, RESOURCE2_SIZE, Item.hobAt]

/-- The reference the iterator makes to a HOB at `a`. -/
def Item.iterAt (m : Mem) (x : Item) (a : Nat) : Hob :=
  match x with
  | .resource2 _ => .resource2 (u64 m a).toNat
  | x => x.hobAt a

/-- One step of the iterator on a well-formed HOB. -/
theorem iterOne_item {m : Mem} {a : Nat} {x : Item} {dbg : Bool} (h : Holds m a x.bytes)
    (hw : x.WellFormed) : iterOne dbg m a = .ok (x.iterAt m a) := by
  have hh := item_header h
  obtain ⟨ht, hl⟩ := hw
  rw [bytes_length ht] at hl
  simp only [iterOne, hh]
  cases x with
  | other d p =>
    simp only [Item.Typed, knownTypes, List.mem_cons, not_or, List.not_mem_nil] at ht
    simp only [Item.header]
    simp only [HANDOFF, MEMORY_ALLOCATION, RESOURCE_DESCRIPTOR, GUID_EXTENSION, FV, FV2, FV3, CPU, UEFI_CAPSULE,
      RESOURCE_DESCRIPTOR2, ht, if_false, Item.iterAt, Item.hobAt, false_and]
  | guid d data =>
    simp only [Item.Typed] at ht
    simp only [Item.header, Item.len] at hl ⊢
    simp only [ht.1, Item.iterAt, Item.hobAt, dataLen, hl, GUID_SIZE]
    simp [HANDOFF, MEMORY_ALLOCATION, RESOURCE_DESCRIPTOR, GUID_EXTENSION, Res.bind]
  | _ =>
    simp only [Item.Typed] at ht
    simp only [Item.header, Item.len] at hl ⊢
    simp [ht, hl, HANDOFF, MEMORY_ALLOCATION, RESOURCE_DESCRIPTOR, GUID_EXTENSION, FV, FV2, FV3, CPU,
      UEFI_CAPSULE, RESOURCE_DESCRIPTOR2, MODULE_SIZE, Item.iterAt, Item.hobAt]

theorem nextAddr_item {dbg : Bool} {a : Nat} {x : Item} (hw : x.WellFormed)
    (h : a + x.bytes.length < 2 ^ 64) : nextAddr dbg a x.header = .ok (a + x.bytes.length) := by
  have : ¬ 2 ^ 64 ≤ a + x.bytes.length := by omega
  simp only [nextAddr, hw.2, this, decide_false, Bool.and_false, Bool.false_eq_true, if_false,
    Nat.mod_eq_of_lt h]

/-- The rest of a list is a list. -/
theorem listAt_tail {m : Mem} {a : Nat} {x : Item} {xs : List Item} {e : Header}
    (h : ListAt m a (x :: xs) e) : ListAt m (a + x.bytes.length) xs e ∧ Holds m a x.bytes ∧ x.WellFormed ∧
      a + x.bytes.length < 2 ^ 64 := by
  have h1 := h.holds
  have h2 := h.inMemory
  have hn := h.notNull
  simp only [itemsBytes, List.append_assoc, holds_append, List.length_append, header_length] at h1 h2
  refine ⟨⟨by omega, ?_, ?_, fun y hy => h.wellFormed y (List.mem_cons_of_mem _ hy), h.isEnd⟩, h1.1,
    h.wellFormed x List.mem_cons_self, by omega⟩
  · simp only [holds_append]; exact h1.2
  · simp only [List.length_append, header_length]; omega

theorem listAt_nil {m : Mem} {a : Nat} {e : Header} (h : ListAt m a [] e) : readHeader m a = e :=
  readHeader_holds (by simpa [itemsBytes] using h.holds)

theorem readHeader_cons {m : Mem} {a : Nat} {x : Item} {xs : List Item} {e : Header}
    (h : ListAt m a (x :: xs) e) : readHeader m a = x.header := item_header (listAt_tail h).2.1

end Verif.Hob
