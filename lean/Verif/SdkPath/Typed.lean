import Verif.SdkPath.Props
/-!
The nodes with fields: what is written and read back, against the tables of the UEFI specification, section 10.3.
-/
namespace Verif.SdkPath

/-- The fields fit. -/
def Typed.Wf : Typed → Prop
  | .pci f d => f < 2 ^ 8 ∧ d < 2 ^ 8
  | .pcCard f => f < 2 ^ 8
  | .memoryMapped t a b => t < 2 ^ 32 ∧ a < 2 ^ 64 ∧ b < 2 ^ 64
  | .controller n => n < 2 ^ 32
  | .bmc i b => i < 2 ^ 8 ∧ b < 2 ^ 64
  | .acpi h u => h < 2 ^ 32 ∧ u < 2 ^ 32
  | .bios d s str => d < 2 ^ 16 ∧ s < 2 ^ 16 ∧ (0 : UInt8) ∉ str

/-- The node of the specification: PCI (function, device), PCCARD (function), memory mapped (type, start, end), controller (number), BMC (interface, base address), ACPI (`_HID`, `_UID`),
BIOS boot specification (device type, status flag, string that ends with a zero). -/
def Typed.node : Typed → Node
  | .pci f d => ⟨1, 1, leBytes 1 f ++ leBytes 1 d⟩
  | .pcCard f => ⟨1, 2, leBytes 1 f⟩
  | .memoryMapped t a b => ⟨1, 3, leBytes 4 t ++ leBytes 8 a ++ leBytes 8 b⟩
  | .controller n => ⟨1, 5, leBytes 4 n⟩
  | .bmc i b => ⟨1, 6, leBytes 1 i ++ leBytes 8 b⟩
  | .acpi h u => ⟨2, 1, leBytes 4 h ++ leBytes 4 u⟩
  | .bios d s str => ⟨5, 1, leBytes 2 d ++ leBytes 2 s ++ str ++ [0]⟩

theorem takeWhile_zero : ∀ (str rest : List UInt8), (0 : UInt8) ∉ str → (str ++ 0 :: rest).takeWhile (· ≠ 0) = str
  | [], _, _ => by simp
  | a :: str, rest, h => by
    have ha : a ≠ 0 := fun hc => h (hc ▸ List.mem_cons_self ..)
    rw [List.cons_append, List.takeWhile_cons_of_pos (by simpa using ha), takeWhile_zero str rest fun hc => h (List.mem_cons_of_mem _ hc)]

/-- C103: every one of the seven nodes of the specification is read with its fields. -/
theorem typed_read {t : Typed} (hw : t.Wf) : cast t.node.raw = some t := by
  have l1 : ∀ {v : Nat}, v < 2 ^ 8 → leVal (leBytes 1 v) = v := fun h => leVal_leBytes_of_lt (by simpa using h)
  have l2 : ∀ {v : Nat}, v < 2 ^ 16 → leVal (leBytes 2 v) = v := fun h => leVal_leBytes_of_lt (by simpa using h)
  have l4 : ∀ {v : Nat}, v < 2 ^ 32 → leVal (leBytes 4 v) = v := fun h => leVal_leBytes_of_lt (by simpa using h)
  have l8 : ∀ {v : Nat}, v < 2 ^ 64 → leVal (leBytes 8 v) = v := fun h => leVal_leBytes_of_lt (by simpa using h)
  have tk : ∀ {n v : Nat} {l : List UInt8}, (leBytes n v ++ l).take n = leBytes n v := fun {n v l} => by
    conv => lhs; arg 1; rw [← leBytes_length n v]
    exact List.take_left
  have dr : ∀ {n v : Nat} {l : List UInt8}, (leBytes n v ++ l).drop n = l := fun {n v l} => by
    conv => lhs; arg 1; rw [← leBytes_length n v]
    exact List.drop_left
  have tk' : ∀ {n v : Nat}, (leBytes n v).take n = leBytes n v := fun {n v} => List.take_of_length_le (by simp)
  cases t with
  | pci f d => simp [cast, Typed.node, Node.raw, tk, dr, tk', l1 hw.1, l1 hw.2]
  | pcCard f => simp [cast, Typed.node, Node.raw, tk', l1 hw]
  | memoryMapped t a b =>
    have h12 : (leBytes 4 t ++ (leBytes 8 a ++ leBytes 8 b)).drop 12 = leBytes 8 b := by
      rw [show (12 : Nat) = 4 + 8 from rfl, ← List.drop_drop, dr, dr]
    simp [cast, Typed.node, Node.raw, tk, dr, tk', h12, l4 hw.1, l8 hw.2.1, l8 hw.2.2]
  | controller n => simp [cast, Typed.node, Node.raw, tk', l4 hw]
  | bmc i b => simp [cast, Typed.node, Node.raw, tk, dr, tk', l1 hw.1, l8 hw.2]
  | acpi h u => simp [cast, Typed.node, Node.raw, tk, dr, tk', l4 hw.1, l4 hw.2]
  | bios d s str =>
    have h4 : (leBytes 2 d ++ (leBytes 2 s ++ (str ++ [0]))).drop 4 = str ++ [0] := by
      rw [show (4 : Nat) = 2 + 2 from rfl, ← List.drop_drop, dr, dr]
    have hz := takeWhile_zero str [] hw.2.2
    simp only [cast, Typed.node, Node.raw, List.append_assoc, h4, tk, dr, l2 hw.1, l2 hw.2.1, hz]
    simp
    omega

/-- The nodes whose structure has no padding and no string. -/
def Typed.Packed : Typed → Prop
  | .pci .. | .pcCard .. | .controller .. | .acpi .. => True
  | .memoryMapped .. | .bmc .. | .bios .. => False

/-- C103 (PCI, PCCARD, controller and ACPI nodes): the node that is written is that of the specification, in every build. What is missing: `memory_mapped_padded`, `bmc_padded`, `bios_padded`, `bios_cut`. -/
theorem typed_written_partial {dbg : Bool} {buf : List UInt8} {t : Typed} (ht : t.Packed) :
    append dbg buf t.item = .ok (buf ++ t.node.bytes) := by
  have hx : t.item.Exact ∧ t.item.bytes = t.node.bytes := by
    unfold Item.Exact
    cases t with
    | pci f d => simp [Typed.item, Typed.node, Item.bytes, Node.bytes]
    | pcCard f => simp [Typed.item, Typed.node, Item.bytes, Node.bytes]
    | controller n => simp [Typed.item, Typed.node, Item.bytes, Node.bytes]
    | acpi h u => simp [Typed.item, Typed.node, Item.bytes, Node.bytes]
    | memoryMapped t a b => exact ht.elim
    | bmc i b => exact ht.elim
    | bios d s str => exact ht.elim
  rw [append_exact hx.1, hx.2]

/-- C103: writing and reading give the fields back, for these nodes and anything that follows. -/
theorem typed_round_trip_partial {dbg : Bool} {t : Typed} (hw : t.Wf) (ht : t.Packed) (rest : List UInt8) :
    ∃ b, append dbg [] t.item = .ok b ∧ (nodes (b ++ rest)).1.head?.bind cast = some t := by
  refine ⟨_, typed_written_partial ht, ?_⟩
  rw [List.nil_append, nodes_node]
  · simpa using typed_read hw
  · cases t with
    | bios d s str => exact ht.elim
    | _ => simp [Typed.node]

/-- What is written if the length says more than the pieces have. -/
theorem append_padded {buf : List UInt8} {x : Item} {k : Nat} (h : x.len = x.pieces.flatten.length + 4 + k) (hk : k ≠ 0) :
    append false buf x = .ok (buf ++ x.bytes ++ List.replicate k 0) ∧ append true buf x = .panic := by
  have hl : x.bytes.length + k = x.len := by
    unfold Item.bytes
    rw [h]
    simp only [List.length_cons, List.length_append, leBytes_length]
    omega
  have hw : writePieces x.len ([x.type] :: [x.sub] :: leBytes 2 x.len :: x.pieces) = (x.bytes, true) := by
    rw [writePieces_fits]
    · rfl
    · have : ([x.type] :: [x.sub] :: leBytes 2 x.len :: x.pieces).flatten = x.bytes := rfl
      rw [this]
      omega
  unfold append Item.writeInto
  simp only [hw, if_true]
  rw [show x.len - x.bytes.length = k by omega]
  constructor
  · rw [if_neg (by simp)]
    simp
  · rw [if_pos ⟨trivial, by omega⟩]

/-- The code does not meet the full property: a memory mapped node is written with a length of 28 and four bytes behind the end address (the specification: 24), and a debug build panics. -/
theorem memory_mapped_padded (buf : List UInt8) (t a b : Nat) :
    append false buf (Typed.memoryMapped t a b).item = .ok (buf ++ Node.bytes ⟨1, 3, leBytes 4 t ++ leBytes 8 a ++ leBytes 8 b ++ [0, 0, 0, 0]⟩) ∧
    append true buf (Typed.memoryMapped t a b).item = .panic := by
  have := append_padded (buf := buf) (x := (Typed.memoryMapped t a b).item) (k := 4) (by simp [Typed.item]) (by decide)
  refine ⟨this.1.trans ?_, this.2⟩
  simp [Item.bytes, Typed.item, Node.bytes, List.replicate]

/-- The code does not meet the full property: a BMC node is written with a length of 20 (the specification: 13), and a debug build panics. -/
theorem bmc_padded (buf : List UInt8) (i b : Nat) :
    append false buf (Typed.bmc i b).item = .ok (buf ++ Node.bytes ⟨1, 6, leBytes 1 i ++ leBytes 8 b ++ [0, 0, 0, 0, 0, 0, 0]⟩) ∧
    append true buf (Typed.bmc i b).item = .panic := by
  have := append_padded (buf := buf) (x := (Typed.bmc i b).item) (k := 7) (by simp [Typed.item]) (by decide)
  refine ⟨this.1.trans ?_, this.2⟩
  simp [Item.bytes, Typed.item, Node.bytes, List.replicate]

/-- The code does not meet the full property: a BIOS node has a length of 36 whatever its string; a shorter string is padded, and a debug build panics. -/
theorem bios_padded (buf : List UInt8) (d s : Nat) (str : List UInt8) (h : str.length < 24) :
    append false buf (Typed.bios d s str).item = .ok (buf ++ Node.bytes ⟨5, 1, leBytes 2 d ++ leBytes 2 s ++ str ++ List.replicate (28 - str.length) 0⟩) ∧
    append true buf (Typed.bios d s str).item = .panic := by
  have := append_padded (buf := buf) (x := (Typed.bios d s str).item) (k := 24 - str.length) (by simp [Typed.item]; omega) (by omega)
  refine ⟨this.1.trans ?_, this.2⟩
  have hz : leBytes 4 0 = List.replicate 4 0 := by decide
  have hr : List.replicate 4 (0 : UInt8) ++ List.replicate (24 - str.length) 0 = List.replicate (28 - str.length) 0 := by
    rw [List.replicate_append_replicate]
    congr 1
    omega
  have hn : 2 + (2 + (str.length + (28 - str.length))) + 4 = 4 + 32 := by omega
  simp only [Item.bytes, Typed.item, Node.bytes, List.flatten_cons, List.flatten_nil, List.append_nil, hz, List.append_assoc, List.cons_append, List.length_append, leBytes_length,
    List.length_replicate, hn, hr]

/-- The code does not meet the full property: a longer string is lost, with no error: a node with zeros is written in its place (up to 28 bytes of it are written, then no end). -/
theorem bios_cut (buf : List UInt8) (d s : Nat) (str : List UInt8) (h : 28 < str.length) :
    append false buf (Typed.bios d s str).item = .ok (buf ++ Node.bytes ⟨5, 1, leBytes 2 d ++ leBytes 2 s ++ List.replicate 28 0⟩) ∧
    append true buf (Typed.bios d s str).item = .panic := by
  have hw : writePieces 36 ([5] :: [1] :: leBytes 2 36 :: [leBytes 2 d, leBytes 2 s, str, leBytes 4 0]) = ([5] ++ ([1] ++ (leBytes 2 36 ++ (leBytes 2 d ++ (leBytes 2 s ++ [])))), false) := by
    simp only [writePieces, List.length_cons, List.length_nil, leBytes_length]
    simp [show ¬ str.length ≤ 28 by omega]
  unfold append Item.writeInto
  simp only [Typed.item, hw]
  constructor
  · simp [Node.bytes]
  · simp

/-! ### EISA identifiers -/

/-- The identifier as the UEFI specification stores it (section 10.3.3, and `EISA_PNP_ID`): the three letters compressed in the low 16 bits, the number in the high 16 bits. -/
def pnpHid (number : Nat) : Nat := number * 65536 + 0x41D0

/-- C103: the three letters and the four digits of an identifier can be told from its number: five bits for each letter, four for each digit, in order from the top. -/
theorem eisa_id_digits {a b c d e f g : Nat} (ha : 0x40 ≤ a) (hb : 0x40 ≤ b) (hc : 0x40 ≤ c) {h1 h2 h3 h4 : Nat}
    (hd : digit d = some h1) (he : digit e = some h2) (hf : digit f = some h3) (hg : digit g = some h4) :
    eisaId [a, b, c, d, e, f, g] = some ((((((((a - 0x40) % 32 * 32 + (b - 0x40) % 32) * 32 + (c - 0x40) % 32) * 16 + h1) * 16 + h2) * 16 + h3) * 16) + h4) := by
  simp only [eisaId]
  rw [if_neg (by omega), hd, he, hf, hg]
  simp only
  have : ∀ x : Nat, x < 32 → x * 32 % 256 = x * 32 - x / 8 * 256 := by omega
  congr 1
  rw [this _ (Nat.mod_lt _ (by decide))]
  have h8 : (b - 0x40) % 32 / 8 * 256 ≤ (b - 0x40) % 32 * 32 := by omega
  omega

/-- The code does not meet the full property: the identifier of a PCI root bridge, "PNP0A03", is not the one of the specification: its halves are swapped, and the letters and the number have their
bytes in the other order, so the device path of a root bridge differs from that of other firmware. -/
theorem pci_root_differs : eisaId [0x50, 0x4E, 0x50, 0x30, 0x41, 0x30, 0x33] = some 0x41D00A03 ∧ pnpHid 0x0A03 = 0x0A0341D0 := by decide

example : (Typed.acpi 0x41D00A03 0).Wf ∧ (Typed.bios 1 0 [0x48, 0x44]).Wf ∧ (Typed.memoryMapped 11 0x1000 0x1FFF).Wf := by
  refine ⟨⟨by decide, by decide⟩, ⟨by decide, by decide, by decide⟩, by decide, by decide, by decide⟩

end Verif.SdkPath
