import Verif.Hob.Relocate
/-!
Concrete HOB lists: the hypotheses of the theorems of `Props` and `Relocate` are met, and what the code gets
wrong is shown on lists the specification allows.
-/
namespace Verif.Hob.Witness

/-- A memory with the bytes `bs` at `a` and zeros elsewhere. -/
def memOf (a : Nat) (bs : List UInt8) : Mem := fun x => if a ≤ x then bs.getD (x - a) 0 else 0

theorem holds_memOf (a : Nat) (bs : List UInt8) : Holds (memOf a bs) a bs := by
  intro i b hb
  have e : a + i - a = i := by omega
  simp only [memOf, Nat.le_add_right, if_true, e, List.getD_eq_getElem?_getD, hb, Option.getD_some]

def phit : Handoff := ⟨⟨1, 56, 0⟩, 9, 0, 0x80000000, 0x1000, 0x7000000, 0x200000, 0x2000⟩
def name : List UInt8 := List.replicate 16 0xAB
def guidHob : GuidHob := ⟨⟨4, 32, 0⟩, name⟩
def res : ResourceDescriptor := ⟨⟨3, 48, 0⟩, name, 0, 7, 0x100000, 0x4000000⟩
def res2 : ResourceDescriptorV2 := ⟨⟨⟨13, 56, 0⟩, name, 0, 7, 0x10000000, 0x4000000⟩, 8⟩
def stack : MemoryAllocation := ⟨⟨2, 48, 0⟩, ⟨name, 0x300000, 0x20000, 4, [0, 0, 0, 0]⟩⟩
def core : MemoryAllocationModule := ⟨⟨2, 72, 0⟩, ⟨name, 0x400000, 0x80000, 3, [0, 0, 0, 0]⟩, name, 0x401000⟩
def vol3 : FirmwareVolume3 := ⟨⟨12, 64, 0⟩, 0x900000, 0x10000, 0, 1, name, name⟩
def cpu : Cpu := ⟨⟨6, 16, 0⟩, 36, 16, [0, 0, 0, 0, 0, 0]⟩
def endOf : Header := ⟨0xFFFF, 8, 0⟩

/-- A list of the usual HOBs. -/
def items : List Item :=
  [.handoff phit, .cpu cpu, .resource res, .alloc stack, .module core, .guid guidHob [1, 2, 3, 4, 5, 6, 7, 8],
    .fv ⟨⟨5, 24, 0⟩, 0x800000, 0x20000⟩, .fv3 vol3 [0, 0, 0], .resource2 res2, .other ⟨0x20, 16, 0⟩ [1, 2, 3, 4, 5, 6, 7, 8]]

def m0 : Mem := memOf 0x1000 (itemsBytes items ++ endOf.bytes)

/-- `ListAt` is met by a list of ten HOBs, one of them of an unknown type and one of version 2. -/
theorem items_listAt : ListAt m0 0x1000 items endOf where
  notNull := by decide
  holds := holds_memOf _ _
  inMemory := by decide +kernel
  wellFormed := by
    intro x hx
    simp only [items, List.mem_cons, List.not_mem_nil, or_false] at hx
    rcases hx with rfl | rfl | rfl | rfl | rfl | rfl | rfl | rfl | rfl | rfl <;>
      refine ⟨?_, by decide +kernel⟩ <;> simp [Item.Typed, phit, cpu, res, stack, core, guidHob, vol3, res2, name, knownTypes]
  isEnd := rfl

example : ∃ hs : List Hob, discover true m0 100 0x1000 [] = .ok hs ∧ hs.map (view m0) = items.map Item.seen := by
  obtain ⟨hs, h, hv, _⟩ := discover_spec items_listAt true (fuel := 100) (by decide) []
  exact ⟨hs, h, hv⟩

/-- The list of the code that results. -/
def hobs : List Hob :=
  [.handoff 0x1000, .cpu 0x1038, .resource 0x1048, .alloc 0x1078, .module 0x10A8, .guid 0x10F0 0x1108 8,
    .fv 0x1110, .fv3 0x1128, .resource2 0x1168, .misc 0x20]

example : hobsAt 0x1000 items = hobs := by decide +kernel

/-- The blocks an allocator could return for that list, all outside of it. -/
def blocks : List (Nat × Nat) :=
  [(0x5000, 0), (0x5100, 0), (0x5200, 0), (0x5300, 0), (0x5400, 0), (0x5500, 0x5600), (0x5700, 0), (0x5800, 0),
    (0x5900, 0), (0, 0)]

theorem apart_of {r s : Nat × Nat} (h : r.1 + r.2 ≤ s.1 ∨ s.1 + s.2 ≤ r.1) : Apart r s := by
  intro i j hi hj; omega

theorem blocks_fresh : FreshBlocks blocks hobs where
  enough := rfl
  apart := by
    have h : (newRegions blocks hobs).Pairwise (fun r s => r.1 + r.2 ≤ s.1 ∨ s.1 + s.2 ≤ r.1) := by decide +kernel
    exact h.imp apart_of
  fresh := by
    have h : ∀ r ∈ newRegions blocks hobs, ∀ h ∈ hobs, ∀ s ∈ h.regions, r.1 + r.2 ≤ s.1 ∨ s.1 + s.2 ≤ r.1 := by
      decide +kernel
    exact fun r hr h' hh s hs => apart_of (h r hr h' hh s hs)

/-- The well-formed part of a list, for the theorems about what follows it. -/
example : PrefixAt m0 0x1000 items := items_listAt.prefix

/-- A processor HOB whose header claims 24 bytes after a well-formed HOB. -/
def badCpu : Mem := memOf 0x1000 ((Item.handoff phit).bytes ++ (Header.mk 6 24 0).bytes)

theorem badCpu_prefix : PrefixAt badCpu 0x1000 [.handoff phit] where
  notNull := by decide
  holds := by
    have h := holds_memOf 0x1000 ((Item.handoff phit).bytes ++ (Header.mk 6 24 0).bytes)
    have := (holds_append.1 h).1
    simpa [itemsBytes, badCpu] using this
  inMemory := by decide +kernel
  wellFormed := by
    intro x hx
    simp only [List.mem_cons, List.not_mem_nil, or_false] at hx
    subst hx
    exact ⟨rfl, by decide +kernel⟩

example : discover false badCpu 10 0x1000 [] = .panic :=
  wrong_size_panics badCpu_prefix (t := 6) (sizes := [16]) (by decide) (by decide +kernel) (by decide +kernel) false
    (by decide) []

/-- A GUID HOB that claims eight bytes. -/
def badGuid : Mem := memOf 0x1000 ((Item.handoff phit).bytes ++ (Header.mk 4 8 0).bytes)

theorem badGuid_prefix : PrefixAt badGuid 0x1000 [.handoff phit] where
  notNull := by decide
  holds := by
    have h := holds_memOf 0x1000 ((Item.handoff phit).bytes ++ (Header.mk 4 8 0).bytes)
    have := (holds_append.1 h).1
    simpa [itemsBytes, badGuid] using this
  inMemory := by decide +kernel
  wellFormed := badCpu_prefix.wellFormed

example : discover true badGuid 10 0x1000 [] = .panic :=
  short_guid_panics badGuid_prefix (by decide +kernel) (by decide +kernel) (by decide) []

example : ∃ n, discoverOne false badGuid 0x1038 = .ok (.guid 0x1038 0x1050 n) ∧ 2 ^ 64 - 24 ≤ n :=
  short_guid_huge (by decide +kernel) (by decide +kernel)

/-- An unused HOB (type `0xFFFE`) of length zero. -/
def stuck : Mem := memOf 0x1000 (Header.mk 0xFFFE 0 0).bytes

example : ∀ fuel, iterate false stuck fuel 0x1000 = .running :=
  (zero_length_never_ends (by decide) (by decide) (by decide +kernel) (by decide +kernel) false).2.1

/-- Of a HOB of unknown type only the type is kept: `HobList::size` counts two bytes for its sixteen, and the
header `Hob::header` makes up for it does not have its length. -/
theorem unknown_loses :
    ∃ (m : Mem) (xs : List Item) (e : Header) (hs : List Hob), ListAt m 0x1000 xs e ∧
      discover true m 100 0x1000 [] = .ok hs ∧
      listSize m hs + 14 = (itemsBytes xs).length ∧
      hs.map (header m) ≠ xs.map Item.header :=
  ⟨m0, items, endOf, hobs, items_listAt, by decide +kernel, by decide +kernel, by decide +kernel⟩

/-- `HobIter` does not show the resource descriptor of version 2 of a well-formed list. -/
theorem iterator_misreads :
    ∃ (m : Mem) (xs : List Item) (e : Header) (hs : List Hob), ListAt m 0x1000 xs e ∧
      iterate true m 100 0x1000 = .ok hs ∧ hs.map (view m) ≠ xs.map Item.seen :=
  ⟨m0, items, endOf, [.handoff 0x1000, .cpu 0x1038, .resource 0x1048, .alloc 0x1078, .module 0x10A8,
    .guid 0x10F0 0x1108 8, .fv 0x1110, .fv3 0x1128, .resource2 0x38000D, .misc 0x20], items_listAt,
    by decide +kernel, by decide +kernel⟩

end Verif.Hob.Witness
