import Verif.Resources.Accept
import Verif.Hob.Witness
/-!
Concrete HOB lists for C52: the hypotheses of the theorems are met, and what the code gets wrong happens.
-/
namespace Verif.Resources.Witness
open Verif.Gcd Verif.Hob

def name : List UInt8 := List.replicate 16 0xAB
def phit : Handoff := ⟨⟨1, 56, 0⟩, 9, 0, 0x80000000, 0x1000, 0x7000FFF, 0x1FF001, 0x2000⟩
def cpu : Cpu := ⟨⟨6, 16, 0⟩, 36, 16, [0, 0, 0, 0, 0, 0]⟩
/-- system memory around the free memory -/
def low : ResourceDescriptor := ⟨⟨3, 48, 0⟩, name, 0, 0x2007, 0x100000, 0x8000000⟩
/-- system memory that can be write-back, and is to be -/
def high : ResourceDescriptorV2 := ⟨⟨⟨13, 56, 0⟩, name, 0, 0x2007, 0x10000000, 0x4000000⟩, 8⟩
/-- memory-mapped and port I/O -/
def device : ResourceDescriptor := ⟨⟨3, 48, 0⟩, name, 1, 0x403, 0xC0000000, 0x1000000⟩
def ports : ResourceDescriptor := ⟨⟨3, 48, 0⟩, name, 2, 0x7, 0x3F8, 8⟩
def endOf : Header := ⟨0xFFFF, 8, 0⟩

def items : List Item :=
  [.handoff phit, .cpu cpu, .resource low, .resource2 high, .resource device, .resource ports]
def views : List View := [.handoff phit, .cpu cpu, .resource low, .resource2 high, .resource device, .resource ports]

/-- What a call yields, if it returns. -/
def get (r : Res Machine) : Machine := match r with | .ok s => s | _ => Init.machine {}
def returns (r : Res Machine) : Bool := match r with | .ok _ => true | _ => false

theorem get_eq {r : Res Machine} (h : returns r = true) : r = .ok (get r) := by
  cases r <;> simp_all [returns, get]

def s0 : Machine := get (initGcd true 64 views)
def s1 : Machine := get (addResources true 5 64 views s0)

theorem init_returns : initGcd true 64 views = .ok s0 := get_eq (by decide +kernel)
theorem add_returns : addResources true 5 64 views s0 = .ok s1 := get_eq (by decide +kernel)

theorem free : FreeMemory phit (0x200000, 0x7000000) := ⟨by decide, by decide⟩

example : handoffs views = [phit] ∧ cpus views = [cpu] := ⟨rfl, rfl⟩

/-- The hypotheses of `init_ok`. -/
theorem ready : Ready 64 s0 := by
  obtain ⟨_, _, _, _, _, h, _⟩ := init_ok (nodeSize := 64) (by decide) rfl rfl init_returns
  exact h

/-- The hypotheses of `resources_mapped_partial`, and what follows for one address of the descriptor of version 2. -/
example : ∃ c, cellAt s1.mem.blocks 0x10001234 = some c ∧ Placed high.v1 .systemMemory c ∧ c.attrs = 0x2008 := by
  have hm : MapsTo high.v1 .systemMemory := mapsTo_iff.2 ⟨by decide, by decide⟩
  obtain ⟨-, h, -⟩ := resources_mapped_partial ready rfl free (by decide) add_returns (.resource2 high) (by simp [views]) _ _ (.two high)
  obtain ⟨-, c, h1, h2, h3⟩ := (h _ hm).2 0x10001234 (by unfold Covers; decide) (by decide) (by unfold StartsIn; decide)
  refine ⟨c, h1, h2, ?_⟩
  rcases h3 with h3 | ⟨h3, _⟩
  · rw [h3]; decide
  · cases h3

/-- The descriptor `low` reaches around the free memory, on both sides. -/
example : (cellAt s1.mem.blocks 0x1FFFFF).isSome ∧ (cellAt s1.mem.blocks 0x1FFFFF).map Cell.type = some .systemMemory ∧
    (cellAt s1.mem.blocks 0x7000000).map Cell.type = some .systemMemory ∧
    (cellAt s1.mem.blocks 0x8100000).map Cell.type = some .nonExistent := by decide +kernel

def m0 : Mem := Hob.Witness.memOf 0x1000 (itemsBytes items ++ endOf.bytes)

theorem items_listAt : ListAt m0 0x1000 items endOf where
  notNull := by decide
  holds := Hob.Witness.holds_memOf _ _
  inMemory := by decide +kernel
  wellFormed := by
    intro x hx
    simp only [items, List.mem_cons, List.not_mem_nil, or_false] at hx
    rcases hx with rfl | rfl | rfl | rfl | rfl | rfl <;>
      refine ⟨?_, by decide +kernel⟩ <;> simp [Item.Typed, phit, cpu, low, high, device, ports, name, knownTypes]
  isEnd := rfl

/-- The hypotheses of `startup_partial` are met by that list in memory, with an allocation in between. -/
example : ∃ hs hs' t0 t2, iterate true m0 100 0x1000 = .ok hs ∧ initGcd true 64 (hs.map (view m0)) = .ok t0 ∧
    discover true m0 100 0x1000 [] = .ok hs' ∧
    addResources true 5 64 (hs'.map (view m0)) ⟨t0.mem.run 64 [.allocate (.bottomUp none) .systemMemory 12 0x3000 1 none], t0.io.run []⟩
      = .ok t2 := by
  obtain ⟨hs', hd, hv', -⟩ := discover_spec items_listAt true (fuel := 100) (by decide) []
  have hit : iterate true m0 100 0x1000 = .ok (match iterate true m0 100 0x1000 with | .ok l => l | _ => []) := by decide +kernel
  refine ⟨_, hs', s0, get (addResources true 5 64 views
    ⟨s0.mem.run 64 [.allocate (.bottomUp none) .systemMemory 12 0x3000 1 none], s0.io.run []⟩), hit, by decide +kernel, hd, ?_⟩
  rw [hv']
  exact get_eq (by decide +kernel)

/-! ### The hypotheses of `resources_accepted` -/

theorem s0_cells : (∀ a, ¬ In (0x200000, 0x7000000) a → a < 2 ^ 36 → cellAt s0.mem.blocks a = some emptyCell) ∧
    ∀ a, a < 2 ^ 16 → cellAt s0.io.map a = some emptyIoCell := by
  obtain ⟨f, hf, -, h2, -, -, h3, h4⟩ := init_ok (nodeSize := 64) (by decide) rfl rfl init_returns
  have := freeMemory_unique hf free
  subst this
  refine ⟨fun a h1 h2 => ?_, fun a h => ?_⟩
  · rw [h3 a]
    simp only [In] at h1
    rw [if_neg (by omega), if_neg (by omega), if_pos (by simpa [cpu] using h2)]
  · rw [h4 a, if_pos (by simpa [cpu] using h)]

theorem acceptable {d : ResourceDescriptor} {attrs : Option Nat} (h1 : 0 < d.length.toNat) (h2 : d.start.toNat + d.length.toNat < 2 ^ 36)
    (h3 : d.resourceType.toNat ≤ 6) (h4 : attributesValid d.attr.toNat = true)
    (h5 : (∃ ty, MapsToIo d ty) → d.start.toNat + d.length.toNat < 2 ^ 16)
    (h6 : ∀ ty x, MapsTo d ty → attrs = some x → attributesOf ty attrs ≠ 0 ∧ 4096 ∣ d.start.toNat ∧ 4096 ∣ d.length.toNat ∧
      ∀ j, (attributesOf ty attrs).testBit j = true → Capable d ty j ∨ j = 13) :
    Acceptable true (0x200000, 0x7000000) s0 d attrs where
  length := h1
  fits := by omega
  known := fun _ => h3
  consistent := fun _ _ => consistent_iff.2 h4
  free := fun _ _ a hc hn => s0_cells.1 a hn (by have := hc.2; omega)
  freeIo := fun ty hm a hc => s0_cells.2 a (by have := hc.2; have := h5 ⟨ty, hm⟩; omega)
  attributes := fun ty x hm hx => (h6 ty x hm hx).1
  supported := fun _ ty x hm hx => (h6 ty x hm hx).2

theorem high_supported (j : Nat) (h : (attributesOf .systemMemory (some 8)).testBit j = true) :
    Capable high.v1 .systemMemory j ∨ j = 13 := by
  have hlt : j < 14 := by
    apply Classical.byContradiction
    intro hn
    have hp : 2 ^ 14 ≤ 2 ^ j := Nat.pow_le_pow_right (by omega) (by omega)
    rw [Nat.testBit_lt_two_pow (Nat.lt_of_lt_of_le (by decide) hp)] at h
    cases h
  have key : ∀ j < 14, (attributesOf .systemMemory (some 8)).testBit j = true → j = 3 ∨ j = 13 := by decide
  have hj := key j hlt h
  rcases hj with rfl | rfl
  · exact .inl ⟨(13, 3, true), by decide, rfl, rfl, .inl rfl⟩
  · exact .inr rfl

theorem no_io {d : ResourceDescriptor} (h : d.resourceType ≠ 2 ∧ d.resourceType ≠ 6) : ¬ ∃ ty, MapsToIo d ty := by
  rintro ⟨ty, hm⟩
  cases hm with
  | io e => exact h.1 e
  | reserved e => exact h.2 e

example : ∃ s', addResources true 5 64 views s0 = .ok s' := by
  have hlow : Acceptable true (0x200000, 0x7000000) s0 low none :=
    acceptable (by decide) (by decide) (by decide) (by decide) (fun h => absurd h (no_io (by decide))) (fun _ _ _ h => by cases h)
  have hhigh : Acceptable true (0x200000, 0x7000000) s0 high.v1 (some 8) :=
    acceptable (by decide) (by decide) (by decide) (by decide) (fun h => absurd h (no_io (by decide))) (fun ty x hm h => by
      have : ty = .systemMemory := mapsTo_unique hm (mapsTo_iff.2 ⟨by decide, by decide⟩)
      subst this
      exact ⟨by decide, by decide, by decide, high_supported⟩)
  have hdev : Acceptable true (0x200000, 0x7000000) s0 device none :=
    acceptable (by decide) (by decide) (by decide) (by decide) (fun h => absurd h (no_io (by decide))) (fun _ _ _ h => by cases h)
  have hports : Acceptable true (0x200000, 0x7000000) s0 ports none :=
    acceptable (by decide) (by decide) (by decide) (by decide) (fun _ => by decide) (fun _ _ _ h => by cases h)
  refine resources_accepted (p := phit) (by decide) ready rfl free (by decide) (by decide +kernel) (by decide +kernel) ?_ ?_
  · intro v hv d attrs hd
    simp only [views, List.mem_cons, List.not_mem_nil, or_false] at hv
    rcases hv with rfl | rfl | rfl | rfl | rfl | rfl <;> cases hd
    · exact hlow
    · exact hhigh
    · exact hdev
    · exact hports
  · have key : views.Pairwise fun v w => ∀ q ∈ (resourceOf v).toList, ∀ q' ∈ (resourceOf w).toList,
        q.1.start.toNat + q.1.length.toNat ≤ q'.1.start.toNat ∨ q'.1.start.toNat + q'.1.length.toNat ≤ q.1.start.toNat := by
      decide +kernel
    refine key.imp fun h d x e y hd he => ?_
    have h := h (d, x) (by rw [describes_iff.1 hd]; simp) (e, y) (by rw [describes_iff.1 he]; simp)
    dsimp only at h
    unfold Covers
    exact ⟨fun _ _ _ _ a h1 h2 => by omega, fun _ _ _ _ a h1 h2 => by omega⟩

/-! ### Findings -/

/-- A gigabyte of memory whose range begins inside the free memory. -/
def straddling : ResourceDescriptor := ⟨⟨3, 48, 0⟩, name, 0, 0x2007, 0x6000000, 0x40000000⟩

/-- Start-up succeeds, and the memory behind the free memory does not exist (`tail_is_lost`): gcd.rs lines 211-213. -/
theorem tail_does_not_exist :
    let s := get (addResources true 5 64 [.handoff phit, .resource straddling] s0)
    returns (addResources true 5 64 [.handoff phit, .resource straddling] s0) = true ∧
    MapsTo straddling .systemMemory ∧ Covers straddling 0x8000000 ∧ ¬ In (0x200000, 0x7000000) 0x8000000 ∧
    (cellAt s.mem.blocks 0x8000000).map Cell.type = some .nonExistent := by
  refine ⟨by decide +kernel, mapsTo_iff.2 ⟨by decide, by decide⟩, by unfold Covers; decide, by decide, by decide +kernel⟩

/-- A descriptor of version 2 of memory-mapped I/O without attributes makes start-up panic, in every build: the setting of no
attributes succeeds, and only `NotReady` is expected (lines 230-249). -/
theorem no_attributes_panics (dbg : Bool) :
    addResources dbg 5 64 [.handoff phit, .resource2 ⟨device, 0⟩] s0 = .panic := by
  cases dbg <;> decide +kernel

/-- Memory that is not said to support write-back but is to be: a debug build panics, a release build leaves out the attribute. -/
theorem unsupported_passed_over :
    let d : ResourceDescriptorV2 := ⟨{ high.v1 with attr := 7 }, 8⟩
    let s := get (addResources false 5 64 [.handoff phit, .resource2 d] s0)
    addResources true 5 64 [.handoff phit, .resource2 d] s0 = .panic ∧
    returns (addResources false 5 64 [.handoff phit, .resource2 d] s0) = true ∧
    (cellAt s.mem.blocks 0x10000000).map Cell.attrs = some 0x2000 ∧ attributesOf .systemMemory (some 8) = 0x2008 := by
  decide +kernel

/-- Memory that is read-protected and can be read-protected (bits 7 and 20) makes start-up panic, with any resource type that
stands for memory; one that is read-protected and can only be read-only (bits 7 and 19) does not: hob.rs line 447. -/
theorem read_protected_needs_read_only (dbg : Bool) :
    addResources dbg 5 64 [.handoff phit, .resource { device with attr := 0x100080 }] s0 = .panic ∧
    returns (addResources dbg 5 64 [.handoff phit, .resource { device with attr := 0x80080 }] s0) = true := by
  cases dbg <;> decide +kernel

/-- Without a CPU HOB start-up panics. -/
example : initGcd true 64 [.handoff phit] = .panic := by decide +kernel

end Verif.Resources.Witness
