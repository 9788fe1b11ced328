import Verif.Paging.Init
/-!
Model of compatibility mode: `SpinLockedGcd::activate_compatibility_mode`, `/repo/patina_dxe_core/src/gcd/spin_locked_gcd.rs` lines
2569-2623, and `activate_compatibility_mode` of `/repo/patina_dxe_core/src/image.rs` lines 673-726, which calls it for an
application that is not NX compatible.

As in `Init.lean`, `failed` counts the errors that are logged and carried on from (they stop a debug build), `calls` lists the
calls that set attributes.
-/
namespace Verif.Paging
open Verif.Gcd

/-- `LEGACY_BIOS_WB_ADDRESS`, line 2575 -/
def LEGACY_END : Nat := 0xA0000

/-- Lines 2580-2588: page 0. -/
def Init.mapZero (dbg : Bool) (fs : Nat → Faults) (s : Init) : Progress :=
  match s.mem.gcd.descriptorFor 0 with
  | .ok d => if d.st.type ≠ .nonExistent then s.attempt dbg fs ⟨0, 4096, MEMORY_WB⟩ else .at s
  | _ => .at s

/-- Lines 2598-2607: what is asked for at `address`, inside descriptor `d`. -/
def legacyCall (address : Nat) (d : Block Cell) : SetCall :=
  ⟨address, if LEGACY_END < addw address d.len then LEGACY_END - address else d.len, d.st.attrs &&& CACHE_ATTRIBUTE_MASK⟩

/-- Lines 2592-2622, the loop; `none` rounds left: it hangs. The sum of lines 2598 and 2621 is checked in debug builds. -/
def Init.legacy (dbg : Bool) (fs : Nat → Faults) : Nat → Init → Nat → Progress
  | 0, _, _ => .hangs
  | n + 1, s, address =>
    if address < LEGACY_END then
      match s.mem.gcd.descriptorFor address with
      | .ok d =>
        if d.st.type = .systemMemory then
          if dbg = true ∧ W ≤ address + d.len then .panics
          else (s.attempt dbg fs (legacyCall address d)).then fun s =>
            Init.legacy dbg fs n s (addw address (legacyCall address d).len)
        else Init.legacy dbg fs n s (address + 4096)
      | _ => Init.legacy dbg fs n s (address + 4096)
    else .at s

/-- `activate_compatibility_mode`, lines 2574-2624; the last is line 1155. The loop makes at most a round for each byte. -/
def activateCompat (dbg : Bool) (fs : Nat → Faults) (m : Mem) : Progress :=
  (Init.mapZero dbg fs ⟨m, 0, []⟩).then fun s => (s.legacy dbg fs (LEGACY_END + 1) 4096).then fun s =>
    .at { s with mem := { s.mem with dflt := 0 } }

/-- image.rs lines 696-713: the image itself, `[base, base + len)`, is made writable and executable. An error of the page table
not being there is none (dxe_services.rs lines 160-168). -/
def Init.mapImage (dbg : Bool) (fs : Nat → Faults) (base len : Nat) (s : Init) : Progress :=
  match s.mem.coreSetAttributes dbg (fs s.calls.length) (len + 1) base len (s.mem.attrsAt base &&& CACHE_ATTRIBUTE_MASK) with
  | none => .hangs
  | some (.ok _, m) => .at { s with mem := m, calls := s.calls ++ [⟨base, len, s.mem.attrsAt base &&& CACHE_ATTRIBUTE_MASK⟩] }
  | some (.err _, m) =>
    if dbg then .panics
    else .at { mem := m, calls := s.calls ++ [⟨base, len, s.mem.attrsAt base &&& CACHE_ATTRIBUTE_MASK⟩], failed := s.failed + 1 }
  | some (.panic, _) => .panics

/-- What loading an image ends with, image.rs lines 673-687. -/
inductive LoadEnd where
  /-- its sections are protected -/
  | protect
  /-- compatibility mode, or what became of it -/
  | compat (p : Progress)
  /-- it is not loaded -/
  | refused

/-- image.rs lines 673-726; `allowed`: the core was built with `compatibility_mode_allowed`. Subsystem 10 is an application. -/
def finishLoad (dbg : Bool) (fs : Nat → Faults) (allowed nxCompat : Bool) (subsystem base len : Nat) (m : Mem) : LoadEnd :=
  if subsystem = 10 ∧ nxCompat = false then
    if allowed then .compat ((activateCompat dbg fs m).then fun s => s.mapImage dbg fs base len)
    else .refused
  else .protect

end Verif.Paging
