import Verif.Perf.Component
/-!
Model of how performance measurement is configured: `/repo/components/patina_performance/src/component/performance_config_provider.rs` with the reading of a HOB that
`/repo/sdk/patina_macro/src/hob_macro.rs` derives for it, and the part of dispatching that decides which configuration the component `Performance` is entered with:
`/repo/patina_dxe_core/src/lib.rs` lines 310-411 and 531-557, `/repo/sdk/patina/src/component/params.rs`, `hob.rs` and `storage.rs`.

Other components and the UEFI drivers are left out: none of them touches this configuration, and dispatching them only repeats the passes. The storage itself is modelled in
`Verif.Component.StorageModel`; here the one cell of this configuration is enough.
-/
namespace Verif.Perf.Setup

open Component (Config)

/-- A guided HOB: its GUID as it lies in memory, and its data. -/
structure Guided where
  guid : Bytes
  data : Bytes
deriving DecidableEq, Repr

/-- The GUID of `PerformanceConfigHob`, performance_config_provider.rs line 36, made by `parse_hob_attr`, hob_macro.rs lines 26-46: the first three fields are little endian. -/
def GUID : Bytes := leBytes 4 0xfd87f2d8 ++ leBytes 2 0x112d ++ leBytes 2 0x4640 ++ [0x9c, 0x00, 0xd3, 0x7d, 0x2a, 0x1f, 0xb7, 0x5d]

/-- How reading a HOB ends. -/
inductive Read where
  | value (c : Config)
  | panic
  | undefined

/-- The derived `parse`, hob_macro.rs lines 127-133, for the packed structure of performance_config_provider.rs lines 37-46: a `bool` and a `u32`, five bytes. The whole structure
is copied out of the bytes, which is undefined behaviour unless the byte of the `bool` is 0 or 1. The structure is packed, so the address does not matter. -/
def parse (b : Bytes) : Read :=
  if b.length < 5 then .panic
  else if 1 < leVal (b.take 1) then .undefined
  else .value ⟨leVal (b.take 1) == 1, leVal ((b.drop 1).take 4)⟩

/-- How the boot goes: the configurations that `Performance` was entered with, or how it ended before. -/
inductive Result (α : Type) where
  | ok (a : α)
  | panic
  | undefined
deriving DecidableEq, Repr

/-- `parse_hobs`, lib.rs lines 337-358, as far as it is about this HOB. There is a parser if a provider has been registered, hob.rs `init_state` lines 233-236. -/
def parseHobs (parser : Bool) : List Guided → Result (List Config)
  | [] => .ok []
  | h :: hs =>
    if parser && h.guid == GUID then
      match parse h.data with
      | .panic => .panic
      | .undefined => .undefined
      | .value c =>
        match parseHobs parser hs with
        | .ok l => .ok (c :: l)
        | .panic => .panic
        | .undefined => .undefined
    else parseHobs parser hs

/-- The two components. -/
inductive Kind where
  | provider
  | performance
deriving DecidableEq, Repr

/-- `ConfigRaw`: the value and whether it is locked. -/
structure Cell where
  value : Config
  locked : Bool

/-- The calls that build the core, lib.rs lines 318-334. -/
inductive Build where
  | config (c : Config)
  | component (k : Kind)

/-- `add_config_default_if_not_present`, storage.rs lines 288-294, with the derived default of config.rs line 40. -/
def present (c : Option Cell) : Cell := c.getD ⟨⟨false, 0⟩, true⟩

/-- `with_config` (`add_config`, storage.rs lines 297-300, replaces the value and locks it) and `with_component` (`init_state`: `ConfigMut` unlocks, params.rs lines 514-518; `Config` does
not, lines 413-414). -/
def Build.cell (c : Option Cell) : Build → Option Cell
  | .config v => some ⟨v, true⟩
  | .component .provider => some { present c with locked := false }
  | .component .performance => some (present c)

/-- The components, in the order they were added, lib.rs lines 318-327. -/
def Build.kind : Build → Option Kind
  | .config _ => none
  | .component k => some k

/-- The cell, and what `Performance` was entered with so far. -/
structure State where
  cell : Cell
  seen : List Config

/-- `PerformanceConfigurationProvider::entry_point`, performance_config_provider.rs lines 62-84; dereferencing the HOB takes the first, hob.rs lines 212-214. -/
def provide (hob : Config) (c : Cell) : Cell :=
  let v : Config := { c.value with enabled := hob.enabled }
  let v : Config := if ¬ hob.enabled then v else { v with mask := hob.mask }
  ⟨v, true⟩

/-- Running one component: whether it was dispatched. The provider needs a HOB (hob.rs lines 228-231) and the configuration unlocked (params.rs lines 509-512); `Performance` needs it
locked (params.rs lines 408-411). Its other parameters are always there. -/
def run (hobs : List Config) (s : State) : Kind → Bool × State
  | .provider =>
    match hobs with
    | h :: _ => if s.cell.locked then (false, s) else (true, { s with cell := provide h s.cell })
    | [] => (false, s)
  | .performance => if s.cell.locked then (true, { s with seen := s.seen ++ [s.cell.value] }) else (false, s)

/-- `dispatch_components`, lib.rs lines 363-385: the components that stay. -/
def pass (hobs : List Config) : List Kind → State → List Kind × State
  | [], s => ([], s)
  | k :: ks, s =>
    let r := run hobs s k
    let q := pass hobs ks r.2
    (if r.1 then q.1 else k :: q.1, q.2)

theorem pass_short (hobs : List Config) : ∀ (ks : List Kind) (s : State), (pass hobs ks s).1.length ≤ ks.length
  | [], _ => Nat.le_refl _
  | k :: ks, s => by
    have := pass_short hobs ks (run hobs s k).2
    simp only [pass]
    split <;> simp <;> omega

/-- `core_dispatcher`, lib.rs lines 394-411: until nothing is dispatched. -/
def dispatch (hobs : List Config) (ks : List Kind) (s : State) : List Kind × State :=
  let q := pass hobs ks s
  if q.1.length ≠ ks.length then dispatch hobs q.1 q.2 else q
termination_by ks.length
decreasing_by
  have := pass_short hobs ks s
  show (pass hobs ks s).1.length < ks.length
  have h : (pass hobs ks s).1.length ≠ ks.length := by assumption
  omega

/-- `start`, lib.rs lines 531-557: parse the HOBs, dispatch, lock every configuration, dispatch again. With no component of these the configuration does not matter. -/
def boot (bs : List Build) (hobs : List Guided) : Result (List Config) :=
  let ks := bs.filterMap Build.kind
  let c := present (bs.foldl Build.cell none)
  match parseHobs (ks.contains .provider) hobs with
  | .panic => .panic
  | .undefined => .undefined
  | .ok hs =>
    let r := dispatch hs ks ⟨c, []⟩
    let r := dispatch hs r.1 { r.2 with cell := { r.2.cell with locked := true } }
    .ok r.2.seen

end Verif.Perf.Setup
