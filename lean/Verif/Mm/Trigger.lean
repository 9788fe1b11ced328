import Verif.Mm.Model
/-!
Model of the software MMI trigger, `/repo/components/patina_mm/src/component/sw_mmi_manager.rs`.

* The machine has I/O ports that keep the byte last written. A write to the port `apm` of the chipset raises an MMI before
  the next instruction runs; the handler finds the byte written there as the command, and reads the data from the
  port `apmData`. What it does to memory is an arbitrary function.
* `onTarget` tells whether the code was built for UEFI on x86-64; elsewhere the writes are compiled out
  (`cfg_if!`, lines 109-117 and 129-137).
-/
namespace Verif.Mm

/-- `MmiPort`, config.rs: an I/O port, or a secure monitor call. -/
inductive MmiPort where
  | smi (port : Nat)
  | smc (id : Nat)
deriving DecidableEq, Repr

/-- `MmCommunicationConfiguration`, config.rs lines 34-44: the ports. -/
structure PortConfig where
  cmd : MmiPort
  data : MmiPort
deriving DecidableEq, Repr

/-- Its default, config.rs lines 46-55. -/
def PortConfig.default : PortConfig := ⟨.smi 0xFF, .smi 0x00⟩

/-- The chipset: which port raises MMIs and which one carries the data. -/
structure Chipset where
  apm : Nat
  apmData : Nat
deriving DecidableEq, Repr

/-- The machine: the ports, memory (of the communicate buffer), and the MMIs so far as (command, data) the handler
found, latest last. -/
structure Machine where
  ports : Nat → UInt8
  mem : List UInt8
  mmis : List (UInt8 × UInt8)

/-- What the handler does to memory, given the command and the data. -/
abbrev MmiHandler := UInt8 → UInt8 → List UInt8 → List UInt8

/-- A write of a byte to a port. -/
def Machine.out (c : Chipset) (h : MmiHandler) (m : Machine) (port : Nat) (v : UInt8) : Machine :=
  let ports := fun p => if p = port then v else m.ports p
  if port = c.apm then ⟨ports, h v (ports c.apmData) m.mem, m.mmis ++ [(v, ports c.apmData)]⟩
  else ⟨ports, m.mem, m.mmis⟩

/-- One of the two matches of `trigger_sw_mmi`, lines 105-123 and 125-143: false for `todo!` (a panic). -/
def writePort (onTarget : Bool) (c : Chipset) (h : MmiHandler) (m : Machine) (p : MmiPort) (v : UInt8) :
    Bool × Machine :=
  match p with
  | .smi port => (true, if onTarget then m.out c h port v else m)
  | .smc _ => (false, m)

/-- `trigger_sw_mmi`, lines 100-147: the command port first, then the data port. It returns `Ok(())` or panics. -/
def trigger (onTarget : Bool) (c : Chipset) (h : MmiHandler) (cfg : PortConfig) (m : Machine) (cmd data : UInt8) :
    Outcome Unit Unit × Machine :=
  match writePort onTarget c h m cfg.cmd cmd with
  | (false, m) => (.panic, m)
  | (true, m) =>
    match writePort onTarget c h m cfg.data data with
    | (false, m) => (.panic, m)
    | (true, m) => (.ok (), m)

/-- The trigger as the communicator of `Verif.Mm.Model` sees it, communicator.rs lines 193-200, which passes the command
0xFF and the data 0, on a machine whose memory is the communicate buffer. Simplification: for ports that do not panic. -/
def triggerHandler (onTarget : Bool) (c : Chipset) (h : MmiHandler) (cfg : PortConfig) (m : Machine) : Handler :=
  fun mem =>
    match trigger onTarget c h cfg { m with mem := mem } 0xFF 0 with
    | (.ok (), m) => some m.mem
    | _ => none

/-- `SwMmiManager::entry_point`, lines 70-97: `init` is what the service of the platform returned, if there is one. The
configuration of the service that is registered, or the error and nothing registered. -/
def entryPoint {ε : Type} (cfg : PortConfig) (init : Option (Except ε Unit)) : Except ε PortConfig :=
  match init with
  | some (.error e) => .error e
  | some (.ok _) => .ok cfg
  | none => .ok cfg

end Verif.Mm
