/-!
Model of `UefiDriverBinding`, `/repo/sdk/patina/src/driver_binding.rs`, and of the firmware it is installed in.

* An object is a `_UefiDriverBinding` in a `Box`, named by its address; `none` is memory that holds none. `serial`
  numbers the objects in the order they are made and is not in the code: it tells whether one is dropped twice.
* The driver is an arbitrary state `σ` with arbitrary functions.
* The firmware keeps the interfaces of the driver binding protocol by handle (UEFI 2.10, 7.3): it may refuse any call
  with any error; a handle has at most one of them; installing on the null handle makes a new handle.
* The allocator gives addresses where no object is.
-/
namespace Verif.SdkBoot.Binding

/-- `Result<_, efi::Status>` of the driver, by its status: `success`, or another. -/
inductive Status where
  | success | unsupported | invalidParameter | notFound | other (code : Nat)
deriving DecidableEq, Repr

/-- What the driver implements (`DriverBinding`, driver_binding.rs lines 78-106). Paths, and the buffer of the children,
are pointers that are not null or absent. -/
structure Driver (σ : Type) where
  supported : σ → Nat → Option Nat → Except Status Bool
  start : σ → Nat → Option Nat → Except Status Unit × σ
  stop : σ → Nat → Nat → Option Nat → Except Status Unit × σ

/-- `_UefiDriverBinding`, driver_binding.rs lines 108-119: the handles of the protocol structure and the driver. -/
structure Obj (σ : Type) where
  imageHandle : Nat
  bindingHandle : Nat
  driver : σ
  serial : Nat

/-- `UefiDriverBinding`, driver_binding.rs lines 203-215, with the address of its object. -/
inductive Bind where
  | uninstalled (addr : Nat)
  | installed (addr : Nat)
deriving DecidableEq, Repr

/-- The address behind a binding. -/
def Bind.addr : Bind → Nat
  | .uninstalled a => a
  | .installed a => a

/-- `is_installed`, driver_binding.rs lines 286-292. -/
def Bind.isInstalled : Bind → Bool
  | .uninstalled _ => false
  | .installed _ => true

/-- Everything there is: memory, the interfaces the firmware has by handle, the values of the program. `made` and
`dropped` are the ghost record of the objects. -/
structure World (σ : Type) where
  mem : Nat → Option (Obj σ)
  db : List (Nat × Nat)
  binds : Nat → Option Bind
  made : Nat
  dropped : List Nat

/-- `f` with another value at `i`. -/
def set {α : Type} (f : Nat → α) (i : Nat) (v : α) : Nat → α := fun j => if j = i then v else f j

def World.init (σ : Type) : World σ := ⟨fun _ => none, [], fun _ => none, 0, []⟩

/-- The firmware has an interface on the handle. -/
def has (db : List (Nat × Nat)) (h : Nat) : Bool := db.any (fun p => p.1 == h)

/-- `InstallProtocolInterface` of the firmware for the driver binding GUID. `refuse` is an error it has for other reasons,
`fresh` the handle it makes if given the null handle. -/
def fwInstall (db : List (Nat × Nat)) (refuse : Option Status) (fresh h iface : Nat) :
    Except Status (List (Nat × Nat)) :=
  match refuse with
  | some e => .error e
  | none =>
    if h = 0 then .ok ((fresh, iface) :: db)
    else if has db h then .error .invalidParameter
    else .ok ((h, iface) :: db)

/-- `UninstallProtocolInterface` of the firmware. -/
def fwUninstall (db : List (Nat × Nat)) (refuse : Option Status) (h iface : Nat) : Except Status (List (Nat × Nat)) :=
  match refuse with
  | some e => .error e
  | none =>
    if h = 0 then .error .invalidParameter
    else if (h, iface) ∈ db then .ok (db.filter (fun p => p != (h, iface)))
    else .error .notFound

variable {σ : Type}

/-- `new_with_driver_handle`, driver_binding.rs lines 223-236 (`new`, lines 218-221, has both handles the same): a binding
named `b` with its object at `addr`. -/
def World.make (w : World σ) (b addr img hdl : Nat) (d : σ) : World σ :=
  { w with mem := set w.mem addr (some ⟨img, hdl, d, w.made⟩), binds := set w.binds b (some (.uninstalled addr)),
           made := w.made + 1 }

/-- `install`, driver_binding.rs lines 238-261. The handle that the firmware returns is not kept. Outer `none`: no such
binding, or its object is not there (undefined behaviour). -/
def World.install (w : World σ) (b : Nat) (refuse : Option Status) (fresh : Nat) :
    Option (Except Status Unit × World σ) :=
  match w.binds b with
  | none => none
  | some (.installed _) => some (.ok (), w)
  | some (.uninstalled a) =>
    match w.mem a with
    | none => none
    | some o =>
      match fwInstall w.db refuse fresh o.bindingHandle a with
      | .error e => some (.error e, w)
      | .ok db => some (.ok (), { w with db := db, binds := set w.binds b (some (.installed a)) })

/-- `uninstall`, driver_binding.rs lines 263-284. -/
def World.uninstall (w : World σ) (b : Nat) (refuse : Option Status) : Option (Except Status Unit × World σ) :=
  match w.binds b with
  | none => none
  | some (.uninstalled _) => some (.ok (), w)
  | some (.installed a) =>
    match w.mem a with
    | none => none
    | some o =>
      match fwUninstall w.db refuse o.bindingHandle a with
      | .error e => some (.error e, w)
      | .ok db => some (.ok (), { w with db := db, binds := set w.binds b (some (.uninstalled a)) })

/-- The binding goes out of scope: an uninstalled one drops its `Box`, an installed one only its pointer
(driver_binding.rs lines 203-215). `none`: the object is not there (freed twice). -/
def World.drop (w : World σ) (b : Nat) : Option (World σ) :=
  match w.binds b with
  | none => none
  | some (.installed _) => some { w with binds := set w.binds b none }
  | some (.uninstalled a) =>
    match w.mem a with
    | none => none
    | some o => some { w with mem := set w.mem a none, binds := set w.binds b none, dropped := o.serial :: w.dropped }

/-- `NonNull::new`. -/
def nonNull (p : Nat) : Option Nat := if p = 0 then none else some p

/-- The status of a `Result<(), Status>`. -/
def statusOf : Except Status Unit → Status
  | .ok _ => .success
  | .error e => e

/-- The firmware calls `supported` of an interface: `efi_driver_binding_supported`, driver_binding.rs lines 147-164.
`none`: there is no object (undefined behaviour, or the panic on null). -/
def World.supported (D : Driver σ) (w : World σ) (iface ctl path : Nat) : Option Status :=
  match w.mem iface with
  | none => none
  | some o =>
    match D.supported o.driver ctl (nonNull path) with
    | .ok true => some .success
    | .ok false => some .unsupported
    | .error e => some e

/-- `efi_driver_binding_start`, driver_binding.rs lines 166-181. -/
def World.start (D : Driver σ) (w : World σ) (iface ctl path : Nat) : Option (Status × World σ) :=
  match w.mem iface with
  | none => none
  | some o =>
    match D.start o.driver ctl (nonNull path) with
    | (r, d) => some (statusOf r, { w with mem := set w.mem iface (some { o with driver := d }) })

/-- `efi_driver_binding_stop`, driver_binding.rs lines 183-200. -/
def World.stop (D : Driver σ) (w : World σ) (iface ctl n buf : Nat) : Option (Status × World σ) :=
  match w.mem iface with
  | none => none
  | some o =>
    match D.stop o.driver ctl n (nonNull buf) with
    | (r, d) => some (statusOf r, { w with mem := set w.mem iface (some { o with driver := d }) })

/-- What can happen: the program makes, installs, uninstalls and drops bindings; the firmware calls an interface it has. -/
inductive Op (σ : Type) where
  | make (b addr img hdl : Nat) (d : σ)
  | install (b : Nat) (refuse : Option Status) (fresh : Nat)
  | uninstall (b : Nat) (refuse : Option Status)
  | drop (b : Nat)
  | start (h iface ctl path : Nat)
  | stop (h iface ctl n buf : Nat)

/-- The program and the firmware keep to their rules: a new binding is a new value, its object is put where none is,
a new handle is one without an interface and not null, the firmware calls interfaces that it has. -/
def Op.Allowed (w : World σ) : Op σ → Prop
  | .make b addr _ _ _ => w.binds b = none ∧ w.mem addr = none ∧ addr ≠ 0
  | .install b _ fresh => w.binds b ≠ none ∧ fresh ≠ 0 ∧ has w.db fresh = false
  | .uninstall b _ => w.binds b ≠ none
  | .drop b => w.binds b ≠ none
  | .start h iface _ _ => (h, iface) ∈ w.db
  | .stop h iface _ _ _ => (h, iface) ∈ w.db

/-- One step; `none` is undefined behaviour. -/
def World.step (D : Driver σ) (w : World σ) : Op σ → Option (World σ)
  | .make b addr img hdl d => some (w.make b addr img hdl d)
  | .install b refuse fresh => (w.install b refuse fresh).map (·.2)
  | .uninstall b refuse => (w.uninstall b refuse).map (·.2)
  | .drop b => w.drop b
  | .start _ iface ctl path => (w.start D iface ctl path).map (·.2)
  | .stop _ iface ctl n buf => (w.stop D iface ctl n buf).map (·.2)

/-- The worlds that histories lead to. -/
inductive Reached (D : Driver σ) : World σ → Prop where
  | init : Reached D (World.init σ)
  | step {w w' : World σ} {op : Op σ} : Reached D w → op.Allowed w → w.step D op = some w' → Reached D w'

end Verif.SdkBoot.Binding
