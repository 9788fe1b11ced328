import Verif.Prelude
/-!
Model of the part of the SDK around boot services that owns memory: `sdk/patina/src/boot_services.rs` and its modules `boxed.rs`, `c_ptr.rs`, `global_allocator.rs`.

* The pool of the firmware is the list of what is allocated, and a record of frees of what is not. Which address an allocation gets is up to the firmware: a function of the pool and the size.
* Objects are units: the memory of one allocation holds one value. Allocations do not overlap.
-/
namespace Verif.SdkBoot

structure Pool where
  live : List (Nat × Nat)
  badFrees : List Nat
deriving DecidableEq, Repr

/-- What the firmware answers to `AllocatePool`: an address or an error. -/
abbrev Allocator := Pool → Nat → Option Nat

/-- An allocator that gives no memory twice. -/
def Allocator.Ok (A : Allocator) : Prop := ∀ p n a, A p n = some a → a ∉ p.live.map Prod.fst

/-- `allocate_pool`, boot_services.rs lines 1107-1117. -/
def Pool.alloc (A : Allocator) (p : Pool) (n : Nat) : Option (Nat × Pool) := (A p n).map fun a => (a, { p with live := (a, n) :: p.live })

/-- `free_pool`, lines 1119-1124. The firmware refuses an address that is not allocated (or it has undefined effects: it is recorded). -/
def Pool.free (p : Pool) (a : Nat) : Pool :=
  if a ∈ p.live.map Prod.fst then { p with live := p.live.filter fun x => x.1 != a } else { p with badFrees := a :: p.badFrees }

/-! ### Boxes -/

/-- Boxes of a driver, what it has as raw pointers, and what the memory holds. -/
structure Boxes where
  pool : Pool
  boxes : List Nat
  raws : List Nat
  value : Nat → Nat

inductive BoxOp
  | new (size value : Nat)
  | write (i value : Nat)
  | drop (i : Nat)
  | leak (i : Nat)
  | intoRaw (i : Nat)
  | fromRaw (i : Nat)
deriving DecidableEq, Repr

/-- `BootServicesBox::new` (boxed.rs lines 27-32, where a failed allocation panics), `deref_mut` (lines 86-90), `drop` (lines 74-78), `leak` (lines 53-57),
`into_raw` and `into_raw_mut` (lines 43-50: the box is consumed, so `drop` runs at the end of the function), `from_raw` (lines 38-40). Operations on a box that is not there do nothing. -/
def Boxes.step (A : Allocator) (w : Boxes) : BoxOp → Outcome Unit Boxes
  | .new size v => match w.pool.alloc A size with
    | some (a, p) => .ok { w with pool := p, boxes := w.boxes ++ [a], value := fun x => if x = a then v else w.value x }
    | none => .panic
  | .write i v => match w.boxes[i]? with
    | some a => .ok { w with value := fun x => if x = a then v else w.value x }
    | none => .ok w
  | .drop i => match w.boxes[i]? with
    | some a => .ok { w with pool := w.pool.free a, boxes := w.boxes.eraseIdx i }
    | none => .ok w
  | .leak i => match w.boxes[i]? with
    | some a => .ok { w with boxes := w.boxes.eraseIdx i, raws := w.raws ++ [a] }
    | none => .ok w
  | .intoRaw i => match w.boxes[i]? with
    | some a => .ok { w with pool := w.pool.free a, boxes := w.boxes.eraseIdx i, raws := w.raws ++ [a] }
    | none => .ok w
  | .fromRaw i => match w.raws[i]? with
    | some a => .ok { w with boxes := w.boxes ++ [a], raws := w.raws.eraseIdx i }
    | none => .ok w

/-- A history. -/
def Boxes.run (A : Allocator) : Boxes → List BoxOp → Outcome Unit Boxes
  | w, [] => .ok w
  | w, o :: os => match w.step A o with
    | .ok w => w.run A os
    | .err e => .err e
    | .panic => .panic

/-! ### Protocol interfaces -/

/-- Who has an interface object: the driver, the firmware (with the handle), nobody any more (once for each time its destructor has run), or nobody without that. -/
structure Faces where
  driver : List Nat
  installed : List (Nat × Nat)
  dropped : List Nat
  lost : List Nat
deriving DecidableEq, Repr

/-- `zst` says whether the type of an object has size zero; `fw` says whether the firmware carries the request out (it cannot if the interface is not there). -/
inductive FaceOp
  | install (h obj : Nat) (zst fw : Bool)
  | uninstall (h key : Nat) (fw : Bool)
  | reinstall (h key obj : Nat) (fw : Bool)
  | drop (obj : Nat)
deriving DecidableEq, Repr

/-- `install_protocol_interface`, boot_services.rs lines 347-373: for a type of size zero the object is not turned into a pointer, so it is dropped at the end of the function; on an error the object is
rebuilt from the key and dropped. `uninstall_protocol_interface`, lines 392-411: the object is rebuilt from the key. `reinstall_protocol_interface`, lines 429-461: on an error nobody rebuilds the new one.
Interfaces of size zero are installed as null, here as 0, and are not uninstalled in this model. -/
def Faces.step (w : Faces) : FaceOp → Faces
  | .install h obj zst fw =>
    if obj ∈ w.driver then
      let w := { w with driver := w.driver.erase obj }
      match zst, fw with
      | false, true => { w with installed := (h, obj) :: w.installed }
      | false, false => { w with dropped := obj :: w.dropped }
      | true, true => { w with installed := (h, 0) :: w.installed, dropped := obj :: w.dropped }
      | true, false => { w with dropped := obj :: obj :: w.dropped }
    else w
  | .uninstall h key fw =>
    if fw && w.installed.contains (h, key) then { w with installed := w.installed.erase (h, key), driver := key :: w.driver } else w
  | .reinstall h key obj fw =>
    if obj ∈ w.driver then
      let w := { w with driver := w.driver.erase obj }
      if fw && w.installed.contains (h, key) then { w with installed := (h, obj) :: w.installed.erase (h, key), driver := key :: w.driver }
      else { w with lost := obj :: w.lost }
    else w
  | .drop obj => if obj ∈ w.driver then { w with driver := w.driver.erase obj, dropped := obj :: w.dropped } else w

/-- `handle_protocol` (lines 499-522), `open_protocol` (lines 569-598) and `locate_protocol` (lines 708-731), after the firmware gave an interface (0: null): the reference. The static of size zero is at `unit`. -/
def typed (dbg : Bool) (unit : Nat) (size : Nat) (interface : Nat) : Outcome EfiError Nat :=
  if interface ≠ 0 then
    if size = 0 then (if dbg then .panic else .err .invalidParameter) else .ok interface
  else if 0 < size then (if dbg then .panic else .err .invalidParameter) else .ok unit

/-! ### Buffers -/

/-- The memory map of the firmware: the size of a descriptor, the descriptors, the key and the version. -/
structure Map where
  size : Nat
  descriptors : List (List UInt8)
  key : Nat
  version : Nat
deriving DecidableEq, Repr

/-- `GetMemoryMap` of the UEFI specification with a buffer of `n` bytes: the size it reports and, if the buffer is large enough, what it writes. -/
def Map.get (m : Map) (n : Nat) : Nat × Option (List UInt8) :=
  let need := m.descriptors.length * m.size
  if n < need then (need, none) else (need, some m.descriptors.flatten)

/-- A result of `get_memory_map`: the number of descriptors in the slice, the memory of the buffer (`none`: not written), the key and the version. -/
structure MapBox where
  address : Nat
  count : Nat
  buffer : List (Option UInt8)
  key : Nat
  version : Nat
deriving DecidableEq, Repr

inductive MapResult
  | ok (box : MapBox)
  | tooSmall (size : Nat)
  | noMemory
deriving DecidableEq, Repr

/-- The size of the buffer, lines 1071-1085. -/
def mapAsk (m : Map) : Nat :=
  match m.get 0 with
  | (need, none) => need + 0x400
  | (need, some _) => need

/-- `StandardBootServices::get_memory_map`, lines 1068-1105. `m1` is the map at the first call, `m2` the one at the second. -/
def getMemoryMap (A : Allocator) (p : Pool) (m1 m2 : Map) : MapResult × Pool :=
  let n := mapAsk m1
  match p.alloc A n with
  | none => (.noMemory, p)
  | some (a, p) => match m2.get n with
    | (need, none) => (.tooSmall need, p)
    | (_, some data) => (.ok ⟨a, m2.size, data.map some ++ List.replicate (n - data.length) none, m2.key, m2.version⟩, p)

/-- The descriptor `i` of the slice: 40 bytes each (`size_of::<efi::MemoryDescriptor>()`). `none`: not in the slice, or outside of the buffer. -/
def MapBox.entry (b : MapBox) (i : Nat) : Option (List (Option UInt8)) :=
  if i < b.count ∧ 40 * (i + 1) ≤ b.buffer.length then some ((b.buffer.drop (40 * i)).take 40) else none

/-- `LocateHandle` of the UEFI specification for the handles that match, with a buffer of `n` bytes. -/
def locate (handles : List Nat) (n : Nat) : Nat × Outcome EfiError (List Nat) :=
  if handles = [] then (n, .err .notFound) else if n < 8 * handles.length then (8 * handles.length, .err .bufferTooSmall) else (8 * handles.length, .ok handles)

/-- `StandardBootServices::locate_handle`, lines 1190-1223: the handles that match at the first and the second call. -/
def locateHandle (A : Allocator) (p : Pool) (h1 h2 : List Nat) : Outcome EfiError (Nat × List Nat) × Pool :=
  match p.alloc A (locate h1 0).1 with
  | none => (.err .outOfResources, p)
  | some (a, p) => match locate h2 (locate h1 0).1 with
    | (n, .ok hs) => (.ok (a, hs.take (n / 8)), p)
    | (_, .err e) => (.err e, p)
    | (_, .panic) => (.panic, p)

/-- `StandardBootServices::start_image`, lines 1447-1470, for an image that ends with an error: the address of the box that the caller gets. `stack` is the address of the local variable that the firmware
writes the pointer to the exit data in, `given` that pointer. -/
def startImageError (stack : Nat) (_given : Option Nat) : Option Nat := if stack ≠ 0 then some stack else none

/-- `connect_controller`, lines 1318-1340: what the firmware gets as the list of driver handles, up to the null that ends it; `none` is no list. -/
def connectDrivers (handles : List Nat) : Option (List Nat) := if handles = [] then none else some (handles ++ [0])

/-- A list that ends at a null, as `ConnectController` reads it; `none` if it reads past the memory of the list. -/
def readList : List Nat → Option (List Nat)
  | [] => none
  | h :: hs => if h = 0 then some [] else (readList hs).map (h :: ·)

/-! ### The global allocator -/

/-- `Layout::extend` by a pointer: the offset of the pointer, the size and the alignment. -/
def extend (size align : Nat) : Nat × Nat × Nat := ((size + 7) / 8 * 8, (size + 7) / 8 * 8 + 8, max align 8)

/-- What `alloc` asks the pool for, global_allocator.rs lines 28-36. -/
def request (size align : Nat) : Nat := if align ≤ 8 then size else (extend size align).2.2 + (extend size align).2.1

/-- `align_offset`. -/
def alignOffset (p align : Nat) : Nat := (align - p % align) % align

/-- `alloc`, lines 28-44, for the pool address `p`: the pointer, and the memory of pointers after. -/
def galloc (size align p : Nat) (m : Nat → Nat) : Nat × (Nat → Nat) :=
  if align ≤ 8 then (p, m)
  else
    let q := p + alignOffset p (extend size align).2.2
    (q, fun x => if x = q + (extend size align).1 then p else m x)

/-- `dealloc`, lines 46-60: the address that is freed. -/
def gdealloc (dbg : Bool) (size align q : Nat) (m : Nat → Nat) : Outcome Unit Nat :=
  if align ≤ 8 then .ok q
  else
    let p := m (q + (extend size align).1)
    if dbg ∧ q ≠ p + alignOffset p (extend size align).2.2 then .panic else .ok p

end Verif.SdkBoot
