import Verif.Prelude
/-!
Model of the lists of runtime images and runtime events that the core shares with the driver that switches to virtual addresses:
`/repo/patina_dxe_core/src/runtime.rs`.

The lists are linked through memory: every entry and each of the two heads in the runtime protocol has a link, that is two addresses of
links (`list_entry::Entry`). Memory is a function from the address of a link to its contents; an entry in memory is known by the
address of its link. The core keeps its own list of the entries it has allocated (`LinkedList`), of which only the order and the addresses matter.
-/
namespace Verif.Runtime

/-- `runtime::ImageEntry` without its link, /repo/sdk/patina_pi/src/protocols/runtime.rs lines 54-60. -/
structure Image where
  base : Nat
  size : Nat
  relocation : Nat
  handle : Nat
deriving DecidableEq, Repr

/-- `runtime::EventEntry` without its link, lines 69-76. -/
structure Event where
  type : Nat
  tpl : Nat
  function : Nat
  context : Nat
  event : Nat
deriving DecidableEq, Repr

/-- Memory: the links, the entries around them (`none`: not in use), and `at_runtime` of protocols. -/
structure Mem where
  forward : Nat → Nat
  back : Nat → Nat
  image : Nat → Option Image
  event : Nat → Option Event
  atRuntime : Nat → Bool

/-- `RuntimeData`, lines 20-24, with memory: the lists hold the addresses of the links. -/
structure Data where
  protocol : Nat
  images : List Nat
  events : List Nat
  mem : Mem

/-- `RuntimeData::new`, lines 32-38. -/
def Data.new (m : Mem) : Data := ⟨0, [], [], m⟩

/-- `image_head` and `event_head` of the protocol at `p` (runtime.rs lines 35-36 in patina_pi; a link is 16 bytes). -/
def imageHead (p : Nat) : Nat := p
def eventHead (p : Nat) : Nat := p + 16

def put {α : Type} (f : Nat → α) (a : Nat) (v : α) : Nat → α := fun x => if x = a then v else f x

/-- One turn of the loops, lines 49-51 and 58-60. -/
def Mem.join (m : Mem) (x y : Nat) : Mem := { m with forward := put m.forward x y, back := put m.back y x }

/-- Lines 47-54 and 57-64: link the entries in order, then close the ring. -/
def relink (head : Nat) : List Nat → Nat → Mem → Mem
  | [], prev, m => m.join prev head
  | x :: l, prev, m => relink head l x (m.join prev x)

/-- `update_protocol_lists`, lines 40-67. -/
def Data.update (d : Data) : Data :=
  if d.protocol = 0 then d
  else
    let m := relink (imageHead d.protocol) d.images (imageHead d.protocol) d.mem
    { d with mem := relink (eventHead d.protocol) d.events (eventHead d.protocol) m }

/-- `runtime_protocol_notify`, lines 88-94; the protocol was found at `p` (that it is not found is a panic and left out: this runs because it was
installed). -/
def Data.notify (d : Data) (p : Nat) : Data := { d with protocol := p }.update

/-- `EVT_SIGNAL_VIRTUAL_ADDRESS_CHANGE` and the GUID of the group. -/
def VIRTUAL_ADDRESS_CHANGE : Nat := 0x60000202
def GROUP_VIRTUAL_ADDRESS_CHANGE : Nat := 0x13FA7698C83149C787EA8F43FCC25196

/-- `add_runtime_event`, lines 96-129. The entry's link is put at `a`. -/
def Data.addEvent (d : Data) (a event type tpl : Nat) (function : Option Nat) (group : Option Nat) (context : Option Nat) : Outcome EfiError Unit × Data :=
  let type := if group = some GROUP_VIRTUAL_ADDRESS_CHANGE then VIRTUAL_ADDRESS_CHANGE else type
  match function with
  | none => (.err .invalidParameter, d)
  | some f =>
    let m := { d.mem with event := put d.mem.event a (some ⟨type, tpl, f, context.getD 0, event⟩), forward := put d.mem.forward a 0, back := put d.mem.back a 0 }
    (.ok (), { d with events := d.events ++ [a], mem := m }.update)

/-- What `extract_if` leaves: entries that are taken out are dropped, their memory is freed. -/
def dropped (l : List Nat) (f : Nat → Option α) (p : α → Bool) : Nat → Option α :=
  fun x => if x ∈ l ∧ (f x).any p then none else f x

/-- `remove_runtime_event`, lines 131-136. -/
def Data.removeEvent (d : Data) (e : Nat) : Data :=
  { d with events := d.events.filter fun a => !(d.mem.event a).any (fun x : Event => decide (x.event = e))
           mem := { d.mem with event := dropped d.events d.mem.event fun x : Event => decide (x.event = e) } }.update

/-- `add_runtime_image`, lines 138-158. The entry's link is put at `a`; the relocation data are in memory at `relocation`. -/
def Data.addImage (d : Data) (a : Nat) (i : Image) : Data :=
  let m := { d.mem with image := put d.mem.image a (some i), forward := put d.mem.forward a 0, back := put d.mem.back a 0 }
  { d with images := d.images ++ [a], mem := m }.update

/-- `remove_runtime_image`, lines 160-165. -/
def Data.removeImage (d : Data) (h : Nat) : Data :=
  { d with images := d.images.filter fun a => !(d.mem.image a).any (fun x : Image => decide (x.handle = h))
           mem := { d.mem with image := dropped d.images d.mem.image fun x : Image => decide (x.handle = h) } }.update

/-- `finalize_runtime_support`, lines 81-86. -/
def Data.finalize (d : Data) : Data :=
  if d.protocol = 0 then d else { d with mem := { d.mem with atRuntime := put d.mem.atRuntime d.protocol true } }

inductive Op where
  | notify (p : Nat)
  | addEvent (a event type tpl : Nat) (function group context : Option Nat)
  | removeEvent (e : Nat)
  | addImage (a : Nat) (i : Image)
  | removeImage (h : Nat)
  | finalize

def Data.step (d : Data) : Op → Data
  | .notify p => d.notify p
  | .addEvent a e ty tpl f g c => (d.addEvent a e ty tpl f g c).2
  | .removeEvent e => d.removeEvent e
  | .addImage a i => d.addImage a i
  | .removeImage h => d.removeImage h
  | .finalize => d.finalize

def Data.run (d : Data) (ops : List Op) : Data := ops.foldl Data.step d

end Verif.Runtime
