import Verif.Alloc.Calls
/-!
Model of the pool services of the core (patina_dxe_core/src/allocator.rs), over one allocator per memory type, and what a user
of pool buffers knows of them.
-/
namespace Verif.Alloc
open Verif.Gcd
open Verif.Hob (Mem)

/-! ### The services -/

/-- The granularity of the allocator made for a memory type, allocator.rs lines 320-326: reserved memory, runtime code, runtime
data and ACPI NVS use the runtime granularity (64 KiB on aarch64, a page elsewhere). -/
def typeGran (rtGran type : Nat) : Nat :=
  if type = 0 ∨ type = 5 ∨ type = 6 ∨ type = 10 then rtGran else UEFI_PAGE_SIZE

/-- `get_or_create_allocator`, allocator.rs lines 291-341: the allocator for the memory type, a new one with the given handle if
there is none. The static allocators and the map of the others are one list here. -/
def World.getOrCreate (E : Env) (rtGran : Nat) (w : World E.H) (type handle : Nat) : Nat × World E.H :=
  match w.fsbs.findIdx? (fun f => decide (f.memType = type)) with
  | some i => (i, w)
  | none => (w.fsbs.length, { w with fsbs := w.fsbs ++ [Fsb.new E.H type (typeGran rtGran type) handle] })

/-- Whether a memory type can be allocated: allocator.rs lines 413-415 (conventional, persistent and unaccepted memory cannot)
and line 364 of `handle_for_memory_type` (14 to 0x6FFFFFFF are illegal). -/
def typeOk (type : Nat) : Bool := !(type == 7 || type == 14 || type == 15 || decide (14 ≤ type ∧ type ≤ 0x6FFFFFFF))

/-- `core_allocate_pool`, allocator.rs lines 411-426. The handle is the one `handle_for_memory_type` gives for the type. -/
def coreAllocatePool (E : Env) (I : InfoLayout) (dbg : Bool) (rtGran : Nat) (w : World E.H) (type handle size : Nat) :
    Outcome EfiError Nat × World E.H :=
  if typeOk type then
    let x := w.getOrCreate E rtGran type handle
    match x.2.fsbs[x.1]? with
    | some f =>
      let y := Machine.allocatePool E I dbg ⟨x.2.gcd, x.2.mem, f⟩ size
      (y.1, x.2.put x.1 y.2)
    | none => (.panic, x.2)
  else (.err .invalidParameter, w)

/-- `allocators.iter().any(|allocator| allocator.free_pool(buffer).is_ok())`, allocator.rs line 442, from the allocator with the
given number on. -/
def freeAny (E : Env) (I : InfoLayout) (dbg : Bool) (buffer : Nat) : List Nat → World E.H → Outcome EfiError Unit × World E.H
  | [], w => (.err .invalidParameter, w)
  | i :: is, w =>
    match w.fsbs[i]? with
    | none => freeAny E I dbg buffer is w
    | some f =>
      match Machine.freePool E I dbg ⟨w.gcd, w.mem, f⟩ buffer with
      | (.ok _, s) => (.ok (), w.put i s)
      | (.err _, s) => freeAny E I dbg buffer is (w.put i s)
      | (.panic, s) => (.panic, w.put i s)

/-- `core_free_pool`, allocator.rs lines 436-449 -/
def coreFreePool (E : Env) (I : InfoLayout) (dbg : Bool) (w : World E.H) (buffer : Nat) : Outcome EfiError Unit × World E.H :=
  if buffer = 0 then (.err .invalidParameter, w)
  else freeAny E I dbg buffer (List.range w.fsbs.length) w

/-! ### What the user knows -/

/-- A pool buffer of `size` bytes in the block at `block` that allocator number `owner` has given out. -/
structure Buf where
  owner : Nat
  block : Nat
  size : Nat
deriving DecidableEq, Repr

/-- The address the user gets. -/
def Buf.addr (b : Buf) : Nat := b.block + INFO
/-- The block the buffer is in: the info before it, and the buffer. -/
def Buf.grant (b : Buf) : Grant := ⟨b.owner, b.block, ⟨INFO + b.size, UEFI_POOL_ALIGN⟩⟩

/-- The compiler puts the four fields of the info in its 24 bytes, without overlap. -/
structure InfoLayout.Ok (I : InfoLayout) : Prop where
  sig : I.sig + 4 ≤ INFO
  type : I.type + 4 ≤ INFO
  size : I.size + 8 ≤ INFO
  align : I.align + 8 ≤ INFO
  sigType : I.sig + 4 ≤ I.type ∨ I.type + 4 ≤ I.sig
  sigSize : I.sig + 4 ≤ I.size ∨ I.size + 8 ≤ I.sig
  sigAlign : I.sig + 4 ≤ I.align ∨ I.align + 8 ≤ I.sig
  typeSize : I.type + 4 ≤ I.size ∨ I.size + 8 ≤ I.type
  typeAlign : I.type + 4 ≤ I.align ∨ I.align + 8 ≤ I.type
  sizeAlign : I.size + 8 ≤ I.align ∨ I.align + 8 ≤ I.size

/-- No two allocators are for the same memory type. -/
def World.Distinct {H : Heap} (w : World H) : Prop :=
  ∀ (i j : Nat) (f g : Fsb H), w.fsbs[i]? = some f → w.fsbs[j]? = some g → f.memType = g.memType → i = j

/-- The world, what is given out, and the pool buffers that are in use. -/
abbrev PoolState (E : Env) := World E.H × History × List Buf

/-- Histories with pool buffers. `other` is any step of the allocators, of the GCD or of anybody writing to memory that does not
give a pool buffer's block back behind `free_pool`'s back and, if it is somebody writing to memory, does not write to the info
before a buffer. `give` is the moment `allocate_pool` writes the info to a block it has been given; `take` the moment
`free_pool` clears the signature. -/
inductive PoolStep (E : Env) (I : InfoLayout) : PoolState E → PoolState E → Prop where
  | other {w w' : World E.H} {h h' : History} {bs : List Buf} :
      Step E (w, h) (w', h') → (∀ b ∈ bs, b.grant ∈ h'.grants) →
      (w'.gcd = w.gcd → w'.fsbs = w.fsbs → h' = h → ∀ b ∈ bs, ∀ a, b.block ≤ a → a < b.block + INFO → w'.mem a = w.mem a) →
      PoolStep E I (w, h, bs) (w', h', bs)
  | give {w : World E.H} {h : History} {bs : List Buf} {b : Buf} {f : Fsb E.H} :
      b.grant ∈ h.grants → b ∉ bs → w.fsbs[b.owner]? = some f → f.memType < 2 ^ 32 →
      PoolStep E I (w, h, bs) ({ w with mem := writeInfo I w.mem b.block f.memType ⟨INFO + b.size, UEFI_POOL_ALIGN⟩ }, h, b :: bs)
  | take {w : World E.H} {h : History} {bs : List Buf} {b : Buf} :
      b ∈ bs → PoolStep E I (w, h, bs) ({ w with mem := put32 w.mem (b.block + I.sig) 0 }, h, bs.erase b)

inductive PoolSteps (E : Env) (I : InfoLayout) : PoolState E → PoolState E → Prop where
  | refl {x : PoolState E} : PoolSteps E I x x
  | step {x y z : PoolState E} : PoolSteps E I x y → PoolStep E I y z → PoolSteps E I x z

def PoolPossible (E : Env) (I : InfoLayout) (x : PoolState E) : Prop :=
  ∃ w h, Started E (w, h) ∧ PoolSteps E I (w, h, []) x

/-- Steps (of anybody) after each of which no block given out starts at `p`. -/
inductive Without (E : Env) (p : Nat) : World E.H × History → World E.H × History → Prop where
  | refl {x : World E.H × History} : Without E p x x
  | step {x y z : World E.H × History} : Without E p x y → Step E y z → (∀ g ∈ z.2.grants, g.ptr ≠ p) → Without E p x z

end Verif.Alloc
