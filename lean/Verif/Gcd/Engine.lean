import Verif.Prelude
/-!
The block map shared by the memory and the I/O space of the Global Coherency Domain:
`/repo/patina_dxe_core/src/gcd/memory_block.rs`, `io_block.rs` and the functions
`split_state_transition_at_idx`, `allocate_bottom_up`, `allocate_top_down` of `spin_locked_gcd.rs`. The two Rust copies
differ only in the descriptor, so the model is generic in the state `σ` of a block (allocated or not, type, handles, …).

* The red-black tree (C22) is the list of its blocks in key (base address) order; a tree index is a position in that list,
  kept as a zipper. A block split off another one has a key between that block and the following one, so `add` puts it
  right there.
* Addresses and lengths are 64-bit; unchecked arithmetic wraps (release profile).
* The tree index returned by the Rust functions is not modelled.
-/
namespace Verif.Gcd

/-- One more than `usize::MAX`. -/
def W : Nat := 2 ^ 64

/-- Wrapping addition and subtraction. -/
def addw (a b : Nat) : Nat := (a + b) % W
def subw (a b : Nat) : Nat := (a + W - b) % W

/-- `usize::MAX << s`; the shift amount is taken modulo 64. -/
def maskShl (s : Nat) : Nat := ((W - 1) * 2 ^ (s % 64)) % W

/-- `1 << s` -/
def oneShl (s : Nat) : Nat := 2 ^ (s % 64)

variable {σ : Type} [DecidableEq σ]

/-- `MemoryBlock`/`IoBlock`: base address, length, and everything else (memory_block.rs lines 22-26). -/
structure Block (σ : Type) where
  base : Nat
  len : Nat
  st : σ
deriving DecidableEq, Repr

/-- `end`, memory_block.rs lines 319-321 -/
def Block.stop (b : Block σ) : Nat := addw b.base b.len

/-- `Error`, memory_block.rs lines 16-20 -/
inductive BlockErr where
  | invalidStateTransition
  | blockOutsideRange
deriving DecidableEq, Repr

/-- `merge`, memory_block.rs lines 78-86: the merged block. `is_same_state` (lines 172-183) compares the variant and all
fields but base and length, which is equality of `st`. -/
def Block.merge (a b : Block σ) : Option (Block σ) :=
  if a.st = b.st ∧ a.stop = b.base then some { a with len := a.len + b.len } else none

/-- `MemoryBlockSplit`, memory_block.rs lines 70-76: the block asked for, and what is left of the old block on its two
sides. -/
structure Split (σ : Type) where
  prev : Option (Block σ)
  mb : Block σ
  next : Option (Block σ)

/-- `split`, memory_block.rs lines 88-132 -/
def Block.split (b : Block σ) (base len : Nat) : Outcome BlockErr (Split σ) :=
  let start := base
  let stop := addw base len
  if ¬ (b.base ≤ start ∧ start < stop ∧ stop ≤ b.stop) then .err .blockOutsideRange
  else if b.base = start ∧ stop = b.stop then .ok ⟨none, b, none⟩
  else if b.base = start ∧ stop < b.stop then
    .ok ⟨none, { b with base := base, len := len }, some { b with base := stop, len := b.len - len }⟩
  else if b.base < start ∧ stop = b.stop then
    .ok ⟨some { b with len := b.len - len }, { b with base := base, len := len }, none⟩
  else if b.base < start ∧ stop < b.stop then
    .ok ⟨some { b with len := start - b.base }, { b with base := base, len := len },
      some { b with base := stop, len := b.stop - stop }⟩
  else .panic

/-- Undoing a split after a failed transition, memory_block.rs lines 145-166. -/
def Split.undo (s : Split σ) : Block σ :=
  let m := match s.next with
    | none => s.mb
    | some n => (s.mb.merge n).getD s.mb
  match s.prev with
  | none => m
  | some p => (p.merge m).getD p

/-- `split_state_transition`, memory_block.rs lines 134-170, for the transition `tr`; with the block as it is left behind
when the call fails. -/
def Block.splitTransition (b : Block σ) (base len : Nat) (tr : σ → Option σ) : Outcome (BlockErr × Block σ) (Split σ) :=
  match b.split base len with
  | .err e => .err (e, b)
  | .panic => .panic
  | .ok s =>
    match tr s.mb.st with
    | none => .err (.invalidStateTransition, s.undo)
    | some st => .ok { s with mb := { s.mb with st := st } }

/-- Number of blocks to add to the tree. -/
def Split.added (s : Split σ) : Nat := s.prev.toList.length + s.next.toList.length

/-- A position in the block map: the blocks before (nearest first), the block, the blocks after. -/
structure Zip (σ : Type) where
  before : List (Block σ)
  cur : Block σ
  after : List (Block σ)

/-- The block map with the current block replaced. -/
def Zip.plug (z : Zip σ) (b : Block σ) : List (Block σ) := z.before.reverse ++ b :: z.after

def Zip.size (z : Zip σ) : Nat := z.before.length + 1 + z.after.length

/-- `InternalError`, spin_locked_gcd.rs lines 51-56. (`Slice(AlreadyExists)` cannot arise: the new keys lie inside a block.) -/
inductive TErr where
  | block (e : BlockErr)
  | outOfSpace
deriving DecidableEq, Repr

/-- What a transition did to the block map. -/
inductive TRes (σ : Type) where
  | done (blocks : List (Block σ))
  /-- failed, leaving `b` at the position -/
  | fail (e : TErr) (b : Block σ)
  | panic

/-- spin_locked_gcd.rs lines 1111-1122: merge with the next block. -/
def mergeNext (mb : Block σ) : List (Block σ) → List (Block σ)
  | [] => [mb]
  | n :: after =>
    match mb.merge n with
    | some m => m :: after
    | none => mb :: n :: after

/-- spin_locked_gcd.rs lines 1124-1138: merge the first block of `l` with the block before it. -/
def mergePrev (before l : List (Block σ)) : List (Block σ) :=
  match before, l with
  | p :: before', mb :: after =>
    match p.merge mb with
    | some m => before'.reverse ++ m :: after
    | none => before.reverse ++ l
  | _, _ => before.reverse ++ l

/-- `split_state_transition_at_idx`, spin_locked_gcd.rs lines 1058-1142; `cap` is the capacity of the tree. -/
def Zip.transition (cap : Nat) (z : Zip σ) (base len : Nat) (tr : σ → Option σ) : TRes σ :=
  match z.cur.splitTransition base len tr with
  | .err (e, b) => .fail (.block e) b
  | .panic => .panic
  | .ok s =>
    -- `add`/`add_many` fail when the tree is full; the block is then put back (lines 1096-1107)
    if s.added ≠ 0 ∧ cap < z.size + s.added then .fail .outOfSpace z.cur
    else .done (mergePrev (s.prev.toList ++ z.before) (mergeNext s.mb (s.next.toList ++ z.after)))

/-- The position of the last of the blocks passed. -/
def zipAt (before after : List (Block σ)) : Option (Zip σ) :=
  match before with
  | [] => none
  | p :: before => some ⟨before, p, after⟩

/-- `get_closest_idx`, rbt.rs lines 287-302: the last block whose base is at most `k`. -/
def seekFrom (k : Nat) : List (Block σ) → List (Block σ) → Option (Zip σ)
  | before, [] => zipAt before []
  | before, b :: after => if b.base ≤ k then seekFrom k (b :: before) after else zipAt before (b :: after)

def seek (k : Nat) (blocks : List (Block σ)) : Option (Zip σ) := seekFrom k [] blocks

/-- What an allocation search does with a block. -/
inductive Cand where
  | skip
  /-- end the search with this error -/
  | stop (e : EfiError)
  /-- try to take the block apart at this address -/
  | try_ (addr : Nat)

/-- The loop of `allocate_bottom_up`, spin_locked_gcd.rs lines 666-715 and 1431-1463: first block to last. `before` are the
blocks already passed; `final` is the error when no block is left. -/
def searchUp (cap : Nat) (cand : Block σ → Cand) (len : Nat) (tr : σ → Option σ) (final : EfiError) :
    List (Block σ) → List (Block σ) → Outcome EfiError Nat × List (Block σ)
  | before, [] => (.err final, before.reverse)
  | before, b :: after =>
    match cand b with
    | .skip => searchUp cap cand len tr final (b :: before) after
    | .stop e => (.err e, before.reverse ++ b :: after)
    | .try_ addr =>
      match (Zip.mk before b after).transition cap addr len tr with
      | .done blocks => (.ok addr, blocks)
      | .fail (.block _) b' => searchUp cap cand len tr final (b' :: before) after
      | .fail .outOfSpace b' => (.err .outOfResources, before.reverse ++ b' :: after)
      | .panic => (.panic, before.reverse ++ b :: after)

/-- The loop of `allocate_top_down`, spin_locked_gcd.rs lines 750-798 and 1493-1533: from the current block (the first of
the first list) down. `after` are the blocks already passed. -/
def searchDown (cap : Nat) (cand : Block σ → Cand) (len : Nat) (tr : σ → Option σ) (final : EfiError) :
    List (Block σ) → List (Block σ) → Outcome EfiError Nat × List (Block σ)
  | [], after => (.err final, after)
  | b :: before, after =>
    match cand b with
    | .skip => searchDown cap cand len tr final before (b :: after)
    | .stop e => (.err e, before.reverse ++ b :: after)
    | .try_ addr =>
      match (Zip.mk before b after).transition cap addr len tr with
      | .done blocks => (.ok addr, blocks)
      | .fail (.block _) b' => searchDown cap cand len tr final before (b' :: after)
      | .fail .outOfSpace b' => (.err .outOfResources, before.reverse ++ b' :: after)
      | .panic => (.panic, before.reverse ++ b :: after)

/-- The pattern of `add_memory_space` (lines 442-464), `remove_memory_space` (lines 481-494), `free_memory_space_worker`
(lines 588-595), `allocate_address` (lines 826-847) and the two setters (lines 903-930, 952-967), and of their I/O versions:
`get_closest_idx`, then `split_state_transition_at_idx`, then the error codes. `onErr` gives the code for a rejected
transition. -/
def changeAt (cap : Nat) (blocks : List (Block σ)) (base len : Nat) (tr : σ → Option σ) (onErr : σ → BlockErr → EfiError) :
    Outcome EfiError Unit × List (Block σ) :=
  match seek base blocks with
  | none => (.err .notFound, blocks)
  | some z =>
    match z.transition cap base len tr with
    | .done l => (.ok (), l)
    | .fail (.block e) b => (.err (onErr z.cur.st e), z.plug b)
    | .fail .outOfSpace b => (.err .outOfResources, z.plug b)
    | .panic => (.panic, blocks)

end Verif.Gcd
