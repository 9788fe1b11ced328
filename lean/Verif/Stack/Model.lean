import Verif.Prelude
import Verif.Bytes
/-!
Model of the stack trace of `/repo/core/patina_stacktrace/src`: `byte_reader.rs`, `pe.rs`, `stacktrace.rs`, `x64/` and `aarch64/`.

* Memory is a function from addresses to bytes; every address can be read. What happens when the trace reads an address that is not
  mapped, which its callers must exclude, is not modelled, nor the alignment check a debug build does before it reads a word.
* A slice is its place in memory and its length (`Slice`); a slice of a slice panics if it is not inside.
* The payload of errors is left out. Log lines are values (`Line`).
* `dbg` tells a build with overflow checks from a release build, in which sums wrap. A loop that may not end has fuel; the outer `none`
  stands for a call that has not returned yet.
-/
namespace Verif.Stack

abbrev Mem := Nat → UInt8

/-- `Error`, `error.rs`, without the payload. -/
inductive Err where
  | bufferTooShort
  | malformed
  | imageNotFound
  | exceptionDirectoryNotFound
  | runtimeFunctionNotFound
  | unwindInfoNotFound
  | stackOffsetNotFound
  | stackTraceDumpFailed
deriving DecidableEq, Repr

/-- A `&[u8]`. -/
structure Slice where
  base : Nat
  len : Nat
deriving DecidableEq, Repr

/-- The bytes at an address. -/
def bytesAt (m : Mem) (a : Nat) : Nat → List UInt8
  | 0 => []
  | n + 1 => m a :: bytesAt m (a + 1) n

/-- The little endian number at an address. -/
def num (m : Mem) (a n : Nat) : Nat := leVal (bytesAt m a n)

/-- `read8`, `read16` and `read32`, `byte_reader.rs` lines 18-40. -/
def Slice.read (m : Mem) (s : Slice) (i n : Nat) : Outcome Err Nat :=
  if i + n > s.len then .err .bufferTooShort else .ok (num m (s.base + i) n)

/-- `&s[a..b]`. -/
def Slice.sub (s : Slice) (a b : Nat) : Outcome Err Slice :=
  if a ≤ b ∧ b ≤ s.len then .ok ⟨s.base + a, b - a⟩ else .panic

/-- A sum of `bits` bits. -/
def add (dbg : Bool) (bits a b : Nat) : Outcome Err Nat :=
  if a + b < 2 ^ bits then .ok (a + b) else if dbg then .panic else .ok ((a + b) % 2 ^ bits)

/-! ### The image -/

/-- `PE`, `pe.rs` lines 27-39. The name is the bytes of the string. -/
structure Image where
  base : Nat
  name : Option (List UInt8)
  bytes : Slice
deriving DecidableEq, Repr

/-- `unwrap_or(0)`. -/
def orZero : Outcome Err Nat → Nat
  | .ok v => v
  | _ => 0

/-- The type, data address and data size of the debug directory entries that are whole or not: `chunks`, `read32(..).unwrap_or(0)`, `pe.rs`
lines 108-123. The first entry of type 2 (CodeView). -/
def codeView (m : Mem) : Nat → Slice → Option (Nat × Nat)
  | 0, _ => none
  | n + 1, s =>
    if s.len = 0 then none
    else
      let e : Slice := ⟨s.base, min 0x1c s.len⟩
      if orZero (e.read m 0xc 4) = 2 then some (orZero (e.read m 0x14 4), orZero (e.read m 0x10 4))
      else codeView m n ⟨s.base + e.len, s.len - e.len⟩

/-- What is behind the last `c`: `rsplit(c).next()`. -/
def behindLast (c : UInt8) (l : List UInt8) : List UInt8 := (l.reverse.takeWhile (· ≠ c)).reverse

/-- What is before the last `c`, if there is one: `rsplit_once(c)`. -/
def beforeLast (c : UInt8) (l : List UInt8) : Option (List UInt8) :=
  if c ∈ l then some (((l.reverse.dropWhile (· ≠ c)).drop 1).reverse) else none

/-- `get_image_name`, `pe.rs` lines 96-160. `utf8` tells whether bytes are UTF-8. The subtraction in line 146 underflows if the record is too
short; a release build then makes a slice of almost all of memory, which is not modelled further. -/
def imageName (utf8 : List UInt8 → Bool) (m : Mem) (page rva size : Nat) : Outcome Err (Option (List UInt8)) :=
  match codeView m size ⟨page + rva, size⟩ with
  | none => .ok none
  | some (dataRva, dataSize) =>
    if dataRva = 0 ∨ dataSize = 0 then .ok none
    else if num m (page + dataRva) 4 ≠ 0x53445352 then .ok none
    else if dataSize < 0x18 then .panic
    else
      let file := bytesAt m (page + dataRva + 0x18) (dataSize - 0x18)
      if utf8 file then
        match beforeLast 46 (behindLast 92 file) with
        | some name => .ok (some name)
        | none => .ok (some file)
      else .ok none

/-- A read in the page, `pe.rs` line 53. -/
def page (m : Mem) (rip i n : Nat) : Outcome Err Nat := (⟨rip, 4096⟩ : Slice).read m i n

/-- `pe.rs` lines 75-79. -/
def nameIf (utf8 : List UInt8 → Bool) (m : Mem) (rip rva size : Nat) : Outcome Err (Option (List UInt8)) :=
  if size ≠ 0 then imageName utf8 m rip rva size else .ok none

/-- A page that starts with `MZ`, `pe.rs` lines 57-86: the image if there is a PE header, nothing if not. -/
def imageAt (utf8 : List UInt8 → Bool) (m : Mem) (rip : Nat) : Outcome Err (Option Image) := do
  let off ← page m rip 0x3c 4
  let sig ← page m rip off 4
  if sig = 0x4550 then
    let size ← page m rip (off + 0x50) 4
    let name ← nameIf utf8 m rip (orZero (page m rip (off + 0xb8) 4)) (orZero (page m rip (off + 0xb8 + 4) 4))
    .ok (some ⟨rip, name, ⟨rip, size⟩⟩)
  else .ok none

/-- The loop of `locate_image`, `pe.rs` lines 52-89: page by page downwards. -/
def locateFrom (utf8 : List UInt8 → Bool) (m : Mem) : Nat → Outcome Err Image
  | 0 => .err .imageNotFound
  | p + 1 =>
    if num m ((p + 1) * 4096) 2 = 0x5a4d then
      match imageAt utf8 m ((p + 1) * 4096) with
      | .ok (some i) => .ok i
      | .ok none => locateFrom utf8 m p
      | .err e => .err e
      | .panic => .panic
    else locateFrom utf8 m p

/-- `locate_image`, `pe.rs` lines 43-93. -/
def locateImage (utf8 : List UInt8 → Bool) (m : Mem) (rip : Nat) : Outcome Err Image := locateFrom utf8 m (rip / 4096)

/-- `get_exception_table`, `pe.rs` lines 162-193: its address in the image and its size. -/
def exceptionTable (m : Mem) (i : Image) : Outcome Err (Nat × Nat) := do
  let off ← i.bytes.read m 0x3c 4
  let magic ← i.bytes.read m (off + 0x18) 2
  let at_ := off + if magic = 0x20b then 0xa0 else 0x90
  let rva ← i.bytes.read m at_ 4
  let size ← i.bytes.read m (at_ + 4) 4
  if rva = 0 ∨ size = 0 then .err .exceptionDirectoryNotFound else .ok (rva, size)

/-- The exception table as a slice: `pe.bytes[rva..(rva + size)]`, `x64/runtime_function.rs` lines 67-68. -/
def tableSlice (dbg : Bool) (m : Mem) (i : Image) : Outcome Err Slice := do
  let (rva, size) ← exceptionTable m i
  let end_ ← add dbg 32 rva size
  i.bytes.sub rva end_

/-- `RuntimeFunction`, `x64/runtime_function.rs` lines 10-25. -/
structure Func where
  start : Nat
  end_ : Nat
  unwind : Nat
deriving DecidableEq, Repr

/-- The search in a table of `n` whole entries of `width` bytes and `extra` bytes behind them, `x64/runtime_function.rs` lines 69-79 and
`aarch64/runtime_function.rs` lines 70-110: the first entry the address is in, its end included. An entry that is not whole makes `unwrap`
panic if the search gets there. -/
def findEntry (entry : Nat → Outcome Err Func) (width extra rva : Nat) : Nat → Nat → Outcome Err Func
  | 0, _ => if extra = 0 then .err .runtimeFunctionNotFound else .panic
  | n + 1, a => do
    let f ← entry a
    if f.start ≤ rva ∧ rva ≤ f.end_ then .ok f else findEntry entry width extra rva n (a + width)

/-! ### x64 -/
namespace X64

/-- An entry of the table. -/
def entry (m : Mem) (a : Nat) : Outcome Err Func := .ok ⟨num m a 4, num m (a + 4) 4, num m (a + 8) 4⟩

/-- `find_function`, `x64/runtime_function.rs` lines 59-81. -/
def findFunction (dbg : Bool) (m : Mem) (i : Image) (rva : Nat) : Outcome Err Func := do
  let t ← tableSlice dbg m i
  findEntry (entry m) 12 (t.len % 12) rva (t.len / 12) t.base

/-- `UnwindInfo`, `x64/unwind.rs` lines 12-26. -/
structure Info where
  version : Nat
  flags : Nat
  prolog : Nat
  count : Nat
  frameRegister : Nat
  frameOffset : Nat
  codes : List UInt8
deriving DecidableEq, Repr

/-- `UnwindInfo::parse`, `x64/unwind.rs` lines 46-81. -/
def parse (m : Mem) (s : Slice) : Outcome Err Info := do
  let b ← s.read m 0 1
  if b % 8 ≠ 1 ∧ b % 8 ≠ 2 then .err .malformed
  else
    let prolog ← s.read m 1 1
    let count ← s.read m 2 1
    let frame ← s.read m 3 1
    if 4 + count * 2 ≥ s.len then .err .malformed
    else .ok ⟨b % 8, b / 8, prolog, count, frame % 16, frame / 16 * 16, bytesAt m (s.base + 4) (count * 2)⟩

/-- `get_unwind_info`, `x64/runtime_function.rs` lines 52-55. -/
def unwindInfo (m : Mem) (i : Image) (f : Func) : Outcome Err Info := do
  let s ← i.bytes.sub f.unwind i.bytes.len
  match parse m s with
  | .ok u => .ok u
  | .err _ => .err .unwindInfoNotFound
  | .panic => .panic

/-- `x` more bytes, in a `usize`: at most 255 codes of 4 GB each do not overflow. -/
def plus (x : Nat) : Outcome Err Nat → Outcome Err Nat
  | .ok n => .ok (x + n)
  | r => r

/-- `UnwindCode::get_stack_pointer_offset`, `x64/unwind.rs` lines 144-188. The sum is built from the end; the first error or panic is the same. -/
def offset : List UInt8 → Outcome Err Nat
  | [] => .ok 0
  | [_] => .err .bufferTooShort
  | _ :: c :: rest =>
    match c.toNat % 16 with
    | 0 => plus 8 (offset rest)
    | 1 =>
      match c.toNat / 16 with
      | 0 => match rest with
        | x :: y :: r => plus (leVal [x, y] * 8) (offset r)
        | _ => .err .bufferTooShort
      | 1 => match rest with
        | x :: y :: z :: w :: r => plus (leVal [x, y, z, w]) (offset r)
        | _ => .err .bufferTooShort
      | _ => .err .malformed
    | 2 => plus (c.toNat / 16 * 8 + 8) (offset rest)
    | 3 => offset rest
    | 4 => match rest with
      | _ :: _ :: r => offset r
      | _ => .err .bufferTooShort
    | 5 => match rest with
      | _ :: _ :: _ :: _ :: r => offset r
      | _ => .err .bufferTooShort
    | 6 | 7 | 8 | 9 | 10 => offset rest
    | _ => .panic

/-- `UnwindInfo::get_stack_pointer_offset`, `x64/unwind.rs` lines 84-86. -/
def infoOffset (u : Info) : Outcome Err Nat :=
  match offset u.codes with
  | .err _ => .err .stackOffsetNotFound
  | r => r

/-- `get_current_stack_frame`, `x64/unwind.rs` lines 89-95: the stack pointer and the address of the caller. -/
def callerFrame (dbg : Bool) (m : Mem) (u : Info) (sp : Nat) : Outcome Err (Nat × Nat) := do
  let off ← infoOffset u
  let a ← add dbg 64 sp off
  let sp' ← add dbg 64 a 8
  .ok (sp', num m a 8)

/-- One round of `dump_with` behind the image, `stacktrace.rs` lines 56-58. -/
def frame (dbg : Bool) (m : Mem) (i : Image) (rva sp : Nat) : Option (Outcome Err (Nat × Nat)) :=
  some do
    let f ← findFunction dbg m i rva
    let u ← unwindInfo m i f
    callerFrame dbg m u sp

end X64

/-! ### AArch64 -/
namespace A64

/-- The length of a function in bytes, `aarch64/runtime_function.rs` lines 77-103. -/
def funcLength (m : Mem) (i : Image) (unwind : Nat) : Outcome Err Nat :=
  match unwind % 4 with
  | 0 => do
    let s ← i.bytes.sub unwind (unwind + 4)
    .ok (num m s.base 4 % 2 ^ 18 * 4)
  | 1 | 2 => .ok (unwind / 4 % 2 ^ 11 * 4)
  | _ => .ok 0

/-- An entry of the table. -/
def entry (dbg : Bool) (m : Mem) (i : Image) (a : Nat) : Outcome Err Func := do
  let n ← funcLength m i (num m (a + 4) 4)
  let end_ ← add dbg 32 (num m a 4) n
  .ok ⟨num m a 4, end_, num m (a + 4) 4⟩

/-- `find_function`, `aarch64/runtime_function.rs` lines 59-112. -/
def findFunction (dbg : Bool) (m : Mem) (i : Image) (rva : Nat) : Outcome Err Func := do
  let t ← tableSlice dbg m i
  findEntry (entry dbg m i) 8 (t.len % 8) rva (t.len / 8) t.base

/-- `UnwindInfo`, `aarch64/unwind.rs` lines 70-101, without what is only displayed. -/
inductive Info where
  | packed (cr frameSize : Nat)
  | unpacked (codes : List UInt8)
deriving DecidableEq, Repr

/-- Count of words of codes, count of epilogues, and where the rest of the record starts in words, `aarch64/unwind.rs` lines 138-161: both counts
are in the second word if they are 0 in the first. -/
def layout (m : Mem) (s : Slice) (unwind h : Nat) : Outcome Err (Nat × Nat × Nat) :=
  if h / 2 ^ 27 % 32 = 0 ∧ h / 2 ^ 22 % 32 = 0 then do
    let h2 ← s.sub (unwind + 4) (unwind + 8)
    .ok (num m h2.base 4 / 2 ^ 16 % 256, num m h2.base 4 % 2 ^ 16, 2)
  else .ok (h / 2 ^ 27 % 32, h / 2 ^ 22 % 32, 1)

/-- `UnwindInfo::parse`, `aarch64/unwind.rs` lines 127-213. -/
def parse (m : Mem) (s : Slice) (unwind : Nat) : Outcome Err Info :=
  match unwind % 4 with
  | 0 => do
    let h ← s.sub unwind (unwind + 4)
    let h := num m h.base 4
    if h / 2 ^ 18 % 4 ≠ 0 then .err .malformed
    else do
      let (words, epilogs, at_) ← layout m s unwind h
      let begin_ := unwind + (at_ + if h / 2 ^ 21 % 2 = 0 then epilogs else 0) * 4
      let codes ← s.sub begin_ (begin_ + words * 4)
      .ok (.unpacked (bytesAt m codes.base codes.len))
  | 1 | 2 => .ok (.packed (unwind / 2 ^ 21 % 4) (unwind / 2 ^ 23 % 512 * 16))
  | _ => .err .malformed

/-- `get_unwind_info`, `aarch64/runtime_function.rs` lines 52-55. -/
def unwindInfo (m : Mem) (i : Image) (f : Func) : Outcome Err Info :=
  match parse m i.bytes f.unwind with
  | .ok u => .ok u
  | .err _ => .err .unwindInfoNotFound
  | .panic => .panic

/-- `get_stack_pointer_offset_packed`, `aarch64/unwind.rs` lines 395-423: where the return address is and how large the frame is. -/
def packedOffset (frameSize cr : Nat) : Outcome Err (Nat × Nat) :=
  match cr with
  | 0 => .ok (0, frameSize)
  | 1 => .ok (0, frameSize)
  | 2 => .ok (8, frameSize)
  | 3 => .ok (8, frameSize)
  | _ => .err .stackOffsetNotFound

/-- What a round of the loop does: `break`, go on, or panic. -/
inductive Step where
  | stop
  | next (rest : List UInt8) (lr off : Nat)
  | panic
deriving DecidableEq, Repr

/-- `offset += x; len += n`. -/
def grow (dbg : Bool) (all : List UInt8) (n lr off x : Nat) : Step :=
  match add dbg 32 off x with
  | .ok off => .next (all.drop n) lr off
  | _ => .panic

/-- A byte behind the current one: `bytes[len + k]`. -/
def operand (all : List UInt8) (k : Nat) (f : Nat → Step) : Step :=
  match all[k]? with
  | some b => f b.toNat
  | none => .panic

/-- One round of the loop of `get_stack_pointer_offset_unpacked`, `aarch64/unwind.rs` lines 433-629. `all` is `bytes[len..]`, not empty; `b` its
first byte. The tests are on different bytes, so their order does not matter; if none is met, `len` stays what it is. -/
def step (dbg : Bool) (b : Nat) (all : List UInt8) (lr off : Nat) : Step :=
  if b / 32 = 0 then grow dbg all 1 lr off (b % 32 * 16)                       -- alloc_s
  else if b / 32 = 1 then grow dbg all 1 lr off (b % 32 * 8)                   -- save_r19r20_x
  else if b / 64 = 1 then                                                     -- save_fplr
    match add dbg 32 off (b % 64 * 8 + 8) with
    | .ok lr => .next (all.drop 1) lr off
    | _ => .panic
  else if b / 64 = 2 then                                                     -- save_fplr_x
    match add dbg 32 off ((b % 64 + 1) * 8) with
    | .ok off => match add dbg 32 off 8 with
      | .ok lr => .next (all.drop 1) lr off
      | _ => .panic
    | _ => .panic
  else if b / 8 = 0b11000 then operand all 1 fun c => grow dbg all 2 lr off ((b % 8 * 256 + c) * 16)    -- alloc_m
  else if b / 4 = 0b110010 then .next (all.drop 2) lr off                     -- save_regp
  else if b / 4 = 0b110011 then operand all 1 fun c => grow dbg all 2 lr off ((c % 64 + 1) * 8)         -- save_regp_x
  else if b / 4 = 0b110100 then .next (all.drop 2) lr off                     -- save_reg
  else if b / 2 = 0b1101010 then operand all 1 fun c => grow dbg all 2 lr off ((c % 32 + 1) * 8)        -- save_reg_x
  else if b / 2 = 0b1101011 then .next (all.drop 2) lr off                    -- save_lrpair
  else if b / 2 = 0b1101100 then .next (all.drop 2) lr off                    -- save_fregp
  else if b / 2 = 0b1101101 then .next (all.drop 2) lr off                    -- save_fregp_x
  else if b / 2 = 0b1101110 then .next (all.drop 2) lr off                    -- save_freg
  else if b = 0b11011110 then operand all 1 fun c => grow dbg all 2 lr off ((c % 64 + 1) * 8)           -- save_freg_x
  else if b = 0b11100000 then                                                 -- alloc_l
    operand all 1 fun c => operand all 2 fun d => operand all 3 fun e => grow dbg all 4 lr off ((c * 2 ^ 16 + d * 2 ^ 8 + e) * 16)
  else if b = 0b11100001 then .next (all.drop 1) lr off                       -- set_fp
  else if b = 0b11100010 then .next (all.drop 2) lr off                       -- add_fp
  else if b = 0b11100011 then .next (all.drop 1) lr off                       -- nop
  else if b = 0b11100100 ∨ b = 0b11100101 then .stop                          -- end, end_c
  else if b = 0b11100110 ∨ b = 0b11100111 then .next (all.drop 1) lr off      -- save_next, reserved
  else if b / 8 = 0b11101 then .next (all.drop 1) lr off                      -- custom stacks, reserved
  else if b = 0b11111000 then operand all 1 fun _ => .next (all.drop 2) lr off
  else if b = 0b11111001 then .next (all.drop 3) lr off
  else if b = 0b11111010 then .next (all.drop 4) lr off
  else if b = 0b11111011 then .next (all.drop 5) lr off
  else if b = 0b11111100 then .next (all.drop 1) lr off                       -- pac_sign_lr
  else if b = 0b11111101 ∨ b = 0b11111110 ∨ b = 0b11111111 then .next (all.drop 1) lr off
  else .next all lr off

/-- The loop, lines 432-631. -/
def loop (dbg : Bool) : Nat → List UInt8 → Nat → Nat → Option (Outcome Err (Nat × Nat))
  | 0, _, _, _ => none
  | n + 1, all, lr, off =>
    match all with
    | [] => some (.ok (lr, off))
    | b :: _ => match step dbg b.toNat all lr off with
      | .stop => some (.ok (lr, off))
      | .next rest lr off => loop dbg n rest lr off
      | .panic => some .panic

/-- `get_stack_pointer_offset`, `aarch64/unwind.rs` lines 235-246. -/
def infoOffset (dbg : Bool) (fuel : Nat) (u : Info) : Option (Outcome Err (Nat × Nat)) :=
  match u with
  | .packed cr frameSize => some (packedOffset frameSize cr)
  | .unpacked codes => loop dbg fuel codes 0 0

/-- The read of the return address and the sum, `aarch64/unwind.rs` lines 251-254. -/
def caller (dbg : Bool) (m : Mem) (sp : Nat) : Outcome Err (Nat × Nat) → Outcome Err (Nat × Nat)
  | .ok (lr, off) => do
    let a ← add dbg 64 sp lr
    let sp' ← add dbg 64 sp off
    .ok (sp', num m a 8)
  | .err e => .err e
  | .panic => .panic

/-- `get_current_stack_frame`, `aarch64/unwind.rs` lines 249-255: the stack pointer and the address of the caller. -/
def callerFrame (dbg : Bool) (fuel : Nat) (m : Mem) (u : Info) (sp : Nat) : Option (Outcome Err (Nat × Nat)) :=
  (infoOffset dbg fuel u).map (caller dbg m sp)

/-- One round of `dump_with` behind the image, `stacktrace.rs` lines 56-58. -/
def frame (dbg : Bool) (fuel : Nat) (m : Mem) (i : Image) (rva sp : Nat) : Option (Outcome Err (Nat × Nat)) :=
  match (do let f ← findFunction dbg m i rva; unwindInfo m i f) with
  | .ok u => callerFrame dbg fuel m u sp
  | .err e => some (.err e)
  | .panic => some .panic

end A64

/-! ### The trace -/

/-- A line of the log: its number, the stack pointer, the return address, the image and the place in it. -/
structure Line where
  index : Nat
  sp : Nat
  ret : Nat
  image : Option (List UInt8)
  rva : Nat
deriving DecidableEq, Repr

/-- The loop of `dump_with`, `stacktrace.rs` lines 46-76, with `left` of the 20 rounds left: the lines, and how it ends. -/
def dumpFrom (utf8 : List UInt8 → Bool) (m : Mem) (frame : Image → Nat → Nat → Option (Outcome Err (Nat × Nat))) :
    Nat → Nat → Nat → List Line × Option (Outcome Err Unit)
  | 0, _, _ => ([], some (.err .stackTraceDumpFailed))
  | left + 1, pc, sp =>
    match locateImage utf8 m pc with
    | .err e => ([], some (.err e))
    | .panic => ([], some .panic)
    | .ok i =>
      match frame i ((pc - i.base) % 2 ^ 32) sp with
      | none => ([], none)
      | some (.err e) => ([], some (.err e))
      | some .panic => ([], some .panic)
      | some (.ok (sp', pc')) =>
        let line : Line := ⟨20 - (left + 1), sp, pc', i.name, pc - i.base⟩
        if pc' = 0 then ([line], some (.ok ()))
        else match dumpFrom utf8 m frame left pc' sp' with
          | (lines, r) => (line :: lines, r)

/-- `dump_with`, `stacktrace.rs` lines 37-79. -/
def dump (utf8 : List UInt8 → Bool) (m : Mem) (frame : Image → Nat → Nat → Option (Outcome Err (Nat × Nat))) (pc sp : Nat) :
    List Line × Option (Outcome Err Unit) := dumpFrom utf8 m frame 20 pc sp

end Verif.Stack
