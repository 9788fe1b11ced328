import Verif.Prelude
import Verif.Bytes
/-!
Model of the MM communicate buffer (`/repo/components/patina_mm/src/config.rs`) and of the communicator
service (`/repo/components/patina_mm/src/component/communicator.rs`).

The memory of a buffer is a list of bytes whose length never changes (`NonNull<[u8]>` carries it).
Everything an MM handler does to the buffer is an arbitrary replacement of these bytes.
The target is 64-bit: `usize` in the header is 8 little-endian bytes.
-/
namespace Verif.Mm

/-- `efi::Guid`: 16 bytes. -/
structure Guid where
  bytes : List UInt8
  len : bytes.length = 16
deriving DecidableEq

/-- `CommunicateBufferStatus`, config.rs lines 138-152. -/
inductive BufStatus where
  | tooSmallForHeader | tooSmallForMessage | invalidRecipient | noBuffer | notAligned | addressValidationFailed
deriving DecidableEq, Repr

/-- `CommunicateBuffer`, config.rs lines 158-169 (`length` is `mem.length`). -/
structure Buf where
  mem : List UInt8
  id : Nat
  recipient : Option Guid
  msgLen : Nat
deriving DecidableEq

/-- `EfiMmCommunicateHeader::size()`, config.rs lines 84-111: 16-byte GUID, 8-byte length. -/
def HEADER : Nat := 24

/-- `EfiMmCommunicateHeader::new(..).as_bytes()`, config.rs lines 94-106. -/
def headerBytes (g : Guid) (n : Nat) : List UInt8 := g.bytes ++ leBytes 8 n

/-- `CommunicateBuffer::new`, config.rs lines 178-188: zero fill, nothing set. -/
def Buf.new (mem : List UInt8) (id : Nat) : Buf := ⟨List.replicate mem.length 0, id, none, 0⟩

/-- `CommunicateBuffer::from_raw_parts`, config.rs lines 216-242, for an address and the memory found
there (`none`: null pointer, address 0). -/
def Buf.fromRaw (addr : Nat) (mem : List UInt8) (id : Nat) : Outcome BufStatus Buf :=
  if mem.length < HEADER then .err .tooSmallForHeader
  else if addr = 0 then .err .noBuffer
  else if addr % 4096 ≠ 0 then .err .notAligned
  else if addr > 2 ^ 64 - 1 - mem.length then .err .addressValidationFailed
  else .ok (Buf.new mem id)

/-- `message_capacity`, config.rs lines 328-330. -/
def Buf.capacity (b : Buf) : Nat := b.mem.length - HEADER

/-- The GUID expected in memory, config.rs lines 360-377: all zero when no recipient was set. -/
def Buf.expectedGuid (b : Buf) : List UInt8 :=
  match b.recipient with
  | some g => g.bytes
  | none => List.replicate 16 0

/-- `verify_state_consistency`, config.rs lines 338-385. -/
def Buf.verify (b : Buf) : Outcome BufStatus Unit :=
  if b.mem.length < HEADER then .err .tooSmallForHeader
  else
    let header := b.mem.take HEADER
    let memGuid := header.take 16
    let memLen := leVal (header.drop 16)
    if memGuid ≠ b.expectedGuid then .err .invalidRecipient
    else if memLen ≠ b.msgLen then .err .tooSmallForMessage
    else .ok ()

/-- `validate_capacity`, config.rs lines 395-416. -/
def Buf.validateCapacity (b : Buf) (n : Nat) : Outcome BufStatus Unit :=
  if b.mem.length < HEADER then .err .tooSmallForHeader
  else if n > b.mem.length - HEADER then .err .tooSmallForMessage
  else .ok ()

/-- `mem[off..off + s.len()].copy_from_slice(s)`. -/
def copyAt (mem : List UInt8) (off : Nat) (s : List UInt8) : List UInt8 :=
  mem.take off ++ s ++ mem.drop (off + s.length)

/-- `set_message_info`, config.rs lines 424-443. The second component is the buffer afterwards. -/
def Buf.setInfo (b : Buf) (g : Guid) : Outcome BufStatus Unit × Buf :=
  match b.validateCapacity 0 with
  | .ok () =>
    let b := { b with recipient := some g }
    let b := { b with mem := copyAt b.mem 0 (headerBytes g b.msgLen) }
    (b.verify, b)
  | e => (e, b)

/-- `set_message`, config.rs lines 452-482. -/
def Buf.setMessage (b : Buf) (m : List UInt8) : Outcome BufStatus Unit × Buf :=
  match b.validateCapacity m.length with
  | .ok () =>
    match b.recipient with
    | none => (.err .invalidRecipient, b)
    | some g =>
      let b := { b with msgLen := m.length }
      let b := { b with mem := copyAt b.mem 0 (headerBytes g m.length) }
      let b := { b with mem := copyAt b.mem HEADER m }
      (b.verify, b)
  | e => (e, b)

/-- `get_message`, config.rs lines 488-510. -/
def Buf.getMessage (b : Buf) : Outcome BufStatus (List UInt8) := do
  b.verify
  if b.msgLen = 0 then .ok []
  else if HEADER + b.msgLen > b.mem.length then .err .tooSmallForMessage
  else .ok ((b.mem.drop HEADER).take b.msgLen)

/-- `get_header_guid`, config.rs lines 516-522. -/
def Buf.getGuid (b : Buf) : Outcome BufStatus (Option Guid) := do
  b.verify
  .ok b.recipient

/-- `get_message_length`, config.rs lines 526-533. -/
def Buf.getLength (b : Buf) : Outcome BufStatus Nat := do
  b.verify
  .ok b.msgLen

/-- `Status`, communicator.rs lines 33-50. -/
inductive Status where
  | noCommBuffer | commBufferNotFound | commBufferTooSmall | commBufferInitError | invalidDataBuffer
  | swMmiServiceNotAvailable | swMmiFailed | invalidResponse
deriving DecidableEq, Repr

/-- A handler: given the memory of the communicate buffer, what the memory holds when the MMI returns,
or `none` if triggering failed. -/
abbrev Handler := List UInt8 → Option (List UInt8)

/-- `communicate` after the buffer was found, communicator.rs lines 164-209, on that buffer. -/
def communicateOn (h : Handler) (b : Buf) (data : List UInt8) (g : Guid) : Outcome Status (List UInt8) × Buf :=
  if b.mem.length < HEADER + data.length then (.err .commBufferTooSmall, b)
  else
    match b.setInfo g with
    | (.ok (), b) =>
      match b.setMessage data with
      | (.ok (), b) =>
        match h b.mem with
        | none => (.err .swMmiFailed, b)
        | some mem =>
          let b := { b with mem := mem }
          match b.getMessage with
          | .ok r => (.ok r, b)
          | .err _ => (.err .invalidResponse, b)
          | .panic => (.panic, b)
      | (.err _, b) => (.err .commBufferInitError, b)
      | (.panic, b) => (.panic, b)
    | (.err _, b) => (.err .commBufferInitError, b)
    | (.panic, b) => (.panic, b)

/-- `iter_mut().find(|x| x.id() == id)` followed by an update of the buffer found
(communicator.rs lines 159-162). -/
def onBuffer {α : Type} (id : Nat) (f : Buf → α × Buf) : List Buf → Option α × List Buf
  | [] => (none, [])
  | b :: bs =>
    if b.id = id then let (r, b') := f b; (some r, b' :: bs)
    else let (r, bs') := onBuffer id f bs; (r, b :: bs')

/-- `communicate`, communicator.rs lines 141-210 (`h = none`: no trigger service). -/
def communicate (h : Option Handler) (bufs : List Buf) (id : Nat) (data : List UInt8) (g : Guid) :
    Outcome Status (List UInt8) × List Buf :=
  if bufs = [] then (.err .noCommBuffer, bufs)
  else if data = [] then (.err .invalidDataBuffer, bufs)
  else match h with
    | none => (.err .swMmiServiceNotAvailable, bufs)
    | some h =>
      match onBuffer id (fun b => communicateOn h b data g) bufs with
      | (none, bs) => (.err .commBufferNotFound, bs)
      | (some r, bs) => (r, bs)

end Verif.Mm
