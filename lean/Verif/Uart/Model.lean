import Verif.Prelude
/-! The drivers of the serial ports, `sdk/patina/src/serial/uart.rs` (lines 10-212) with the trait of `sdk/patina/src/serial.rs`.

A driver only reads and writes registers, so what it does is the list of its register accesses. The port is a parameter: a type of states and
what reading the flag register, reading the data register and writing the data register do to it. Nothing is assumed of it here, so the theorems
hold of a port that answers anything at any time. `Fifo` below is one such port, the one the PL011's manual describes.

The busy-waiting loops of the driver need not end: they are modelled with a bound on the number of turns, and `none` says that the bound was
reached. The theorems range over every bound. -/
namespace Verif.Uart

/-- A serial port, as seen by its driver: a volatile read of the flag register, a volatile write and a volatile read of the data register. -/
structure Port (σ : Type) where
  flags : σ → UInt8 × σ
  put : UInt8 → σ → σ
  get : σ → UInt8 × σ

/-- One access to a register of the port. -/
inductive Access
  | flag (f : UInt8)
  | put (b : UInt8)
  | get (b : UInt8)
deriving DecidableEq, Repr

/-- `uart_pl011::FR_BUSY`, uart.rs line 118. -/
def FR_BUSY : UInt8 := (1 : UInt8) <<< (3 : UInt8)
/-- `uart_pl011::FR_RXFE`, uart.rs line 119. -/
def FR_RXFE : UInt8 := (1 : UInt8) <<< (4 : UInt8)
/-- `uart_pl011::FR_TXFF`, uart.rs line 120. -/
def FR_TXFF : UInt8 := (1 : UInt8) <<< (5 : UInt8)

/-- What a function of the driver gave back, the accesses it made, in order, and the port it left. -/
structure Ran (σ α : Type) where
  val : α
  log : List Access
  port : σ

variable {σ : Type} (P : Port σ)

/-- `while self.read_flag_register() & mask != 0 {}`, uart.rs lines 145 and 155, for at most `n` turns. -/
def waitClear (mask : UInt8) : Nat → σ → Option (Ran σ Unit)
  | 0, _ => none
  | n + 1, s =>
    let (f, s') := P.flags s
    if f &&& mask ≠ 0 then (waitClear mask n s').map fun r => { r with log := .flag f :: r.log }
    else some ⟨(), [.flag f], s'⟩

/-- `UartPl011::write_byte`, uart.rs lines 143-156. -/
def writeByte (n : Nat) (b : UInt8) (s : σ) : Option (Ran σ Unit) :=
  (waitClear P FR_TXFF n s).bind fun r1 =>
    (waitClear P FR_BUSY n (P.put b r1.port)).map fun r2 => ⟨(), r1.log ++ .put b :: r2.log, r2.port⟩

/-- `UartPl011::read_byte`, uart.rs lines 159-171, which is also `try_read`, lines 206-208. -/
def readByte (s : σ) : Ran σ (Option UInt8) :=
  let (f, s') := P.flags s
  if f &&& FR_RXFE ≠ 0 then ⟨none, [.flag f], s'⟩
  else
    let (b, s'') := P.get s'
    ⟨some b, [.flag f, .get b], s''⟩

/-- `<UartPl011 as SerialIO>::write`, uart.rs lines 190-194. -/
def write (n : Nat) : List UInt8 → σ → Option (Ran σ Unit)
  | [], s => some ⟨(), [], s⟩
  | b :: bs, s =>
    (writeByte P n b s).bind fun r1 => (write n bs r1.port).map fun r2 => ⟨(), r1.log ++ r2.log, r2.port⟩

/-- `<UartPl011 as SerialIO>::read`, uart.rs lines 196-202, for at most `n` turns. -/
def read : Nat → σ → Option (Ran σ UInt8)
  | 0, _ => none
  | n + 1, s =>
    let r := readByte P s
    match r.val with
    | some b => some ⟨b, r.log, r.port⟩
    | none => (read n r.port).map fun r' => { r' with log := r.log ++ r'.log }

/-- The calls of the trait `SerialIO` on `UartNull`, uart.rs lines 14-27: nothing is written, `try_read` finds nothing and `read` panics. -/
def nullWrite (_buffer : List UInt8) : List Access := []
def nullTryRead : Option UInt8 := none
def nullRead : Outcome Unit UInt8 := .panic

/-! ## The port of the manual

This is not code of the project: it is the device the driver is written for. The port has a queue of bytes to send, of fixed size, and a queue of
bytes received. Time passes at each access: `sched i` says how many bytes leave the first queue for the wire, and which bytes come in, before the
`i`-th access. A byte written while the queue is full is lost; a byte read while nothing was received is garbage. -/
structure Fifo where
  cap : Nat
  tx : List UInt8
  wire : List UInt8
  lost : List UInt8
  rx : List UInt8
  now : Nat

/-- What happens at the port before the next access. -/
def Fifo.pass (sched : Nat → Nat × List UInt8) (d : Fifo) : Fifo :=
  { d with tx := d.tx.drop (sched d.now).1, wire := d.wire ++ d.tx.take (sched d.now).1, rx := d.rx ++ (sched d.now).2, now := d.now + 1 }

/-- The flag register: bit 3 while anything is left to send, bit 4 while nothing was received, bit 5 while the queue is full. -/
def Fifo.flagByte (d : Fifo) : UInt8 :=
  (if d.tx = [] then 0 else 8) ||| (if d.rx = [] then 16 else 0) ||| (if d.tx.length < d.cap then 0 else 32)

/-- The port. -/
def fifo (sched : Nat → Nat × List UInt8) : Port Fifo where
  flags d := ((d.pass sched).flagByte, d.pass sched)
  put b d :=
    let d := d.pass sched
    if d.tx.length < d.cap then { d with tx := d.tx ++ [b] } else { d with lost := d.lost ++ [b] }
  get d :=
    let d := d.pass sched
    match d.rx with
    | [] => (0, d)
    | b :: r => (b, { d with rx := r })

end Verif.Uart
