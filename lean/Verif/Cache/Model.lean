/-!
# Flushing the data cache

Model of `core/patina_internal_cpu/src/cpu/aarch64/cpu.rs` 27-105 and `core/patina_internal_cpu/src/cpu/x64/cpu.rs`
32-61, 124-156: the service with which drivers make a buffer they share with a device agree between the cache of the
processor and memory.

The cache itself is hardware.  It is modelled as one line per aligned block of memory, which is absent, clean or dirty:
the processor reads a byte from its line when the line is present and from memory otherwise, a device always reads
memory.  Lines that the hardware evicts or loads on its own between the operations of one flush are not modelled, nor is
the barrier at the end (`dsb sy`).
-/

namespace Verif.Cache

/-- What the cache knows of one line of memory (hardware). -/
inductive Line where
  | absent
  | clean
  | dirty
deriving DecidableEq, Repr

/-- Memory with a data cache in front of it: the bytes of memory, what the cache knows of each line, and the bytes the
cache holds (hardware). -/
structure Sys where
  ram : Nat → UInt8
  line : Nat → Line
  copy : Nat → UInt8

/-- `CpuFlushType` (sdk/patina_pi/src/protocols/cpu_arch.rs 24-34). -/
inductive Flush where
  | writeBackInvalidate
  | writeBack
  | invalidate
deriving DecidableEq, Repr

/-- What a flush makes of one line: the effect of `dc cvac`, `dc ivac` and `dc civac` on its presence
(core/patina_internal_cpu/src/cpu/aarch64/cpu.rs 56-81). -/
def Flush.after : Flush → Line → Line
  | .writeBack, .dirty => .clean
  | .writeBack, l => l
  | .invalidate, _ => .absent
  | .writeBackInvalidate, _ => .absent

/-- Whether the flush writes a line it finds in that state to memory
(core/patina_internal_cpu/src/cpu/aarch64/cpu.rs 56-81). -/
def Flush.writes : Flush → Line → Bool
  | .invalidate, _ => false
  | _, .dirty => true
  | _, _ => false

/-- One cache instruction on the line that contains the address `a`, with lines of `len` bytes.
core/patina_internal_cpu/src/cpu/aarch64/cpu.rs 56-81. -/
def Flush.instruction (t : Flush) (len a : Nat) (s : Sys) : Sys :=
  { ram := fun b => if b / len = a / len ∧ t.writes (s.line (a / len)) then s.copy b else s.ram b
    line := fun l => if l = a / len then t.after (s.line l) else s.line l
    copy := s.copy }

/-- How a flush ends: done, a panic of arithmetic in a debug build, or, in a release build, an address that wrapped
around and with which the loop goes on from the bottom of memory (not followed further). -/
inductive Run where
  | done (s : Sys)
  | panics
  | wraps

/-- `data_cache_line_len`: 4 bytes times two to the field of the cache type register.
core/patina_internal_cpu/src/cpu/aarch64/cpu.rs 83-98. -/
def lineLen (ctr : Nat) : Nat := 4 <<< ((ctr >>> 16) &&& 0xf)

/-- The loop of `cache_range_operation`.  The step is a parameter; it is never zero, and the case is there so that the
function is total.  core/patina_internal_cpu/src/cpu/aarch64/cpu.rs 33-46. -/
def loop (dbg : Bool) (t : Flush) (len step stop addr : Nat) (s : Sys) : Run :=
  let s := t.instruction len addr s
  if step = 0 then .wraps
  else if 2 ^ 64 ≤ addr + step then (if dbg then .panics else .wraps)
  else if stop ≤ addr + step then .done s
  else loop dbg t len step stop (addr + step) s
termination_by stop - addr
decreasing_by omega

/-- `cache_range_operation` and with it `flush_data_cache` of the aarch64 processor, for a cache type register `ctr`.
The step of the loop is the alignment mask, one less than the length of a line.
core/patina_internal_cpu/src/cpu/aarch64/cpu.rs 28-55, 102-110. -/
def flushA64 (dbg : Bool) (ctr : Nat) (start length : Nat) (t : Flush) (s : Sys) : Run :=
  let alignment := lineLen ctr - 1
  let aligned := start - (start &&& alignment)
  if 2 ^ 64 ≤ start + length then
    (if dbg then .panics else loop dbg t (lineLen ctr) alignment ((start + length) % 2 ^ 64) aligned s)
  else loop dbg t (lineLen ctr) alignment (start + length) aligned s

/-- `flush_data_cache` of the x64 processor: the whole cache, whatever the range; write back alone is refused.
core/patina_internal_cpu/src/cpu/x64/cpu.rs 125-142. -/
def flushX64 (len : Nat) (_start _length : Nat) (t : Flush) (s : Sys) : Option Sys :=
  match t with
  | .writeBackInvalidate => some
      { s with
        ram := fun b => if s.line (b / len) = .dirty then s.copy b else s.ram b
        line := fun _ => .absent }
  | .invalidate => some { s with line := fun _ => .absent }
  | .writeBack => none

/-- `get_timer_value` of a fresh x64 processor: the counter is not read, so the value and the period are always zero; an
index other than zero is refused.  core/patina_internal_cpu/src/cpu/x64/cpu.rs 28-32, 52-61, 85-92, 148-157. -/
def timerX64 (index : Nat) : Option (Nat × Nat) :=
  if index ≠ 0 then none else
    let tsc := 0
    let period := if tsc ≠ tsc then 100000000000 / (tsc - tsc) else 0
    some (tsc, period)

end Verif.Cache
