import Verif.Stack.Model
/-!
What an image in memory, a prologue and its unwind record are, independently of the code that reads them.

Sources: the PE format (the optional header and its data directories), "x64 exception handling" and "ARM64 exception handling" of the Windows
ABI documentation, which UEFI images follow.
-/
namespace Verif.Stack.Spec
open Verif Verif.Stack

/-! ### An image in memory -/

/-- An image of `size` bytes is loaded at `base`, its PE header is at `base + off`, within the first page. -/
structure Loaded (m : Mem) (base off size : Nat) : Prop where
  aligned : base % 4096 = 0
  notZero : 0 < base
  dos : num m base 2 = 0x5a4d
  lfanew : num m (base + 0x3c) 4 = off
  room : off + 0xc0 ≤ 4096
  signature : num m (base + off) 4 = 0x4550
  imageSize : num m (base + off + 0x50) 4 = size

/-- The debug directory names no symbol file. -/
def Unnamed (m : Mem) (base off : Nat) : Prop := num m (base + off + 0xbc) 4 = 0

/-- The debug directory holds `k` entries of another type, then a CodeView one; that has the path of a symbol file, in which the name of the file
without the last extension is `stem`. -/
structure Named (utf8 : List UInt8 → Bool) (m : Mem) (base off : Nat) (stem : List UInt8) : Prop where
  directory : ∃ rva n k path folder ext at_,
    num m (base + off + 0xb8) 4 = rva ∧ num m (base + off + 0xbc) 4 = n * 0x1c ∧ k < n ∧
    (∀ j, j < k → num m (base + rva + j * 0x1c + 0xc) 4 ≠ 2) ∧ num m (base + rva + k * 0x1c + 0xc) 4 = 2 ∧
    num m (base + rva + k * 0x1c + 0x10) 4 = 0x18 + path.length ∧ num m (base + rva + k * 0x1c + 0x14) 4 = at_ ∧ at_ ≠ 0 ∧
    num m (base + at_) 4 = 0x53445352 ∧ bytesAt m (base + at_ + 0x18) path.length = path ∧ utf8 path = true ∧
    path = folder ++ stem ++ [46] ++ ext ∧ (folder = [] ∨ ∃ d, folder = d ++ [92]) ∧ 92 ∉ stem ∧ 92 ∉ ext ∧ 46 ∉ ext

/-- The image around an address: the address is in it, and no page of it up to the address starts like an image. -/
structure Around (m : Mem) (pc base off size : Nat) : Prop where
  loaded : Loaded m base off size
  inside : base ≤ pc ∧ pc < base + size
  plain : ∀ k, base < k * 4096 → k * 4096 ≤ pc → num m (k * 4096) 2 ≠ 0x5a4d

/-- The exception directory of a PE32+ image: `bytes` bytes at `rva`, in the image. -/
structure Directory (m : Mem) (base off size rva bytes : Nat) : Prop where
  magic : num m (base + off + 0x18) 2 = 0x20b
  header : off + 0xa8 ≤ size
  at_ : num m (base + off + 0xa0) 4 = rva
  len : num m (base + off + 0xa4) 4 = bytes
  notZero : rva ≠ 0 ∧ bytes ≠ 0
  inside : rva + bytes ≤ size

/-! ### x64 -/
namespace X64

/-- What a prologue is made of. -/
inductive Op where
  | push (r : Nat)
  | allocSmall (n : Nat)
  | allocLarge (n : Nat)
  | allocHuge (n : Nat)
  | setFp
  | saveReg (r o : Nat)
  | saveRegFar (r o : Nat)
  | epilog (x : Nat)
  | saveXmm (r o : Nat)
  | saveXmmFar (r o : Nat)
  | machFrame (code : Bool)
deriving DecidableEq, Repr

/-- How far it moves the stack pointer down. -/
def Op.size : Op → Nat
  | .push _ => 8
  | .allocSmall n | .allocLarge n | .allocHuge n => n
  | .machFrame code => if code then 48 else 40
  | _ => 0

/-- What the record can express. -/
def Op.Ok : Op → Prop
  | .push r => r < 16
  | .allocSmall n => n % 8 = 0 ∧ 8 ≤ n ∧ n ≤ 128
  | .allocLarge n => n % 8 = 0 ∧ n < 2 ^ 19
  | .allocHuge n => n < 2 ^ 32
  | .setFp => True
  | .saveReg r o => r < 16 ∧ o % 8 = 0 ∧ o < 2 ^ 19
  | .saveRegFar r o => r < 16 ∧ o < 2 ^ 32
  | .epilog x => x < 16
  | .saveXmm r o => r < 16 ∧ o % 16 = 0 ∧ o < 2 ^ 20
  | .saveXmmFar r o => r < 16 ∧ o < 2 ^ 32
  | .machFrame _ => True

/-- The slots of an operation; `a` is the place of the next instruction in the prologue. -/
def Op.encode (a : UInt8) : Op → List UInt8
  | .push r => [a, UInt8.ofNat (r * 16 + 0)]
  | .allocLarge n => [a, UInt8.ofNat (0 * 16 + 1)] ++ leBytes 2 (n / 8)
  | .allocHuge n => [a, UInt8.ofNat (1 * 16 + 1)] ++ leBytes 4 n
  | .allocSmall n => [a, UInt8.ofNat ((n / 8 - 1) * 16 + 2)]
  | .setFp => [a, UInt8.ofNat (0 * 16 + 3)]
  | .saveReg r o => [a, UInt8.ofNat (r * 16 + 4)] ++ leBytes 2 (o / 8)
  | .saveRegFar r o => [a, UInt8.ofNat (r * 16 + 5)] ++ leBytes 4 o
  | .epilog x => [a, UInt8.ofNat (x * 16 + 6)]
  | .saveXmm r o => [a, UInt8.ofNat (r * 16 + 8)] ++ leBytes 2 (o / 16)
  | .saveXmmFar r o => [a, UInt8.ofNat (r * 16 + 9)] ++ leBytes 4 o
  | .machFrame code => [a, UInt8.ofNat ((if code then 1 else 0) * 16 + 10)]

/-- A prologue: its operations in the order in which they are executed, each with the place of the instruction behind it. -/
abbrev Prologue := List (UInt8 × Op)

/-- The unwind codes: the last operation first. -/
def codes (p : Prologue) : List UInt8 := p.reverse.flatMap fun x => x.2.encode x.1

/-- The prologue brings the stack pointer from `sp0`, where the return address is, to `sp`. -/
inductive Runs : Prologue → Nat → Nat → Prop
  | nil (sp) : Runs [] sp sp
  | snoc {p sp0 sp1 sp2} (x) : Runs p sp0 sp1 → sp2 + x.2.size = sp1 → Runs (p ++ [x]) sp0 sp2

/-- The operations the trace handles. -/
def Op.Handled : Op → Prop
  | .saveXmm .. | .saveXmmFar .. | .machFrame _ => False
  | _ => True

/-- The table: entries of 12 bytes. -/
def Entries (m : Mem) (a : Nat) : List Func → Prop
  | [] => True
  | f :: fs => num m a 4 = f.start ∧ num m (a + 4) 4 = f.end_ ∧ num m (a + 8) 4 = f.unwind ∧ Entries m (a + 12) fs

/-- The unwind record of a prologue, that is not chained to another one, at `a`, with room behind it before `limit`. -/
structure Record (m : Mem) (a limit : Nat) (p : Prologue) : Prop where
  version : num m a 1 % 8 = 1 ∨ num m a 1 % 8 = 2
  alone : num m a 1 / 8 / 4 % 2 = 0
  count : num m (a + 2) 1 * 2 = (codes p).length
  slots : bytesAt m (a + 4) (codes p).length = codes p
  room : a + 4 + (codes p).length < limit
  ok : ∀ x ∈ p, x.2.Ok

/-- A call in progress: `pc` is in the body of a function of the image at `base` behind its first byte, the prologue of which has brought the
stack pointer from `sp0` to `sp`, and the body has not moved it; the return address `ret` is at `sp0`. -/
structure Active (utf8 : List UInt8 → Bool) (m : Mem) (pc sp base : Nat) (name : Option (List UInt8)) (sp0 ret : Nat) : Prop where
  call : ∃ off size rva fs f p,
    Around m pc base off size ∧
    (match name with | none => Unnamed m base off | some stem => Named utf8 m base off stem) ∧
    Directory m base off size rva (fs.length * 12) ∧ Entries m (base + rva) fs ∧ fs.Pairwise (fun f g => f.end_ ≤ g.start) ∧
    f ∈ fs ∧ f.start < pc - base ∧ pc - base ≤ f.end_ ∧
    Record m (base + f.unwind) (base + size) p ∧ (∀ x ∈ p, x.2.Handled) ∧
    Runs p sp0 sp ∧ num m sp0 8 = ret ∧ sp0 + 8 < 2 ^ 64

end X64

/-! ### AArch64 -/
namespace A64

/-- What a prologue is made of. `x` selects the register, `z` scales an offset. -/
inductive Op where
  | allocS (x : Nat)
  | allocM (x : Nat)
  | allocL (x : Nat)
  | saveR19R20X (z : Nat)
  | saveFpLr (z : Nat)
  | saveFpLrX (z : Nat)
  | saveRegP (x z : Nat)
  | saveRegPX (x z : Nat)
  | saveReg (x z : Nat)
  | saveRegX (x z : Nat)
  | saveLrPair (x z : Nat)
  | saveFRegP (x z : Nat)
  | saveFRegPX (x z : Nat)
  | saveFReg (x z : Nat)
  | saveFRegX (x z : Nat)
  | setFp
  | addFp (x : Nat)
  | nop
  | saveNext
  | pacSignLr
deriving DecidableEq, Repr

/-- How far it moves the stack pointer down: an allocation, or a store with pre-indexed offset. -/
def Op.size : Op → Nat
  | .allocS x | .allocM x | .allocL x => x * 16
  | .saveR19R20X z => z * 8
  | .saveFpLrX z | .saveRegPX _ z | .saveRegX _ z | .saveFRegPX _ z | .saveFRegX _ z => (z + 1) * 8
  | _ => 0

/-- Where it stores the link register (x30), from the stack pointer it leaves. `saveReg x` stores x(19 + x), a pair the one behind it too. -/
def Op.lr : Op → Option Nat
  | .saveFpLr z | .saveLrPair _ z => some (z * 8 + 8)
  | .saveFpLrX _ => some 8
  | .saveRegP x z => if x = 10 then some (z * 8 + 8) else none
  | .saveRegPX x _ => if x = 10 then some 8 else none
  | .saveReg x z => if x = 11 then some (z * 8) else none
  | .saveRegX x _ => if x = 11 then some 0 else none
  | _ => none

/-- What the codes can express. -/
def Op.Ok : Op → Prop
  | .allocS x => x < 32
  | .allocM x => x < 2 ^ 11
  | .allocL x => x < 2 ^ 24
  | .saveR19R20X z => z < 32
  | .saveFpLr z | .saveFpLrX z => z < 64
  | .saveRegP x z | .saveRegPX x z => x ≤ 10 ∧ z < 64
  | .saveReg x z => x ≤ 11 ∧ z < 64
  | .saveRegX x z => x ≤ 11 ∧ z < 32
  | .saveLrPair x z | .saveFRegP x z | .saveFRegPX x z | .saveFReg x z => x < 8 ∧ z < 64
  | .saveFRegX x z => x < 8 ∧ z < 32
  | .addFp x => x < 256
  | .setFp | .nop | .saveNext | .pacSignLr => True

/-- The codes, most significant byte first. -/
def Op.encode : Op → List UInt8
  | .allocS x => [UInt8.ofNat x]
  | .saveR19R20X z => [UInt8.ofNat (0b00100000 + z)]
  | .saveFpLr z => [UInt8.ofNat (0b01000000 + z)]
  | .saveFpLrX z => [UInt8.ofNat (0b10000000 + z)]
  | .allocM x => [UInt8.ofNat (0b11000000 + x / 256), UInt8.ofNat (x % 256)]
  | .saveRegP x z => [UInt8.ofNat (0b11001000 + x / 4), UInt8.ofNat (x % 4 * 64 + z)]
  | .saveRegPX x z => [UInt8.ofNat (0b11001100 + x / 4), UInt8.ofNat (x % 4 * 64 + z)]
  | .saveReg x z => [UInt8.ofNat (0b11010000 + x / 4), UInt8.ofNat (x % 4 * 64 + z)]
  | .saveRegX x z => [UInt8.ofNat (0b11010100 + x / 8), UInt8.ofNat (x % 8 * 32 + z)]
  | .saveLrPair x z => [UInt8.ofNat (0b11010110 + x / 4), UInt8.ofNat (x % 4 * 64 + z)]
  | .saveFRegP x z => [UInt8.ofNat (0b11011000 + x / 4), UInt8.ofNat (x % 4 * 64 + z)]
  | .saveFRegPX x z => [UInt8.ofNat (0b11011010 + x / 4), UInt8.ofNat (x % 4 * 64 + z)]
  | .saveFReg x z => [UInt8.ofNat (0b11011100 + x / 4), UInt8.ofNat (x % 4 * 64 + z)]
  | .saveFRegX x z => [0b11011110, UInt8.ofNat (x * 32 + z)]
  | .allocL x => [0b11100000, UInt8.ofNat (x / 2 ^ 16), UInt8.ofNat (x / 2 ^ 8 % 256), UInt8.ofNat (x % 256)]
  | .setFp => [0b11100001]
  | .addFp x => [0b11100010, UInt8.ofNat x]
  | .nop => [0b11100011]
  | .saveNext => [0b11100110]
  | .pacSignLr => [0b11111100]

/-- The codes of a prologue: the last operation first, then `end`. -/
def codes (p : List Op) : List UInt8 := p.reverse.flatMap Op.encode ++ [0b11100100]

/-- The prologue brings the stack pointer from `sp0` to `sp`; the link register has been stored at the address in the last argument. -/
inductive Runs : List Op → Nat → Nat → Option Nat → Prop
  | nil (sp) : Runs [] sp sp none
  | snoc {p sp0 sp1 sp2 l} (o) : Runs p sp0 sp1 l → sp2 + o.size = sp1 → Runs (p ++ [o]) sp0 sp2 (l <|> o.lr.map (sp2 + ·))

/-- The operations the trace handles: the link register is stored, if at all, with the frame pointer and without a change of the stack pointer;
no pair of floating point registers is stored with such a change, nor d9, d11, d13 or d15. -/
def Op.Handled : Op → Prop
  | .saveFpLrX _ | .saveLrPair .. | .saveFRegPX .. => False
  | .saveRegP x _ | .saveRegPX x _ => x ≠ 10
  | .saveReg x _ | .saveRegX x _ => x ≠ 11
  | .saveFRegX x _ => x % 2 = 0
  | _ => True

/-- The table: entries of 8 bytes, the start of the function and its unwind data. -/
def Entries (m : Mem) (a : Nat) : List (Nat × Nat) → Prop
  | [] => True
  | (start, data) :: fs => num m a 4 = start ∧ num m (a + 4) 4 = data ∧ Entries m (a + 8) fs

/-- The header of an `.xdata` record: the length of the function in words, whether there is one epilogue described in the header, the count of
epilogues (or where the code of the one is), the count of words of codes. `x` (an exception handler follows) does not matter here. -/
structure Header where
  length : Nat
  x : Bool
  single : Bool
  epilogs : Nat
  words : Nat

/-- What the fields can hold; the long form is for what the short one cannot hold. -/
def Header.Ok (h : Header) : Prop := h.length < 2 ^ 18 ∧ h.epilogs < 2 ^ 16 ∧ h.words < 2 ^ 8 ∧ h.words ≠ 0

def Header.Short (h : Header) : Prop := h.epilogs < 32 ∧ h.words < 32

instance (h : Header) : Decidable h.Short := inferInstanceAs (Decidable (_ ∧ _))

/-- The header words. -/
def Header.encode (h : Header) : List Nat :=
  if h.Short then
    [h.length + (if h.x then 2 ^ 20 else 0) + (if h.single then 2 ^ 21 else 0) + h.epilogs * 2 ^ 22 + h.words * 2 ^ 27]
  else
    [h.length + (if h.x then 2 ^ 20 else 0) + (if h.single then 2 ^ 21 else 0), h.epilogs + h.words * 2 ^ 16]

/-- Words in memory. -/
def Words (m : Mem) (a : Nat) : List Nat → Prop
  | [] => True
  | w :: ws => num m a 4 = w ∧ Words m (a + 4) ws

/-- The codes of the record start behind the header and behind a word for each epilogue, unless there is one in the header. -/
def Header.codesAt (h : Header) : Nat := (h.encode.length + if h.single then 0 else h.epilogs) * 4

/-- An `.xdata` record at `a`, before `limit`, with the codes of prologue `p`; others may follow them. -/
structure Record (m : Mem) (a limit : Nat) (h : Header) (p : List Op) : Prop where
  fields : h.Ok
  header : Words m a h.encode
  codes : ∃ tail, bytesAt m (a + h.codesAt) (h.words * 4) = codes p ++ tail
  room : a + h.codesAt + h.words * 4 ≤ limit
  ok : ∀ o ∈ p, o.Ok

/-- Packed unwind data: what the canonical prologue does. The frame has `regI` integer registers from x19 on, the link register if `cr = 1`, `regF`
(plus one, if any) floating point registers, eight words for arguments if `h`; together they are rounded up to 16 bytes. Below are the locals; if
`cr` is 2 or 3 the frame pointer and the link register are at the bottom of them. -/
structure Packed where
  flag : Nat
  length : Nat
  regF : Nat
  regI : Nat
  h : Nat
  cr : Nat
  frame : Nat

def Packed.Ok (k : Packed) : Prop :=
  (k.flag = 1 ∨ k.flag = 2) ∧ k.length < 2 ^ 11 ∧ k.regF < 8 ∧ k.regI ≤ 10 ∧ k.h < 2 ∧ k.cr < 4 ∧ k.frame < 512

def Packed.encode (k : Packed) : Nat :=
  k.flag + k.length * 2 ^ 2 + k.regF * 2 ^ 13 + k.regI * 2 ^ 16 + k.h * 2 ^ 20 + k.cr * 2 ^ 21 + k.frame * 2 ^ 23

def Packed.saved (k : Packed) : Nat :=
  ((k.regI * 8 + if k.cr = 1 then 8 else 0) + (if k.regF = 0 then 0 else (k.regF + 1) * 8) + 64 * k.h + 15) / 16 * 16

/-- Where the link register is, from the stack pointer; the frame is `frame * 16` bytes. -/
def Packed.lr (k : Packed) : Option Nat :=
  if k.cr = 0 then none
  else if k.cr = 1 then some (k.frame * 16 - k.saved + k.regI * 8)
  else some 8

/-- The length of a function in bytes, by its unwind data. -/
inductive Length (m : Mem) (base : Nat) : Nat → Nat → Prop
  | packed (w : Nat) (k : Packed) : k.encode = w → k.Ok → Length m base w (k.length * 4)
  | record (rva : Nat) (h : Header) : rva % 4 = 0 → h.Ok → Words m (base + rva) h.encode → Length m base rva (h.length * 4)

/-- The frame of a function: its unwind data, the stack pointer of the caller, the stack pointer and the address of the saved link register. -/
inductive Frame (m : Mem) (base size : Nat) : Nat → Nat → Nat → Nat → Prop
  | packed (w : Nat) (k : Packed) (sp) : k.encode = w → k.Ok → 2 ≤ k.cr → Frame m base size w (sp + k.frame * 16) sp (sp + 8)
  | record (rva : Nat) (h : Header) (p sp0 sp a) : rva % 4 = 0 → Record m (base + rva) (base + size) h p → (∀ o ∈ p, o.Handled) →
      Runs p sp0 sp (some a) → sp0 + 512 < sp + 2 ^ 32 → Frame m base size rva sp0 sp a

/-- The functions of the table: start, length and unwind data. -/
def Functions (m : Mem) (base size : Nat) (t : List (Nat × Nat × Nat)) : Prop :=
  ∀ x ∈ t, Length m base x.2.2 x.2.1 ∧ x.1 + x.2.1 < 2 ^ 32 ∧ (x.2.2 % 4 = 0 → x.2.2 + 4 ≤ size)

/-- A call in progress, as for x64; the link register has been stored at `a`, where `ret` still is. -/
structure Active (utf8 : List UInt8 → Bool) (m : Mem) (pc sp base : Nat) (name : Option (List UInt8)) (sp0 ret : Nat) : Prop where
  call : ∃ off size rva, ∃ t : List (Nat × Nat × Nat), ∃ x ∈ t, ∃ a,
    Around m pc base off size ∧
    (match name with | none => Unnamed m base off | some stem => Named utf8 m base off stem) ∧
    Directory m base off size rva (t.length * 8) ∧ Entries m (base + rva) (t.map fun x => (x.1, x.2.2)) ∧ Functions m base size t ∧
    t.Pairwise (fun x y => x.1 + x.2.1 ≤ y.1) ∧ x.1 < pc - base ∧ pc - base ≤ x.1 + x.2.1 ∧
    Frame m base size x.2.2 sp0 sp a ∧ num m a 8 = ret ∧ a < 2 ^ 64 ∧ sp0 < 2 ^ 64

end A64

/-! ### The calls -/

/-- A call in progress, as the log shows it: the stack pointer, the return address, the image and the place in it. -/
structure Call where
  sp : Nat
  ret : Nat
  image : Option (List UInt8)
  rva : Nat
deriving DecidableEq, Repr

/-- The calls in progress at `pc` and `sp`: each returns to the next; the last one returns to 0. `active pc sp base name sp' ret` says that the
function at `pc` was called from `ret` and leaves the stack pointer at `sp'` when it returns. -/
inductive Calls (active : Nat → Nat → Nat → Option (List UInt8) → Nat → Nat → Prop) : Nat → Nat → List Call → Prop
  | last {pc sp base name sp'} : active pc sp base name sp' 0 → Calls active pc sp [⟨sp, 0, name, pc - base⟩]
  | more {pc sp base name sp' ret l} : active pc sp base name sp' ret → ret ≠ 0 → Calls active ret sp' l →
      Calls active pc sp (⟨sp, ret, name, pc - base⟩ :: l)

/-- The lines for calls, numbered from `n` on. -/
def lines (n : Nat) : List Call → List Line
  | [] => []
  | c :: l => ⟨n, c.sp, c.ret, c.image, c.rva⟩ :: lines (n + 1) l

end Verif.Stack.Spec
