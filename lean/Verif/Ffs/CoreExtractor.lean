import Verif.Ffs.ExtractorsModel
/-!
Model of the section extractor of the core, `/repo/patina_dxe_core/src/decompress.rs` lines 44-114, and of the functions of the UEFI decompress
protocol, `/repo/sdk/patina/src/uefi_protocol/decompress.rs` lines 38-101.

* The decompressor (`decompress_into_with_algo` of the crate `mu_rust_helpers`) is outside the repository and an arbitrary function here.
* `heap` is the largest block the allocator gives; asking for more aborts, which is a panic here.
* `DecompressProtocolInstaller` (lines 29-42 of the core's file) is not modelled.
-/
namespace Verif.Ffs.Core

/-- `DecompressionAlgorithm` of `mu_rust_helpers`. -/
inductive Algo | uefi | tiano
deriving DecidableEq, Repr

/-- `dec algo src size` is what a buffer of `size` zeros holds after `decompress_into_with_algo` returned `Ok`, or `none` for an error. -/
structure Env where
  dec : Algo → List UInt8 → Nat → Option (List UInt8)
  heap : Nat

/-- The decompressor writes in the buffer it gets and leaves it its size. -/
def Env.Sane (e : Env) : Prop := ∀ a s n w, e.dec a s n = some w → w.length = n

/-- `TIANO_DECOMPRESS_SECTION`, /repo/sdk/patina_pi/src/fw_fs.rs lines 60-61. -/
def tianoGuid : Nat := Extract.guidOf 0xA31280AD 0x481E 0x41B6 [0x95, 0xE8, 0x12, 0x7F, 0x4C, 0x98, 0x47, 0x79]

/-- What the first `match` of `uefi_decompress_extract` makes of the header, decompress.rs lines 64-81. -/
inductive Plan
  | unpack (a : Algo)
  | copy
  | refuse

/-- The `match`, lines 64-81; `NOT_COMPRESSED` is 0 and `STANDARD_COMPRESSION` 1 (/repo/sdk/patina_pi/src/fw_fs/ffs/section.rs lines 104-105). -/
def plan : SecHdr → Plan
  | .guidDefined g _ _ _ _ => if g = tianoGuid then .unpack .tiano else .refuse
  | .compression _ ty _ => if ty = 0 then .copy else if ty = 1 then .unpack .uefi else .refuse
  | _ => .refuse

/-- From the sanity check on, lines 83-101. -/
def unpack (e : Env) (a : Algo) (src : List UInt8) : Outcome FfsError (List UInt8) :=
  if src.length < 8 then .err .dataCorrupt
  else if rd src 0 4 > src.length then .err .dataCorrupt
  else if e.heap < rd src 4 4 then .panic
  else match e.dec a src (rd src 4 4) with
    | some w => .ok w
    | none => .err .dataCorrupt

/-- `CoreExtractor::uefi_decompress_extract`, lines 61-102. -/
def own (e : Env) : Extractor := fun s =>
  match plan s.hdr with
  | .refuse => .err .unsupported
  | .copy => s.content
  | .unpack a =>
    match s.content with
    | .ok src => unpack e a src
    | .err x => .err x
    | .panic => .panic

/-- `CoreExtractor::extract`, lines 105-114; `more` is the extractor of the platform, if `set_extractor` (lines 54-57) was called. -/
def extract (e : Env) (more : Option Extractor) : Extractor := fun s =>
  match own e s with
  | .err .unsupported =>
    match more with
    | none => .err .unsupported
    | some x => x s
  | r => r

/-! ## The protocol -/

/-- The 32-bit field at `i` of the memory `src` points to. -/
def word (m : Nat → UInt8) (i : Nat) : Nat := leVal [m i, m (i + 1), m (i + 2), m (i + 3)]

/-- `get_info`, decompress.rs of the SDK, lines 48-81. `src` is the memory the caller's pointer points to, `none` for null; `dst` and `scratch` tell
if the two pointers for the answers are not null. `.ok (d, s)` is `SUCCESS` with `d` and `s` written, `.err ()` is `INVALID_PARAMETER` with nothing
written. The sum of line 67 wraps without overflow checks and panics with them, `dbg`. The pointers for the answers are taken not to point into the
source. -/
def getInfo (dbg : Bool) (src : Option (Nat → UInt8)) (srcSize : Nat) (dst scratch : Bool) : Outcome Unit (Nat × Nat) :=
  match src with
  | none => .err ()
  | some m =>
    if dst = false ∨ scratch = false then .err ()
    else if srcSize < 8 then .err ()
    else if dbg = true ∧ 2 ^ 32 ≤ word m 0 + 8 then .panic
    else if srcSize < (word m 0 + 8) % 2 ^ 32 ∨ 2 ^ 32 ≤ word m 0 + 8 then .err ()
    else .ok (word m 4, 0)

/-- `decompress`, lines 84-101: `.ok w` is `SUCCESS` with `w` in the destination, `.err ()` is `INVALID_PARAMETER`. What an error leaves in the
destination is not modelled. -/
def decompress (e : Env) (src : Option (List UInt8)) (dst : Option Nat) : Outcome Unit (List UInt8) :=
  match src, dst with
  | some s, some n =>
    match e.dec .uefi s n with
    | some w => .ok w
    | none => .err ()
  | _, _ => .panic

end Verif.Ffs.Core
