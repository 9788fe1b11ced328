import Verif.Prelude
/-!
Model of the page table of x64, `/repo/core/patina_internal_cpu/src/paging/x64.rs` lines 22-143: a bridge that gives the access attributes to the page
table of the crate `patina_paging` and the cache attributes to the MTRRs of the crate `patina_mtrr`.

* Both crates are outside the repository. They are parameters: a type of states and what the calls do to it. Nothing is assumed of them in this file.
* Every call of them is kept in a log.
* Attributes are the 64 bits of `MemoryAttributes`, a bit set with the values of the UEFI specification.
-/
namespace Verif.Cpu.PagingX64

/-- `MemoryAttributes` of `patina_paging`, bits of the UEFI specification. -/
abbrev Attrs := UInt64

def UC : Attrs := 0x1
def WC : Attrs := 0x2
def WT : Attrs := 0x4
def WB : Attrs := 0x8
def UCE : Attrs := 0x10
def WP : Attrs := 0x1000
def RP : Attrs := 0x2000
def XP : Attrs := 0x4000
def RO : Attrs := 0x20000

/-- `MemoryAttributes::CacheAttributesMask`. -/
def CACHE : Attrs := UC ||| WC ||| WT ||| WB ||| UCE ||| WP
/-- `MemoryAttributes::AccessAttributesMask`. -/
def ACCESS : Attrs := RP ||| XP ||| RO

/-- `PtError`; the errors of the page table other than the ones made here are one. -/
inductive PtError | invalidParameter | outOfResources | noMapping | other (code : Nat)
deriving DecidableEq, Repr

/-- `MtrrMemoryCacheType` of `patina_mtrr`; the last one stands for the types that are no attribute. -/
inductive CacheType | uncacheable | writeCombining | writeThrough | writeProtected | writeBack | invalid
deriving DecidableEq, Repr

/-- `MtrrError` of `patina_mtrr`, as listed in lines 131-142. -/
inductive MtrrError | mtrrNotSupported | variableRangeMtrrExhausted | fixedRangeMtrrBaseAddressNotAligned | fixedRangeMtrrLengthNotAligned
  | invalidParameter | bufferTooSmall | outOfResources | alreadyStarted
deriving DecidableEq, Repr

/-- The two crates. -/
structure Parts (σ : Type) where
  map : Nat → Nat → Attrs → σ → Except PtError Unit × σ
  unmap : Nat → Nat → σ → Except PtError Unit × σ
  query : σ → Nat → Nat → Except PtError Attrs
  supported : σ → Bool
  cacheAt : σ → Nat → CacheType
  setCache : Nat → Nat → CacheType → σ → Except MtrrError Unit × σ

/-- A call that changes something. -/
inductive Call
  | map (address size : Nat) (attrs : Attrs)
  | setCache (address size : Nat) (type : CacheType)
deriving DecidableEq, Repr

/-- `efierror_to_pterror`, lines 31-38. -/
def toPt : EfiError → PtError
  | .invalidParameter => .invalidParameter
  | .outOfResources => .outOfResources
  | .notFound => .noMapping
  | _ => .invalidParameter

/-- `mtrr_err_to_efi_status`, lines 131-142. -/
def mtrrErr : MtrrError → EfiError
  | .mtrrNotSupported => .unsupported
  | .variableRangeMtrrExhausted => .outOfResources
  | .fixedRangeMtrrBaseAddressNotAligned => .invalidParameter
  | .fixedRangeMtrrLengthNotAligned => .invalidParameter
  | .invalidParameter => .invalidParameter
  | .bufferTooSmall => .bufferTooSmall
  | .outOfResources => .outOfResources
  | .alreadyStarted => .alreadyStarted

/-- The `match` of lines 99-106. -/
def typeOf (a : Attrs) : Option CacheType :=
  if a = UC then some .uncacheable
  else if a = WC then some .writeCombining
  else if a = WT then some .writeThrough
  else if a = WP then some .writeProtected
  else if a = WB then some .writeBack
  else none

/-- The `match` of lines 72-79. -/
def attrOf : CacheType → Attrs
  | .uncacheable => UC
  | .writeCombining => WC
  | .writeThrough => WT
  | .writeProtected => WP
  | .writeBack => WB
  | .invalid => 0

variable {σ : Type} (P : Parts σ)

/-- `apply_caching_attributes`, lines 88-122: the result, the calls made and the new state. -/
def applyCaching (base length : Nat) (cache : Attrs) (s : σ) : Except EfiError Unit × List Call × σ :=
  if cache ≠ 0 then
    if P.supported s = false then (.error .unsupported, [], s)
    else
      match typeOf cache with
      | none => (.error .unsupported, [], s)
      | some t =>
        if P.cacheAt s base ≠ t then
          match P.setCache base length t s with
          | (.ok _, s') => (.ok (), [.setCache base length t], s')
          | (.error e, s') => (.error (mtrrErr e), [.setCache base length t], s')
        else (.ok (), [], s)
  else (.ok (), [], s)

/-- `map_memory_region`, lines 47-60. -/
def mapRegion (address size : Nat) (attrs : Attrs) (s : σ) : Except PtError Unit × List Call × σ :=
  if attrs ≠ (attrs &&& CACHE) ||| (attrs &&& ACCESS) then (.error .invalidParameter, [], s)
  else
    match applyCaching P address size (attrs &&& CACHE) s with
    | (.ok _, l, s1) => ((P.map address size (attrs &&& ACCESS) s1).1, l ++ [.map address size (attrs &&& ACCESS)], (P.map address size (attrs &&& ACCESS) s1).2)
    | (.error e, l, s1) => (.error (toPt e), l, s1)

/-- `unmap_memory_region`, lines 62-64. -/
def unmapRegion (address size : Nat) (s : σ) : Except PtError Unit × σ := P.unmap address size s

/-- `query_memory_region`, lines 70-80. -/
def queryRegion (s : σ) (address size : Nat) : Except PtError Attrs :=
  match P.query s address size with
  | .ok a => .ok (a ||| attrOf (P.cacheAt s address))
  | .error e => .error e

end Verif.Cpu.PagingX64
