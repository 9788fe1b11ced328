import Verif.Paging.Walk
/-!
What the services that change attributes relative to what they are do, as seen from outside.
-/
namespace Verif.Paging
open Verif.Gcd

/-- Between `m` and `m'` every address of `[base, upto)` got `upd` of the attributes it had, in the memory space and in the page
table, and nothing else changed: no type, no capabilities, no other attributes, no owner of allocated memory, no other page.
(The page table is not asked to do anything about attributes without access and cache attributes.) -/
structure Changed (upd : Nat → Nat) (m m' : Mem) (base upto : Nat) : Prop where
  size : m'.gcd.max = m.gcd.max
  memory : ∀ a c, cellAt m.gcd.blocks a = some c → ∃ c', cellAt m'.gcd.blocks a = some c' ∧ c'.type = c.type ∧ c'.caps = c.caps ∧
    c'.attrs = (if base ≤ a ∧ a < upto then upd c.attrs else c.attrs) ∧ (c.allocated = true → c'.allocated = true ∧ c'.image = c.image)
  pages : ∀ t, m.table = some t → ∃ t', m'.table = some t' ∧
    (∀ p, ¬ (base / 4096 ≤ p ∧ p < upto / 4096) → t' p = t p) ∧
    ∀ a c, base ≤ a → a < upto → cellAt m.gcd.blocks a = some c →
      t' (a / 4096) = if upd c.attrs &&& 0x2701F = 0 then t (a / 4096) else mappingFor (upd c.attrs)
  noTable : m.table = none → m'.table = none

/-- Every address of the range exists and supports the attributes it is to get. -/
def SupportsUpd (g : Gcd) (base len : Nat) (upd : Nat → Nat) : Prop :=
  ∀ a, base ≤ a → a < base + len → ∃ c, cellAt g.blocks a = some c ∧ c.type ≠ .nonExistent ∧ c.caps ||| upd c.attrs = c.caps

/-- The requests the service supports. -/
def Supported (access : AccessType) (caching : Option CachingType) : Prop := access ≠ .readWriteExecute ∧ caching ≠ some .writeProtect

/-- What an address gets when a kind of access and perhaps a cache type are asked for: that access, that cache type if one is asked for,
and all other attributes as they were. (0x26000 the access attributes, 0x101F the cache attributes; `old` what it had.) -/
structure Gets (access : AccessType) (caching : Option CachingType) (old new : Nat) : Prop where
  given : AccessType.ofAttributes new = access
  cached : ∀ k, caching = some k → CachingType.ofAttributes new = some k
  keepsCaching : caching = none → new &&& 0x101F = old &&& 0x101F
  others : ∀ i, Nat.testBit 0x26000 i = false → Nat.testBit 0x101F i = false → new.testBit i = old.testBit i

/-- The whole range supports the access and the cache type. -/
def SupportsAccess (g : Gcd) (base len : Nat) (access : AccessType) (caching : Option CachingType) : Prop :=
  ∀ a, base ≤ a → a < base + len → ∃ c, cellAt g.blocks a = some c ∧ c.type ≠ .nonExistent ∧
    ∀ new, Gets access caching c.attrs new → new < W → c.caps ||| new = c.caps

end Verif.Paging
