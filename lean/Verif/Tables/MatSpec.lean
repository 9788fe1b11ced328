import Verif.Tables.Mat
/-!
What the operating system relies on: what the published memory attributes table says about runtime memory.
-/
namespace Verif.Tables.Mat
open Verif.Gcd

/-- The table the system table publishes under the GUID of the memory attributes table; `none` if there is none or it is not in memory that is in use. -/
def Sys.published (s : Sys) : Option Table :=
  match lookup s.st.entries GUID with
  | some p => s.pool p
  | none => none

/-- How runtime memory (code: type 5, data: type 6) with the attributes `a` is to be listed: needed at runtime (bit 63); as it is if it is write-protected
(bit 17) or not executable (bit 14); otherwise as not executable, and code as write-protected too. Nothing else is said. -/
def ListedAs (t a w : Nat) : Prop :=
  ∀ i, w.testBit i =
    if i = 63 then true
    else if i = 14 then a.testBit 14 || !a.testBit 17
    else if i = 17 then a.testBit 17 || (!a.testBit 14 && decide (t = 5))
    else false

/-- The table says just this about memory `m`: exactly the runtime memory is listed, each address once and as it should be, in order. -/
structure Describes (t : Table) (m : MemMap.Mem) : Prop where
  version : t.version = 1
  count : t.count = t.entries.length
  size : t.descSize = 40
  whole : ∀ e ∈ t.entries, 0 < e.pages ∧ e.start % 4096 = 0
  order : t.entries.Pairwise fun x y => x.stop ≤ y.start
  exactly : ∀ a t' w, MemMap.Reports t.entries a t' w ↔
    (t' = 5 ∨ t' = 6) ∧ ∃ c, cellAt m.gcd.blocks a = some c ∧ MemMap.HasType m.owners c t' ∧ ListedAs t' c.attrs w

/-- Memory as the core keeps it: the memory space is one reached by its operations, all in whole pages, and each allocator has its own handle. -/
def Kept (m : MemMap.Mem) : Prop :=
  ∃ nodeSize, Reachable nodeSize m.gcd ∧ m.gcd.max % 4096 = 0 ∧ MemMap.PageUniform m.gcd.blocks ∧ MemMap.Distinct m.owners

/-- The allocators answer with memory that is not in use, configuration arrays can be allocated, memory can be freed. -/
structure Env.Proper (e : Env) (s : Sys) : Prop where
  array1 : ∃ a, e.array1 = some a ∧ a ≠ 0
  array2 : ∃ a, e.array2 = some a ∧ a ≠ 0
  pool1 : ∀ p, e.pool1 = some p → p ≠ 0 ∧ s.pool p = none
  pool2 : ∀ p, e.pool2 = some p → p ≠ 0 ∧ s.pool p = none ∧ e.pool1 ≠ some p
  free : e.free = true

/-- No allocation fails and there is memory. -/
def Env.Works (e : Env) : Prop := e.pool1 ≠ none ∧ e.pool2 ≠ none ∧ MemMap.memoryMap e.mem.owners true e.mem.gcd.blocks ≠ []

/-- Every call of a history meets a proper environment, nobody else touches the memory attributes table. -/
def Allowed : List Op → Sys → Prop
  | [], _ => True
  | o :: l, s =>
    (match o with
     | .readyToBoot e => e.Proper s
     | .runtimePages e => e.Proper s
     | .other (.install a g _) => g ≠ GUID ∧ ∃ x, a = some x ∧ x ≠ 0
     | .other o => o.Proper) ∧
    ∀ s', s.step o = some s' → Allowed l s'

/-- The table that should be published after a history: that for the memory the last call found, if it worked; the calls before ready to boot do
nothing. `ready`: ready to boot has been; `r`: the table before. -/
def current : List Op → Bool → Option Table → Option Table
  | [], _, r => r
  | .readyToBoot e :: l, _, r => current l true (expect e r)
  | .runtimePages e :: l, ready, r => current l ready (if ready then expect e r else r)
  | .other _ :: l, ready, r => current l ready r
where
  /-- What one call leaves. -/
  expect (e : Env) (r : Option Table) : Option Table :=
    if r = none ∧ e.pool1 = none then none
    else if MemMap.memoryMap e.mem.owners true e.mem.gcd.blocks = [] ∨ e.pool2 = none then (if r = none then some placeholder else r)
    else some (build e.mem)

end Verif.Tables.Mat
