import Verif.Perf.Sources
/-!
`create_performance_measurement`: `/repo/sdk/patina/src/performance/measurement.rs` lines 198-382, with `record/known.rs`. Which record a measurement adds.

Timestamps are computed in floating point from a counter (lines 283-287); the model takes them as given. So are the GUID that a caller's handle leads to, and the GUID that
is at the caller's address.
-/
namespace Verif.Perf

/-! ### Model -/

/-- `PerfAttribute`. -/
inductive Attr where
  | start
  | stop
  | entry
deriving DecidableEq, Repr

/-- `KnownPerfToken`, `known.rs` lines 20-41. -/
inductive Token where
  | sec | dxe | pei | bds | dbStart | dbSupport | dbStop | loadImage | startImage | peim
deriving DecidableEq, Repr

def ascii (s : String) : Bytes := s.toList.map fun c => UInt8.ofNat c.toNat

/-- `as_str`, lines 45-58. -/
def Token.name : Token → Bytes
  | .sec => ascii "SEC"
  | .dxe => ascii "DXE"
  | .pei => ascii "PEI"
  | .bds => ascii "BDS"
  | .dbStart => ascii "DB:Start"
  | .dbSupport => ascii "DB:Support"
  | .dbStop => ascii "DB:Stop"
  | .loadImage => ascii "LoadImage"
  | .startImage => ascii "StartImage"
  | .peim => ascii "PEIM"

/-- `KnownPerfToken::try_from`, lines 64-79. -/
def token (s : Bytes) : Option Token :=
  if s = Token.sec.name then some .sec
  else if s = Token.dxe.name then some .dxe
  else if s = Token.pei.name then some .pei
  else if s = Token.bds.name then some .bds
  else if s = Token.dbStart.name then some .dbStart
  else if s = Token.dbSupport.name then some .dbSupport
  else if s = Token.dbStop.name then some .dbStop
  else if s = Token.loadImage.name then some .loadImage
  else if s = Token.startImage.name then some .startImage
  else if s = Token.peim.name then some .peim
  else none

/-- The values of `KnownPerfId`, lines 84-129. -/
def KNOWN : List Nat := [0, 1, 2, 3, 4, 5, 6, 7, 8, 9, 10, 0x10, 0x11, 0x20, 0x21, 0x30, 0x31, 0x40, 0x41, 0x50, 0x51]

/-- `try_from_perf_info`, lines 160-219. -/
def fromInfo (handle : Nat) (s : Option Bytes) (a : Attr) : Option Nat :=
  match s with
  | some s =>
    match token s with
    | some .startImage => some (if a = .start then 1 else 2)
    | some .loadImage => some (if a = .start then 3 else 4)
    | some .dbStart => some (if a = .start then 5 else 6)
    | some .dbSupport => some (if a = .start then 7 else 8)
    | some .dbStop => some (if a = .start then 9 else 10)
    | some .pei | some .dxe | some .bds => some (if a = .start then 0x50 else 0x51)
    | some .sec | some .peim => some (if a = .start then 0x40 else 0x41)
    | none => some (if a = .start then 0x40 else 0x41)
  | none => if handle ≠ 0 then some (if a = .start then 0x40 else 0x41) else none

/-- A call. `found`: what `get_module_guid_from_handle` makes of the caller; `there`: the GUID at the caller's address; `time`: the timestamp. -/
structure Call where
  caller : Nat
  found : Option Nat
  there : Nat
  guid : Option Nat
  string : Option Bytes
  time : Nat
  address : Nat
  identifier : Nat
  attr : Attr
deriving DecidableEq, Repr

/-- Lines 221-240: the id of the record, or none for `INVALID_PARAMETER`. -/
def perfId (c : Call) : Option Nat :=
  let id := c.identifier % 2 ^ 16
  let known := id ∈ KNOWN
  let named := (c.string.bind token).isSome
  if c.attr ≠ .entry then
    if id ≠ 0 ∧ known ∧ named then none
    else if id ≠ 0 ∧ ¬ known ∧ ¬ named then
      if c.attr = .start ∧ id % 16 ≠ 0 then some (id - id % 16)
      else if c.attr = .stop ∧ id % 16 = 0 then some (id + 1)
      else some id
    else if id = 0 then fromInfo c.caller c.string c.attr
    else some id
  else some id

def UNKNOWN : Bytes := ascii "unknown name"

/-- `_create_performance_measurement`, lines 289-381: the count of loaded images afterwards, and the record, or none for `INVALID_PARAMETER`. -/
def record (loads id : Nat) (c : Call) : Nat × Option Rec :=
  if id ∉ KNOWN then
    if c.attr = .entry then (loads, none)
    else (loads, some (.string id 0 c.time (c.found.getD c.there) (c.string.getD UNKNOWN)))
  else if id = 1 ∨ id = 2 then (loads, c.found.map fun g => .guid id 0 c.time g)
  else if id = 3 then ((loads + 1) % 2 ^ 32, c.found.map fun g => .qword id 0 c.time g ((loads + 1) % 2 ^ 32))
  else if id = 4 then (loads, c.found.map fun g => .qword id 0 c.time g loads)
  else if 5 ≤ id ∧ id ≤ 9 then (loads, c.found.map fun g => .qword id 0 c.time g c.address)
  else if id = 10 then (loads, c.found.map fun g => .qwordString id 0 c.time g c.address [])
  else if 0x10 ≤ id ∧ id < 0x30 then (loads, c.string.bind fun s => c.guid.map fun g => .dual id 0 c.time c.there g s)
  else (loads, some (.string id 0 c.time c.there (c.string.getD UNKNOWN)))

inductive Status where
  | success
  | invalidParameter
  | outOfResources
  | aborted
deriving DecidableEq, Repr

/-- `create_performance_measurement`, lines 198-265. No status: it panics. -/
def measure (dbg : Bool) (t : Fbpt) (loads : Nat) (c : Call) : (Fbpt × Nat) × Option Status :=
  match perfId c with
  | none => ((t, loads), some .invalidParameter)
  | some id =>
    match record loads id c with
    | (loads, none) => ((t, loads), some .invalidParameter)
    | (loads, some r) =>
      match t.add dbg r with
      | (t, .ok ()) => ((t, loads), some .success)
      | (t, .err .outOfResources) => ((t, loads), some .outOfResources)
      | (t, .err _) => ((t, loads), some .aborted)
      | (t, .panic) => ((t, loads), none)

/-! ### What is expected -/

/-- The documented tokens, and the ids of a start and an end with this string. -/
def NAMES : List (String × Nat × Nat) :=
  [("StartImage", 1, 2), ("LoadImage", 3, 4), ("DB:Start", 5, 6), ("DB:Support", 7, 8), ("DB:Stop", 9, 10), ("PEI", 0x50, 0x51), ("DXE", 0x50, 0x51),
   ("BDS", 0x50, 0x51), ("SEC", 0x40, 0x41), ("PEIM", 0x40, 0x41)]

/-- The known ids: 0 to 10, and the pairs of a start and an end from `0x10`, `0x11` to `0x50`, `0x51`. -/
theorem known_iff (id : Nat) : id ∈ KNOWN ↔ id ≤ 10 ∨ ∃ k, 1 ≤ k ∧ k ≤ 5 ∧ (id = 16 * k ∨ id = 16 * k + 1) := by
  simp only [KNOWN, List.mem_cons, List.not_mem_nil, or_false]
  constructor
  · intro h
    by_cases h10 : id ≤ 10
    · exact Or.inl h10
    · exact Or.inr ⟨id / 16, by omega, by omega, by omega⟩
  · rintro (h | ⟨k, h1, h2, h3⟩) <;> omega

/-- The string is one of the tokens. -/
def Named (c : Call) : Prop := ∃ n ∈ NAMES, c.string = some (ascii n.1)

/-- The id of a record. -/
def Rec.id : Rec → Option Nat
  | .guid i .. | .string i .. | .dual i .. | .qword i .. | .qwordString i .. => some i
  | _ => none

/-- The time of a record. -/
def Rec.time : Rec → Option Nat
  | .guid _ _ t _ | .string _ _ t _ _ | .dual _ _ t _ _ _ | .qword _ _ t _ _ | .qwordString _ _ t _ _ _ => some t
  | _ => none

/-- Who made a measurement: the first GUID of a record. -/
def Rec.who : Rec → Option Nat
  | .guid _ _ _ g | .string _ _ _ g _ | .dual _ _ _ g _ _ | .qword _ _ _ g _ | .qwordString _ _ _ g _ _ => some g
  | _ => none

/-! ### Theorems -/

theorem token_isSome (s : Bytes) : (token s).isSome = true ↔ ∃ n ∈ NAMES, s = ascii n.1 := by
  constructor
  · intro h
    unfold token at h
    repeat' split at h
    all_goals first
      | (exfalso; revert h; simp; done)
      | (rename_i e; rw [e]; decide)
      | skip
  · rintro ⟨n, hn, e⟩
    rw [e]
    have hall : ∀ n ∈ NAMES, (token (ascii n.1)).isSome = true := by decide
    exact hall n hn

theorem named_iff (c : Call) : (c.string.bind token).isSome = true ↔ Named c := by
  unfold Named
  cases h : c.string with
  | none => simp
  | some s =>
    show (token s).isSome = true ↔ _
    rw [token_isSome]
    constructor
    · rintro ⟨n, hn, e⟩; exact ⟨n, hn, by rw [e]⟩
    · rintro ⟨n, hn, e⟩; exact ⟨n, hn, by injection e⟩

/-- An id of the core together with a string of the core is refused. -/
theorem id_refused {c : Call} (ha : c.attr ≠ .entry) (h0 : c.identifier % 2 ^ 16 ≠ 0) (hk : c.identifier % 2 ^ 16 ∈ KNOWN) (hn : Named c) : perfId c = none := by
  unfold perfId
  dsimp only
  rw [if_pos ha, if_pos ⟨h0, hk, (named_iff c).2 hn⟩]

/-- An id of the core with another string stays. -/
theorem id_known {c : Call} (h0 : c.identifier % 2 ^ 16 ≠ 0) (hk : c.identifier % 2 ^ 16 ∈ KNOWN) (hn : ¬ Named c) : perfId c = some (c.identifier % 2 ^ 16) := by
  unfold perfId
  dsimp only
  split
  · rw [if_neg (fun h => hn ((named_iff c).1 h.2.2)), if_neg (fun h => h.2.1 hk)]
  · rfl

/-- The id of an entry stays. -/
theorem id_entry {c : Call} (ha : c.attr = .entry) : perfId c = some (c.identifier % 2 ^ 16) := by
  unfold perfId
  dsimp only
  rw [if_neg (fun h => h ha)]

/-- Another id, with a string that is not one of the core's: the lower four bits of a start are zero, those of an end are not, and the others stay. -/
theorem id_rule {c : Call} (ha : c.attr ≠ .entry) (hk : c.identifier % 2 ^ 16 ∉ KNOWN) (hn : ¬ Named c) :
    ∃ id, perfId c = some id ∧ id / 16 = c.identifier % 2 ^ 16 / 16 ∧ (c.attr = .start → id % 16 = 0) ∧
      (c.attr = .stop → id % 16 ≠ 0 ∧ (c.identifier % 16 ≠ 0 → id = c.identifier % 2 ^ 16)) := by
  have h0 : c.identifier % 2 ^ 16 ≠ 0 := fun h => hk (by rw [h]; decide)
  have hm : c.identifier % 2 ^ 16 % 16 = c.identifier % 16 := Nat.mod_mod_of_dvd _ (by decide)
  unfold perfId
  dsimp only
  rw [if_pos ha, if_neg (fun h => hk h.2.1), if_pos ⟨h0, hk, fun h => hn ((named_iff c).1 h)⟩]
  split
  · rename_i h
    exact ⟨_, rfl, by omega, (fun _ => by omega), (fun e => by rw [h.1] at e; cases e)⟩
  · rename_i h1
    split
    · rename_i h
      exact ⟨_, rfl, by omega, (fun e => by rw [h.1] at e; cases e), fun _ => ⟨by omega, fun h' => by omega⟩⟩
    · rename_i h2
      exact ⟨_, rfl, rfl, fun e => Decidable.not_not.1 fun h => h1 ⟨e, h⟩, fun e => ⟨fun h => h2 ⟨e, h⟩, fun _ => rfl⟩⟩

/-- Without an id, a string of the core gives the id of its start and its end. -/
theorem id_of_name {c : Call} (h0 : c.identifier % 2 ^ 16 = 0) {n : String × Nat × Nat} (hn : n ∈ NAMES) (hs : c.string = some (ascii n.1)) :
    (c.attr = .start → perfId c = some n.2.1) ∧ (c.attr = .stop → perfId c = some n.2.2) := by
  have hp : c.attr ≠ .entry → perfId c = fromInfo c.caller c.string c.attr := fun ha => by
    unfold perfId
    dsimp only
    rw [if_pos ha, if_neg (fun h => h.1 h0), if_neg (fun h => h.1 h0), if_pos h0]
  have hall : ∀ n ∈ NAMES, fromInfo 0 (some (ascii n.1)) .start = some n.2.1 ∧ fromInfo 0 (some (ascii n.1)) .stop = some n.2.2 := by decide
  have hc : ∀ a, fromInfo c.caller (some (ascii n.1)) a = fromInfo 0 (some (ascii n.1)) a := fun a => rfl
  refine ⟨fun e => ?_, fun e => ?_⟩
  · rw [hp (by rw [e]; decide), hs, hc, e]; exact (hall n hn).1
  · rw [hp (by rw [e]; decide), hs, hc, e]; exact (hall n hn).2

/-- Without an id, another string is a measurement within a module; without a string this needs a caller. -/
theorem id_other {c : Call} (ha : c.attr ≠ .entry) (h0 : c.identifier % 2 ^ 16 = 0) (hn : ¬ Named c) :
    perfId c = if c.string = none ∧ c.caller = 0 then none else some (if c.attr = .start then 0x40 else 0x41) := by
  unfold perfId
  dsimp only
  rw [if_pos ha, if_neg (fun h => h.1 h0), if_neg (fun h => h.1 h0), if_pos h0]
  unfold fromInfo
  cases hs : c.string with
  | none => dsimp only; by_cases h : c.caller = 0 <;> simp [h]
  | some s =>
    have ht : token s = none := by
      have := fun h => hn ((named_iff c).1 h)
      rw [hs] at this
      exact Option.not_isSome_iff_eq_none.1 this
    dsimp only
    rw [ht]
    simp

/-- Which record there is: it has the id and the time; whether there is one depends on what the id needs. -/
theorem record_kinds (loads : Nat) (id : Nat) (c : Call) :
    (∀ r, (record loads id c).2 = some r → r.id = some id ∧ r.time = some c.time ∧ (r.who = c.found ∨ r.who = some c.there)) ∧
    ((record loads id c).2 = none ↔ (id ∉ KNOWN ∧ c.attr = .entry) ∨ (1 ≤ id ∧ id ≤ 10 ∧ c.found = none) ∨
      (id ∈ [0x10, 0x11, 0x20, 0x21] ∧ (c.string = none ∨ c.guid = none))) := by
  unfold record
  split
  · rename_i hk
    have h1 : ¬ (1 ≤ id ∧ id ≤ 10) := fun h => hk (by
      have : id = 1 ∨ id = 2 ∨ id = 3 ∨ id = 4 ∨ id = 5 ∨ id = 6 ∨ id = 7 ∨ id = 8 ∨ id = 9 ∨ id = 10 := by omega
      rcases this with e | e | e | e | e | e | e | e | e | e <;> rw [e] <;> decide)
    have h2 : id ∉ [0x10, 0x11, 0x20, 0x21] := fun h => hk (by
      have hall : ∀ x ∈ [0x10, 0x11, 0x20, 0x21], x ∈ KNOWN := by decide
      exact hall id h)
    split
    · rename_i ha
      exact ⟨fun r h => (by cases h), ⟨fun _ => Or.inl ⟨hk, ha⟩, fun _ => rfl⟩⟩
    · rename_i ha
      refine ⟨fun r h => ?_, ⟨fun h => (by cases h), ?_⟩⟩
      · injection h with h
        subst h
        refine ⟨rfl, rfl, ?_⟩
        cases hf : c.found with
        | none => exact Or.inr rfl
        | some g => exact Or.inl rfl
      · rintro (h | h | h)
        · exact absurd h.2 ha
        · exact absurd ⟨h.1, h.2.1⟩ h1
        · exact absurd h.1 h2
  · rename_i hk
    have hk := Decidable.not_not.1 hk
    have key : ∀ x ∈ KNOWN, (1 ≤ x ∧ x ≤ 10 ∨ 0x10 ≤ x ∧ x < 0x30 ∨ ¬ (1 ≤ x ∧ x ≤ 10) ∧ ¬ (0x10 ≤ x ∧ x < 0x30)) ∧
        (x ∈ [0x10, 0x11, 0x20, 0x21] ↔ 0x10 ≤ x ∧ x < 0x30) := by decide
    have key := (key id hk).2
    have hmap : ∀ {f : Nat → Rec} {n : Nat} (_ : 1 ≤ id ∧ id ≤ 10) (_ : ∀ g, (f g).id = some id ∧ (f g).time = some c.time ∧ (f g).who = some g),
        (∀ r, (n, c.found.map f).2 = some r → r.id = some id ∧ r.time = some c.time ∧ (r.who = c.found ∨ r.who = some c.there)) ∧
        ((n, c.found.map f).2 = none ↔ (id ∉ KNOWN ∧ c.attr = .entry) ∨ (1 ≤ id ∧ id ≤ 10 ∧ c.found = none) ∨
          (id ∈ [0x10, 0x11, 0x20, 0x21] ∧ (c.string = none ∨ c.guid = none))) := by
      intro f n hr hf
      rw [key]
      dsimp only
      cases hfd : c.found with
      | none => exact ⟨fun r h => (by cases h), ⟨fun _ => Or.inr (Or.inl ⟨hr.1, hr.2, rfl⟩), fun _ => rfl⟩⟩
      | some g =>
        refine ⟨fun r h => ?_, ⟨fun h => (by cases h), ?_⟩⟩
        · injection h with h
          subst h
          exact ⟨(hf g).1, (hf g).2.1, Or.inl (hf g).2.2⟩
        · rintro (h | h | h)
          · exact absurd hk h.1
          · cases h.2.2
          · omega
    split
    · exact hmap (by omega) (fun g => ⟨rfl, rfl, rfl⟩)
    split
    · exact hmap (by omega) (fun g => ⟨rfl, rfl, rfl⟩)
    split
    · exact hmap (by omega) (fun g => ⟨rfl, rfl, rfl⟩)
    split
    · exact hmap (by omega) (fun g => ⟨rfl, rfl, rfl⟩)
    split
    · exact hmap (by omega) (fun g => ⟨rfl, rfl, rfl⟩)
    have h10 : ¬ (1 ≤ id ∧ id ≤ 10) := by omega
    split
    · rename_i hd
      rw [key]
      dsimp only
      cases hs : c.string with
      | none => exact ⟨fun r h => (by cases h), ⟨fun _ => Or.inr (Or.inr ⟨hd, Or.inl rfl⟩), fun _ => rfl⟩⟩
      | some s =>
        cases hg : c.guid with
        | none => exact ⟨fun r h => (by cases h), ⟨fun _ => Or.inr (Or.inr ⟨hd, Or.inr rfl⟩), fun _ => rfl⟩⟩
        | some g =>
          refine ⟨fun r h => ?_, ⟨fun h => (by cases h), ?_⟩⟩
          · injection h with h
            subst h
            exact ⟨rfl, rfl, Or.inr rfl⟩
          · rintro (h | h | h)
            · exact absurd hk h.1
            · exact absurd ⟨h.1, h.2.1⟩ h10
            · rcases h.2 with h | h <;> cases h
    · rename_i hd
      refine ⟨fun r h => ?_, ⟨fun h => (by cases h), ?_⟩⟩
      · injection h with h
        subst h
        exact ⟨rfl, rfl, Or.inr rfl⟩
      · rintro (h | h | h)
        · exact absurd hk h.1
        · exact absurd ⟨h.1, h.2.1⟩ h10
        · exact absurd (key.1 h.1) hd

/-- The count of loaded images goes up with each start of loading one, and stays otherwise. -/
theorem loads_count (loads id : Nat) (c : Call) : (record loads id c).1 = if id = 3 then (loads + 1) % 2 ^ 32 else loads := by
  by_cases h : id = 3
  · subst h; rfl
  · unfold record
    rw [if_neg h, if_neg h]
    repeat' split
    all_goals rfl

/-- What else a record says: a string record has the string that was given, or "unknown name"; signals and callbacks have the given string and GUID; loading an image has
the number of the image, driver binding the given address. -/
theorem record_says (loads id : Nat) (c : Call) {r : Rec} (h : (record loads id c).2 = some r) :
    match r with
    | .guid .. => id = 1 ∨ id = 2
    | .string _ _ _ _ s => (id = 0 ∨ 10 < id) ∧ (c.string = some s ∨ c.string = none ∧ s = ascii "unknown name")
    | .dual _ _ _ _ g s => id ∈ [0x10, 0x11, 0x20, 0x21] ∧ c.guid = some g ∧ c.string = some s
    | .qword _ _ _ _ q => (id = 3 ∨ id = 4) ∧ q = (record loads id c).1 ∨ 5 ≤ id ∧ id ≤ 9 ∧ q = c.address
    | .qwordString _ _ _ _ q s => id = 10 ∧ q = c.address ∧ s = []
    | .boot => False
    | .generic .. => False := by
  have hstr : c.string = some (c.string.getD UNKNOWN) ∨ c.string = none ∧ c.string.getD UNKNOWN = ascii "unknown name" := by
    cases c.string with
    | none => exact Or.inr ⟨rfl, rfl⟩
    | some s => exact Or.inl rfl
  have hk : ∀ x ∈ KNOWN, 0x10 ≤ x ∧ x < 0x30 → x ∈ [0x10, 0x11, 0x20, 0x21] := by decide
  have hlow : id ∉ KNOWN → 10 < id := fun hn => Nat.lt_of_not_le fun hle => hn (by
    have hall : ∀ x, x < 11 → x ∈ KNOWN := by decide
    exact hall id (by omega))
  have hl := loads_count loads id c
  unfold record at h
  split at h
  · rename_i hn
    split at h
    · cases h
    · injection h with h; subst h; exact ⟨Or.inr (hlow hn), hstr⟩
  rename_i hn
  have hn := Decidable.not_not.1 hn
  split at h
  · obtain ⟨g, _, e⟩ := Option.map_eq_some_iff.1 h
    subst e; assumption
  split at h
  · rename_i h3
    obtain ⟨g, _, e⟩ := Option.map_eq_some_iff.1 h
    subst e; rw [if_pos h3] at hl; exact Or.inl ⟨Or.inl h3, hl.symm⟩
  split at h
  · rename_i h3 h4
    obtain ⟨g, _, e⟩ := Option.map_eq_some_iff.1 h
    subst e; rw [if_neg h3] at hl; exact Or.inl ⟨Or.inr h4, hl.symm⟩
  split at h
  · rename_i h5
    obtain ⟨g, _, e⟩ := Option.map_eq_some_iff.1 h
    subst e; exact Or.inr ⟨h5.1, h5.2, rfl⟩
  split at h
  · rename_i h5
    obtain ⟨g, _, e⟩ := Option.map_eq_some_iff.1 h
    subst e; exact ⟨h5, rfl, rfl⟩
  split at h
  · rename_i h5
    obtain ⟨s, e1, h⟩ := Option.bind_eq_some_iff.1 h
    obtain ⟨g, e2, e⟩ := Option.map_eq_some_iff.1 h
    subst e; exact ⟨hk id hn h5, e2, e1⟩
  · injection h with h; subst h; exact ⟨by omega, hstr⟩

/-- The records of measurements with strings of at most 204 bytes are not too long. -/
theorem record_fits {loads id : Nat} {c : Call} (hs : ∀ s, c.string = some s → s.length ≤ 204) {r : Rec} (h : (record loads id c).2 = some r) : Fits r ∧ r.size ≤ 255 := by
  have hd : (c.string.getD UNKNOWN).length ≤ 204 := by
    cases hc : c.string with
    | none => show UNKNOWN.length ≤ 204; decide
    | some s => exact hs s hc
  suffices hsz : r.size ≤ 255 ∧ r.kind < 2 ^ 16 ∧ r.revision < 2 ^ 8 from ⟨⟨hsz.1, hsz.2.1, hsz.2.2⟩, hsz.1⟩
  have g1 : ∀ i a t g, (Rec.guid i a t g).size ≤ 255 ∧ (Rec.guid i a t g).kind < 2 ^ 16 ∧ (Rec.guid i a t g).revision < 2 ^ 8 := fun i a t g => by
    refine ⟨?_, by simp only [Rec.kind]; decide, by simp only [Rec.revision]; decide⟩
    simp [Rec.size, Rec.data]
  have g2 : ∀ i a t g s, s.length ≤ 204 → (Rec.string i a t g s).size ≤ 255 ∧ (Rec.string i a t g s).kind < 2 ^ 16 ∧ (Rec.string i a t g s).revision < 2 ^ 8 := fun i a t g s hs => by
    refine ⟨?_, by simp only [Rec.kind]; decide, by simp only [Rec.revision]; decide⟩
    simp [Rec.size, Rec.data]; omega
  have g3 : ∀ i a t g g' s, s.length ≤ 204 → (Rec.dual i a t g g' s).size ≤ 255 ∧ (Rec.dual i a t g g' s).kind < 2 ^ 16 ∧ (Rec.dual i a t g g' s).revision < 2 ^ 8 := fun i a t g g' s hs => by
    refine ⟨?_, by simp only [Rec.kind]; decide, by simp only [Rec.revision]; decide⟩
    simp [Rec.size, Rec.data]; omega
  have g4 : ∀ i a t g q, (Rec.qword i a t g q).size ≤ 255 ∧ (Rec.qword i a t g q).kind < 2 ^ 16 ∧ (Rec.qword i a t g q).revision < 2 ^ 8 := fun i a t g q => by
    refine ⟨?_, by simp only [Rec.kind]; decide, by simp only [Rec.revision]; decide⟩
    simp [Rec.size, Rec.data]
  have g5 : ∀ i a t g q, (Rec.qwordString i a t g q []).size ≤ 255 ∧ (Rec.qwordString i a t g q []).kind < 2 ^ 16 ∧ (Rec.qwordString i a t g q []).revision < 2 ^ 8 := fun i a t g q => by
    refine ⟨?_, by simp only [Rec.kind]; decide, by simp only [Rec.revision]; decide⟩
    simp [Rec.size, Rec.data]
  have hm : ∀ {f : Nat → Rec}, (∀ g, (f g).size ≤ 255 ∧ (f g).kind < 2 ^ 16 ∧ (f g).revision < 2 ^ 8) → c.found.map f = some r → r.size ≤ 255 ∧ r.kind < 2 ^ 16 ∧ r.revision < 2 ^ 8 := by
    intro f hf h
    obtain ⟨g, _, e⟩ := Option.map_eq_some_iff.1 h
    rw [← e]; exact hf g
  unfold record at h
  split at h
  · split at h
    · cases h
    · injection h with h; rw [← h]; exact g2 _ _ _ _ _ hd
  split at h
  · exact hm (fun g => g1 _ _ _ g) h
  split at h
  · exact hm (fun g => g4 _ _ _ g _) h
  split at h
  · exact hm (fun g => g4 _ _ _ g _) h
  split at h
  · exact hm (fun g => g4 _ _ _ g _) h
  split at h
  · exact hm (fun g => g5 _ _ _ g _) h
  split at h
  · obtain ⟨s, e, h⟩ := Option.bind_eq_some_iff.1 h
    obtain ⟨g, _, h⟩ := Option.map_eq_some_iff.1 h
    rw [← h]; exact g3 _ _ _ _ _ _ (hs s e)
  · injection h with h; rw [← h]; exact g2 _ _ _ _ _ hd

/-- A measurement that succeeds adds one record, with the id chosen and the time; one that does not adds none. Either way the table is what it was, and the record. -/
theorem measure_adds {dbg : Bool} {t : Fbpt} {l : List Rec} (hi : Inv t l) {loads : Nat} {c : Call} (hs : ∀ s, c.string = some s → s.length ≤ 204)
    (hz : 56 + (allBytes l).length + 255 < 2 ^ 32) :
    (∃ r id, perfId c = some id ∧ (record loads id c).2 = some r ∧ r.id = some id ∧ r.time = some c.time ∧ room t r = true ∧
      (measure dbg t loads c).2 = some .success ∧ Inv (measure dbg t loads c).1.1 (l ++ [r])) ∨
    ((measure dbg t loads c).2 = some .invalidParameter ∧ (measure dbg t loads c).1.1 = t) ∨
    (∃ r id, perfId c = some id ∧ (record loads id c).2 = some r ∧ room t r = false ∧ (measure dbg t loads c).2 = some .outOfResources ∧
      Inv (measure dbg t loads c).1.1 l) := by
  unfold measure
  cases hp : perfId c with
  | none => exact Or.inr (Or.inl ⟨rfl, rfl⟩)
  | some id =>
    dsimp only
    rcases hr : record loads id c with ⟨n, r⟩
    cases r with
    | none => exact Or.inr (Or.inl ⟨rfl, rfl⟩)
    | some r =>
      dsimp only
      have hr2 : (record loads id c).2 = some r := by rw [hr]
      obtain ⟨hf, hsz⟩ := record_fits hs hr2
      obtain ⟨k1, k2, _⟩ := (record_kinds loads id c).1 r hr2
      obtain ⟨h1, h2, _⟩ := add_inv (dbg := dbg) hi (r := r) ⟨hf, by omega⟩
      rcases hadd : t.add dbg r with ⟨t', res⟩
      rw [hadd] at h1 h2
      cases hroom : room t r with
      | true =>
        rw [hroom] at h1 h2
        have h2 : res = .ok () := h2
        subst h2
        exact Or.inl ⟨r, id, rfl, hr2, k1, k2, hroom, rfl, h1⟩
      | false =>
        rw [hroom] at h1 h2
        have h2 : res = .err .outOfResources := h2
        subst h2
        exact Or.inr (Or.inr ⟨r, id, rfl, hr2, hroom, rfl, h1⟩)

/-- A measurement of a start, with a GUID of its own and the name "Work". -/
def someCall : Call := ⟨0x5000, none, 99, none, some (ascii "Work"), 17, 0, 0x123, .start⟩

example : perfId someCall = some 0x120 ∧ (record 4 0x120 someCall).2 = some (.string 0x120 0 17 99 (ascii "Work")) := by decide

example : (measure false (Fbpt.new fun _ => []) 4 someCall).2 = some .success := by decide +kernel

example : ¬ Named someCall ∧ someCall.identifier % 2 ^ 16 ∉ KNOWN := ⟨fun h => by
  have := (named_iff someCall).2 h
  revert this
  decide, by decide⟩

/-! ### Findings -/

/-- A start with an id that is not the core's is given one of the core's, which needs a GUID: the measurement is refused, while its end is recorded. -/
theorem start_id_taken :
    let c : Call := { someCall with identifier := 0x12 }
    perfId c = some 0x10 ∧ (measure false (Fbpt.new fun _ => []) 4 c).2 = some .invalidParameter ∧
    (measure false (Fbpt.new fun _ => []) 4 { c with attr := .stop }).2 = some .success := by decide +kernel

/-- The rule for ids is not followed when the string is one of the core's. -/
theorem start_id_kept : perfId { someCall with string := some (ascii "SEC") } = some 0x123 := by decide

/-- Starting to load an image is counted even when the measurement is refused, so later records name another image. -/
theorem refused_still_counts :
    let c : Call := { someCall with identifier := 0, string := some (ascii "LoadImage") }
    (measure false (Fbpt.new fun _ => []) 4 c).2 = some .invalidParameter ∧ (measure false (Fbpt.new fun _ => []) 4 c).1.2 = 5 := by decide +kernel

/-- Long names: the measurement is refused or panics, and the records are spoilt. -/
theorem long_name_spoils :
    let c : Call := { someCall with string := some (List.replicate 300 0x61) }
    (measure false (Fbpt.new fun _ => []) 4 c).2 = some .aborted ∧ (measure true (Fbpt.new fun _ => []) 4 c).2 = none ∧
    (match (measure false (Fbpt.new fun _ => []) 4 c).1.1.recs with | .owned b => b.length | _ => 0) = 255 := by decide +kernel

end Verif.Perf
