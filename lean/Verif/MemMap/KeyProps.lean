import Verif.MemMap.Crc
import Verif.MemMap.Props
/-!
C57: `GetMemoryMap` and the key it hands out. C58: `ExitBootServices`.
-/
namespace Verif.MemMap
open Gcd

variable {prep : Mem → Option Mem} {pad : Nat → Nat} {a : MapArgs} {m m' : Mem} {o : MapOut} {st : Status}

/-! ### C57 -/

/-- What a successful `GetMemoryMap` wrote. -/
theorem get_success (h : getMemoryMap prep pad a m = (.ret .success o, m')) :
    prep m = some m' ∧ a.map = true ∧ m'.map ≠ [] ∧ o.size = some (m'.map.length * 40) ∧ (∃ sz, a.size = some sz ∧ m'.map.length * 40 ≤ sz) ∧
      o.map = some (mapBytes pad 0 m'.map) ∧ (a.key = true → o.key = some (crc32 (mapBytes pad 0 m'.map))) ∧ (a.key = false → o.key = none) ∧
      (a.descSize = true → o.descSize = some 40) ∧ (a.version = true → o.version = some 1) := by
  unfold getMemoryMap at h
  cases hs : a.size with
  | none => rw [hs] at h; injection h with h _; injection h with h _; cases h
  | some sz =>
    rw [hs] at h
    cases hp : prep m with
    | none => rw [hp] at h; injection h with h _; cases h
    | some m1 =>
      rw [hp] at h
      simp only [] at h
      split at h
      · injection h with h _; cases h
      · rename_i h0
        split at h
        · injection h with h _; injection h with h _; cases h
        · rename_i h1
          split at h
          · injection h with h _; injection h with h _; cases h
          · rename_i h2
            injection h with h hm; injection h with _ h
            subst hm; subst h
            refine ⟨rfl, by simpa using h2, ?_, rfl, ⟨sz, rfl, by omega⟩, rfl, ?_, ?_, ?_, ?_⟩
            · intro hn; rw [hn] at h0; exact h0 rfl
            · intro hk; simp [hk]
            · intro hk; simp [hk]
            · intro hk; simp [hk]
            · intro hk; simp [hk]

/-- A buffer that is too small: the caller is told the size that is needed, and only that; the memory map is not written. -/
theorem get_too_small (h : getMemoryMap prep pad a m = (.ret .bufferTooSmall o, m')) :
    prep m = some m' ∧ o.size = some (m'.map.length * 40) ∧ (∃ sz, a.size = some sz ∧ sz < m'.map.length * 40) ∧ o.map = none ∧ o.key = none := by
  unfold getMemoryMap at h
  cases hs : a.size with
  | none => rw [hs] at h; injection h with h _; injection h with h _; cases h
  | some sz =>
    rw [hs] at h
    cases hp : prep m with
    | none => rw [hp] at h; injection h with h _; cases h
    | some m1 =>
      rw [hp] at h
      simp only [] at h
      split at h
      · injection h with h _; cases h
      · split at h
        · rename_i h1
          injection h with h hm; injection h with _ h
          subst hm; subst h
          exact ⟨rfl, rfl, ⟨sz, rfl, h1⟩, rfl, rfl⟩
        · split at h
          · injection h with h _; injection h with h _; cases h
          · injection h with h _; injection h with h _; cases h

/-- Making the map does not change it: the allocations this takes fit without the pool growing. -/
def Quiet (prep : Mem → Option Mem) (m : Mem) : Prop := ∃ m', prep m = some m' ∧ m'.map = m.map

/-- A call with enough room and a place to put the map succeeds. -/
theorem get_succeeds (hp : prep m = some m') (hne : m'.map ≠ []) {sz : Nat} (hs : a.size = some sz) (hsz : m'.map.length * 40 ≤ sz)
    (hm : a.map = true) : ∃ o, getMemoryMap prep pad a m = (.ret .success o, m') := by
  unfold getMemoryMap
  rw [hs]
  simp only [hp]
  rw [if_neg (fun h => hne (List.length_eq_zero_iff.1 h)), if_neg (by omega), if_neg (by rw [hm]; decide)]
  exact ⟨_, rfl⟩

/-- The usual two calls: ask for the size, and call again with a buffer of that size. -/
theorem get_twice (h : getMemoryMap prep pad a m = (.ret .bufferTooSmall o, m')) (hq : Quiet prep m') {n : Nat} (hn : o.size = some n)
    {a2 : MapArgs} {sz : Nat} (hsz : a2.size = some sz) (hle : n ≤ sz) (hmap : a2.map = true) :
    ∃ o2 m2, getMemoryMap prep pad a2 m' = (.ret .success o2, m2) ∧ m2.map = m'.map := by
  obtain ⟨_, h2, ⟨s0, _, h3⟩, _⟩ := get_too_small h
  obtain ⟨m2, q1, q2⟩ := hq
  rw [h2] at hn
  injection hn with hn
  obtain ⟨o2, ho⟩ := get_succeeds (pad := pad) q1 (fun hz => by rw [q2] at hz; rw [hz] at h3; simp at h3) hsz
    (by rw [q2]; omega) hmap
  exact ⟨o2, m2, ho, q2⟩

/-- The fields of a descriptor are those of the C structure. -/
structure Fits (e : Entry) : Prop where
  type : e.type < 2 ^ 32
  start : e.start < 2 ^ 64
  pages : e.pages < 2 ^ 64
  attr : e.attr < 2 ^ 64

theorem bytes_length (p : Nat) (e : Entry) : (e.bytes p).length = 40 := by simp [Entry.bytes]

theorem mapBytes_length (pad : Nat → Nat) (i : Nat) (l : List Entry) : (mapBytes pad i l).length = l.length * 40 := by
  induction l generalizing i with
  | nil => rfl
  | cons e l ih => rw [mapBytes, List.length_append, bytes_length, ih, List.length_cons]; omega

theorem mapBytes_drop {pad : Nat → Nat} {l : List Entry} {i j : Nat} {e : Entry} (h : l[i]? = some e) :
    ∃ suf, (mapBytes pad j l).drop (40 * i) = e.bytes (pad (j + i)) ++ suf := by
  induction l generalizing i j with
  | nil => cases h
  | cons x l ih =>
    cases i with
    | zero =>
      rw [List.getElem?_cons_zero, Option.some.injEq] at h
      subst h
      exact ⟨mapBytes pad (j + 1) l, rfl⟩
    | succ i =>
      obtain ⟨suf, hs⟩ := ih (j := j + 1) (i := i) (by simpa using h)
      refine ⟨suf, ?_⟩
      rw [mapBytes, show 40 * (i + 1) = (x.bytes (pad j)).length + 40 * i by rw [bytes_length]; omega, ← List.drop_drop,
        List.drop_append_of_le_length (Nat.le_refl _), List.drop_length, List.nil_append, hs]
      congr 3; omega

/-- The number in the `n` bytes from offset `k` on. -/
def field (bs : List UInt8) (k n : Nat) : Nat := leVal ((bs.drop k).take n)

theorem take_drop_mid {α : Type} {x y z : List α} {k n : Nat} (hk : x.length = k) (hn : y.length = n) :
    ((x ++ y ++ z).drop k).take n = y := by
  subst hk; subst hn
  rw [List.append_assoc, List.drop_append_of_le_length (Nat.le_refl _), List.drop_length, List.nil_append,
    List.take_append_of_le_length (Nat.le_refl _), List.take_length]

theorem parts {α : Type} {x0 x1 x2 x3 x4 x5 suf : List α} (h0 : x0.length = 4) (h1 : x1.length = 4) (h2 : x2.length = 8)
    (h3 : x3.length = 8) (h4 : x4.length = 8) (h5 : x5.length = 8) :
    let l := x0 ++ x1 ++ x2 ++ x3 ++ x4 ++ x5 ++ suf
    (l.drop 0).take 4 = x0 ∧ (l.drop 8).take 8 = x2 ∧ (l.drop 16).take 8 = x3 ∧ (l.drop 24).take 8 = x4 ∧ (l.drop 32).take 8 = x5 := by
  refine ⟨?_, ?_, ?_, ?_, ?_⟩
  · have := take_drop_mid (x := []) (y := x0) (z := x1 ++ x2 ++ x3 ++ x4 ++ x5 ++ suf) (k := 0) rfl h0
    simpa only [List.append_assoc, List.nil_append] using this
  · have := take_drop_mid (x := x0 ++ x1) (y := x2) (z := x3 ++ x4 ++ x5 ++ suf) (k := 8) (by simp [*]) h2
    simpa only [List.append_assoc] using this
  · have := take_drop_mid (x := x0 ++ x1 ++ x2) (y := x3) (z := x4 ++ x5 ++ suf) (k := 16) (by simp [*]) h3
    simpa only [List.append_assoc] using this
  · have := take_drop_mid (x := x0 ++ x1 ++ x2 ++ x3) (y := x4) (z := x5 ++ suf) (k := 24) (by simp [*]) h4
    simpa only [List.append_assoc] using this
  · have := take_drop_mid (x := x0 ++ x1 ++ x2 ++ x3 ++ x4) (y := x5) (z := suf) (k := 32) (by simp [*]) h5
    simpa only [List.append_assoc] using this

/-- A caller that walks the buffer in steps of the reported descriptor size finds the entries of the map. -/
theorem get_readable (h : getMemoryMap prep pad a m = (.ret .success o, m')) (hf : ∀ e ∈ m'.map, Fits e) :
    ∃ bs, o.map = some bs ∧ o.size = some bs.length ∧ ∀ i (e : Entry), m'.map[i]? = some e →
      field bs (40 * i) 4 = e.type ∧ field bs (40 * i + 8) 8 = e.start ∧ field bs (40 * i + 16) 8 = 0 ∧
      field bs (40 * i + 24) 8 = e.pages ∧ field bs (40 * i + 32) 8 = e.attr := by
  obtain ⟨_, _, _, h4, _, h6, _⟩ := get_success h
  refine ⟨_, h6, by rw [h4, mapBytes_length], fun i e hi => ?_⟩
  obtain ⟨suf, hs⟩ := mapBytes_drop (pad := pad) (j := 0) hi
  have he := hf e (List.mem_of_getElem? hi)
  generalize hx : mapBytes pad 0 m'.map = bs at hs
  have key : ∀ k n, field bs (40 * i + k) n = leVal (((e.bytes (pad (0 + i)) ++ suf).drop k).take n) := by
    intro k n
    unfold field
    rw [← List.drop_drop, hs]
  have key0 := key 0 4
  rw [Nat.add_zero] at key0
  rw [key0, key, key, key, key]
  unfold Entry.bytes
  generalize pad (0 + i) = p
  have p4 : (2 : Nat) ^ 32 = 256 ^ 4 := by decide
  have p8 : (2 : Nat) ^ 64 = 256 ^ 8 := by decide
  obtain ⟨f1, f2, f3, f4, f5⟩ := parts (suf := suf) (leBytes_length 4 e.type) (leBytes_length 4 p) (leBytes_length 8 e.start)
    (leBytes_length 8 0) (leBytes_length 8 e.pages) (leBytes_length 8 e.attr)
  rw [f1, f2, f3, f4, f5]
  exact ⟨leVal_leBytes_of_lt (p4 ▸ he.type), leVal_leBytes_of_lt (p8 ▸ he.start), by rw [leVal_leBytes],
    leVal_leBytes_of_lt (p8 ▸ he.pages), leVal_leBytes_of_lt (p8 ▸ he.attr)⟩

/-- A key is accepted exactly when it is the checksum of the map there is now. -/
theorem terminate_iff {key : Nat} : (terminateMemoryMap prep pad key m).1 = some true ↔
    ∃ m', prep m = some m' ∧ key = crc32 (mapBytes pad 0 m'.map) := by
  unfold terminateMemoryMap
  cases hp : prep m with
  | none => simp
  | some m1 => simp

/-- The key of a map that is still the map is accepted, if the padding of the descriptors has not changed. -/
theorem key_accepted (h : getMemoryMap prep pad a m = (.ret .success o, m')) {key : Nat} (hk : o.key = some key) {m1 : Mem}
    (hsame : m1.map = m'.map) (hq : Quiet prep m1) : (terminateMemoryMap prep pad key m1).1 = some true := by
  obtain ⟨_, _, _, _, _, _, h7, h8, _⟩ := get_success h
  have hkey : key = crc32 (mapBytes pad 0 m'.map) := by
    cases hx : a.key with
    | true => rw [h7 hx] at hk; injection hk with hk; exact hk.symm
    | false => rw [h8 hx] at hk; cases hk
  obtain ⟨m2, q1, q2⟩ := hq
  exact terminate_iff.2 ⟨m2, q1, by rw [q2, hsame, hkey]⟩

/-- The key of a map is rejected when the map now has bytes that differ within four consecutive ones. -/
theorem stale_key_rejected (h : getMemoryMap prep pad a m = (.ret .success o, m')) {key : Nat} (hk : o.key = some key) {m1 m2 : Mem}
    (hp : prep m1 = some m2) {pre suf u v : List UInt8} (hu : u.length = 4) (hv : v.length = 4) (hne : u ≠ v)
    (h1 : mapBytes pad 0 m'.map = pre ++ u ++ suf) (h2 : mapBytes pad 0 m2.map = pre ++ v ++ suf) :
    (terminateMemoryMap prep pad key m1).1 = some false := by
  obtain ⟨_, _, _, _, _, _, h7, h8, _⟩ := get_success h
  have hkey : key = crc32 (mapBytes pad 0 m'.map) := by
    cases hx : a.key with
    | true => rw [h7 hx] at hk; injection hk with hk; exact hk.symm
    | false => rw [h8 hx] at hk; cases hk
  unfold terminateMemoryMap
  simp only [hp]
  rw [hkey, h1, h2]
  simp only [Option.some.injEq, decide_eq_false_iff_not]
  exact crc32_detects hu hv hne

theorem mapBytes_append (pad : Nat → Nat) (j : Nat) (l r : List Entry) :
    mapBytes pad j (l ++ r) = mapBytes pad j l ++ mapBytes pad (j + l.length) r := by
  induction l generalizing j with
  | nil => rfl
  | cons e l ih =>
    rw [List.cons_append, mapBytes, ih, mapBytes, List.append_assoc, List.length_cons]
    congr 3; omega

theorem leBytes_inj {n x y : Nat} (hx : x < 256 ^ n) (hy : y < 256 ^ n) (h : leBytes n x = leBytes n y) : x = y := by
  have := congrArg leVal h
  rwa [leVal_leBytes_of_lt hx, leVal_leBytes_of_lt hy] at this

/-- In particular when one range has become memory of another type, as when exactly that range is allocated or freed. -/
theorem retyped_key_rejected (h : getMemoryMap prep pad a m = (.ret .success o, m')) {key : Nat} (hk : o.key = some key) {m1 m2 : Mem}
    (hp : prep m1 = some m2) {l r : List Entry} {e : Entry} {t : Nat} (ht : e.type < 2 ^ 32) (ht2 : t < 2 ^ 32) (hne : t ≠ e.type)
    (h1 : m'.map = l ++ e :: r) (h2 : m2.map = l ++ { e with type := t } :: r) : (terminateMemoryMap prep pad key m1).1 = some false := by
  refine stale_key_rejected h hk hp (pre := mapBytes pad 0 l) (u := leBytes 4 e.type) (v := leBytes 4 t)
    (suf := leBytes 4 (pad l.length) ++ leBytes 8 e.start ++ leBytes 8 0 ++ leBytes 8 e.pages ++ leBytes 8 e.attr ++ mapBytes pad (l.length + 1) r)
    (by simp) (by simp) (fun hx => hne (leBytes_inj ht ht2 hx).symm) ?_ ?_
  · rw [h1, mapBytes_append, mapBytes, Nat.zero_add]
    simp [Entry.bytes, List.append_assoc]
  · rw [h2, mapBytes_append, mapBytes, Nat.zero_add]
    simp [Entry.bytes, List.append_assoc]

/-- `CalculateCrc32` is this checksum. -/
theorem calculate_iff {data : Option (List UInt8)} {out : Bool} {c : Nat} :
    calculateCrc32 data out = (.success, some c) ↔ ∃ bs, data = some bs ∧ bs ≠ [] ∧ out = true ∧ c = crc32 bs := by
  unfold calculateCrc32
  cases data with
  | none => simp
  | some bs =>
    simp only []
    split
    · rename_i h
      constructor
      · intro h'; cases h'
      · rintro ⟨bs', h1, h2, h3, _⟩
        injection h1 with h1
        subst h1
        rcases h with h | h
        · exact absurd (List.length_eq_zero_iff.1 h) h2
        · rw [h] at h3; cases h3
    · rename_i h
      have hb : bs ≠ [] := fun hb => h (.inl (by rw [hb]; rfl))
      have ho : out = true := by cases out; exact absurd (.inr rfl) h; rfl
      constructor
      · intro h'; injection h' with _ h'; injection h' with h'; exact ⟨bs, rfl, hb, ho, h'.symm⟩
      · rintro ⟨bs', h1, _, _, h4⟩; injection h1 with h1; subst h1; rw [h4]

/-! ### C58 -/

variable {E : Env} {s s' : Sys} {key : Nat}

/-- The memory at the moment the key is checked: after the callbacks that only the first call runs. -/
def memAtCheck (E : Env) (s : Sys) : Mem := if s.called then s.mem else E.cb .beforeEbs (E.cb .preEbs s.mem)

def Mem.setLock (b : Bool) (m : Mem) : Mem := { m with gcd := { m.gcd with locked := b } }

/-- The events a call signals before it checks the key, and the timer. -/
def actsBefore (E : Env) (s : Sys) : List Act :=
  (if s.called then [] else [.signal .preEbs, .signal .beforeEbs]) ++ (if E.timer then [.timerOff] else [])

/-- What a successful call does after it has accepted the key. -/
def actsAfter (E : Env) : List Act :=
  [.signal .exitBootServices] ++ (if E.statusCode then [.statusCode] else []) ++ [.interruptsOff, .clearBootServices] ++
    (if E.runtime then [.atRuntime] else [])

/-- The whole of a call. -/
theorem exit_spec (E : Env) (key : Nat) (s : Sys) :
    match E.prep ((memAtCheck E s).setLock true) with
    | none => (exitBootServices E key s).1 = .panic
    | some m =>
      if key = crc32 (mapBytes E.pad 0 m.map) then
        exitBootServices E key s = (.success, ⟨E.cb .exitBootServices m, true, s.log ++ actsBefore E s ++ actsAfter E⟩)
      else
        exitBootServices E key s = (.invalidParameter,
          ⟨E.cb .ebsFailed (m.setLock false), true, s.log ++ actsBefore E s ++ [.signal .ebsFailed]⟩) := by
  have hb : (if E.timer then (beforeExit E s).act .timerOff else beforeExit E s) = ⟨memAtCheck E s, true, s.log ++ actsBefore E s⟩ := by
    obtain ⟨sm, sc, sl⟩ := s
    cases sc <;> cases ht : E.timer <;> simp [beforeExit, memAtCheck, actsBefore, Sys.act, Sys.signal, ht]
  unfold exitBootServices
  simp only [hb]
  have hl : (Sys.setLock true ⟨memAtCheck E s, true, s.log ++ actsBefore E s⟩) =
      ⟨(memAtCheck E s).setLock true, true, s.log ++ actsBefore E s⟩ := rfl
  rw [hl]
  unfold terminateMemoryMap
  simp only []
  cases hp : E.prep ((memAtCheck E s).setLock true) with
  | none => rfl
  | some m =>
    simp only []
    split
    · rename_i hk
      rw [decide_eq_true hk]
      simp only []
      unfold finishExit actsAfter
      cases E.statusCode <;> cases E.runtime <;> simp [Sys.act, Sys.signal]
    · rename_i hk
      rw [decide_eq_false hk]
      rfl

/-- The call succeeds exactly when the key is that of the map as it is after the callbacks. -/
theorem exit_succeeds_iff : (exitBootServices E key s).1 = .success ↔
    ∃ m, E.prep ((memAtCheck E s).setLock true) = some m ∧ key = crc32 (mapBytes E.pad 0 m.map) := by
  have h := exit_spec E key s
  cases hp : E.prep ((memAtCheck E s).setLock true) with
  | none => rw [hp] at h; simp only [] at h; rw [h]; simp
  | some m =>
    rw [hp] at h
    simp only [] at h
    split at h
    · rename_i hk; rw [h]; simp [hk]
    · rename_i hk; rw [h]; simp [hk]

/-- After a refusal boot services go on: allocating and freeing work again before anybody is told, and nothing was shut down
but the timer. -/
theorem exit_refused (h : exitBootServices E key s = (.invalidParameter, s')) :
    (∃ m, s'.mem = E.cb .ebsFailed m ∧ m.gcd.locked = false) ∧ s'.log = s.log ++ actsBefore E s ++ [.signal .ebsFailed] ∧
      .signal .exitBootServices ∉ actsBefore E s ++ [.signal .ebsFailed] ∧ .clearBootServices ∉ actsBefore E s ++ [.signal .ebsFailed] ∧
      .atRuntime ∉ actsBefore E s ++ [.signal .ebsFailed] ∧ .interruptsOff ∉ actsBefore E s ++ [.signal .ebsFailed] := by
  have hx := exit_spec E key s
  rw [h] at hx
  cases hp : E.prep ((memAtCheck E s).setLock true) with
  | none => rw [hp] at hx; cases hx
  | some m =>
    rw [hp] at hx
    simp only [] at hx
    split at hx
    · injection hx with hx _; cases hx
    · injection hx with _ hx
      subst hx
      refine ⟨⟨m.setLock false, rfl, rfl⟩, rfl, ?_, ?_, ?_, ?_⟩ <;>
        (unfold actsBefore; cases s.called <;> cases E.timer <;> simp)

/-- A successful call signals the event, and then shuts boot services down. -/
theorem exit_done (h : exitBootServices E key s = (.success, s')) :
    s'.log = s.log ++ actsBefore E s ++ actsAfter E ∧ .signal .ebsFailed ∉ actsBefore E s ++ actsAfter E := by
  have hx := exit_spec E key s
  rw [h] at hx
  cases hp : E.prep ((memAtCheck E s).setLock true) with
  | none => rw [hp] at hx; cases hx
  | some m =>
    rw [hp] at hx
    simp only [] at hx
    split at hx
    · injection hx with _ hx
      subst hx
      refine ⟨rfl, ?_⟩
      unfold actsBefore actsAfter
      cases s.called <;> cases E.timer <;> cases E.statusCode <;> cases E.runtime <;> simp
    · injection hx with hx _; cases hx

/-- After success the memory map is closed: as long as nobody else opens the lock, no allocation succeeds, and neither
allocating nor freeing changes the memory space. -/
theorem exit_closes (h : exitBootServices E key s = (.success, s'))
    (hprep : ∀ m m', E.prep m = some m' → m'.gcd.locked = m.gcd.locked)
    (hcb : ∀ m, (E.cb .exitBootServices m).gcd.locked = m.gcd.locked) :
    s'.mem.gcd.locked = true ∧
    (∀ at_ ty shift len image device, s'.mem.gcd.allocate at_ ty shift len image device = (.err .accessDenied, s'.mem.gcd)) ∧
    (∀ base len preserve, (s'.mem.gcd.freeSpace base len preserve).2 = s'.mem.gcd) := by
  have hx := exit_spec E key s
  rw [h] at hx
  have hl : s'.mem.gcd.locked = true := by
    cases hp : E.prep ((memAtCheck E s).setLock true) with
    | none => rw [hp] at hx; cases hx
    | some m =>
      rw [hp] at hx
      simp only [] at hx
      split at hx
      · injection hx with _ hx
        subst hx
        show (E.cb .exitBootServices m).gcd.locked = true
        rw [hcb, hprep _ _ hp]; rfl
      · injection hx with hx _; cases hx
  refine ⟨hl, fun at_ ty shift len image device => ?_, fun base len preserve => ?_⟩
  · unfold Gcd.allocate; rw [if_pos hl]
  · unfold Gcd.freeSpace; rw [if_pos hl]

/-- One call in a history: what the rest of the firmware did to memory before it, its surroundings, and the key. -/
structure Call where
  between : Mem → Mem
  env : Env
  key : Nat

/-- A history of calls, each with its own surroundings. -/
def exits (s : Sys) : List Call → Sys
  | [] => s
  | c :: cs => exits (exitBootServices c.env c.key { s with mem := c.between s.mem }).2 cs

theorem exit_called (E : Env) (key : Nat) (s : Sys) :
    (exitBootServices E key s).2.called = true ∧
    ∃ l, (exitBootServices E key s).2.log = s.log ++ actsBefore E s ++ l ∧ (.signal .preEbs) ∉ l ∧ (.signal .beforeEbs) ∉ l := by
  have hx := exit_spec E key s
  cases hp : E.prep ((memAtCheck E s).setLock true) with
  | none =>
    have hb : (if E.timer then (beforeExit E s).act .timerOff else beforeExit E s) = ⟨memAtCheck E s, true, s.log ++ actsBefore E s⟩ := by
      obtain ⟨sm, sc, sl⟩ := s
      cases sc <;> cases ht : E.timer <;> simp [beforeExit, memAtCheck, actsBefore, Sys.act, Sys.signal, ht]
    have hl : (Sys.setLock true ⟨memAtCheck E s, true, s.log ++ actsBefore E s⟩) =
        ⟨(memAtCheck E s).setLock true, true, s.log ++ actsBefore E s⟩ := rfl
    unfold exitBootServices
    simp only [hb, hl, terminateMemoryMap, hp]
    exact ⟨trivial, [], by simp, by simp, by simp⟩
  | some m =>
    rw [hp] at hx
    simp only [] at hx
    split at hx
    · rw [hx]
      refine ⟨rfl, actsAfter E, rfl, ?_, ?_⟩ <;> (unfold actsAfter; cases E.statusCode <;> cases E.runtime <;> simp)
    · rw [hx]
      exact ⟨rfl, [.signal .ebsFailed], rfl, by simp, by simp⟩

/-- Over any history of calls, successful or not, the two groups that announce the end of boot services are signalled once. -/
theorem announced_once (m : Mem) (cs : List Call) (hne : cs ≠ []) :
    (exits ⟨m, false, []⟩ cs).log.count (.signal .preEbs) = 1 ∧ (exits ⟨m, false, []⟩ cs).log.count (.signal .beforeEbs) = 1 := by
  have later : ∀ (cs : List Call) (s : Sys), s.called = true →
      (exits s cs).log.count (.signal .preEbs) = s.log.count (.signal .preEbs) ∧
      (exits s cs).log.count (.signal .beforeEbs) = s.log.count (.signal .beforeEbs) := by
    intro cs
    induction cs with
    | nil => intro s _; exact ⟨rfl, rfl⟩
    | cons c cs ih =>
      intro s hs
      obtain ⟨h1, l, h2, h3, h4⟩ := exit_called c.env c.key { s with mem := c.between s.mem }
      obtain ⟨i1, i2⟩ := ih _ h1
      simp only [exits]
      rw [i1, i2, h2]
      have : actsBefore c.env { s with mem := c.between s.mem } = if c.env.timer then [.timerOff] else [] := by
        simp [actsBefore, hs]
      rw [this]
      simp only [List.count_append, List.count_eq_zero.2 h3, List.count_eq_zero.2 h4]
      cases c.env.timer <;> simp
  cases cs with
  | nil => exact absurd rfl hne
  | cons c cs =>
    obtain ⟨h1, l, h2, h3, h4⟩ := exit_called c.env c.key ⟨c.between m, false, []⟩
    obtain ⟨i1, i2⟩ := later cs _ h1
    simp only [exits]
    rw [i1, i2, h2]
    simp only [List.count_append, List.count_eq_zero.2 h3, List.count_eq_zero.2 h4, actsBefore]
    cases c.env.timer <;> simp

/-- The loop every loader runs: after a refused call, a fresh key is accepted, because the callbacks that change memory are not
run again. `cb` may do what it likes; between the calls nobody else changes the memory map. -/
theorem retry_succeeds (h : exitBootServices E key s = (.invalidParameter, s')) {E2 : Env} {m2 : Mem}
    (hg : getMemoryMap E2.prep E2.pad a s'.mem = (.ret .success o, m2)) {k : Nat} (hk : o.key = some k)
    (hq : Quiet E2.prep (m2.setLock true)) :
    (exitBootServices E2 k { s' with mem := m2 }).1 = .success := by
  have hc : s'.called = true := by
    have := (exit_called E key s).1
    rw [h] at this
    exact this
  have hm : memAtCheck E2 { s' with mem := m2 } = m2 := by unfold memAtCheck; rw [if_pos hc]
  rw [exit_succeeds_iff, hm]
  have := key_accepted (m1 := m2.setLock true) hg hk rfl hq
  obtain ⟨m3, q1, q2⟩ := terminate_iff.1 this
  exact ⟨m3, q1, q2⟩

/-- And at the first call too, if the callbacks leave the map as it was. -/
theorem first_call_succeeds (hg : getMemoryMap E.prep E.pad a m = (.ret .success o, m')) {k : Nat} (hk : o.key = some k)
    (hs : s.mem = m') (hquiet : (memAtCheck E s).map = s.mem.map) (hq : Quiet E.prep ((memAtCheck E s).setLock true)) :
    (exitBootServices E k s).1 = .success := by
  rw [exit_succeeds_iff]
  exact terminate_iff.1 (key_accepted hg hk (m1 := (memAtCheck E s).setLock true) (hs ▸ hquiet) hq)

end Verif.MemMap
