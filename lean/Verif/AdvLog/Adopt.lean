import Verif.Hob.Witness
import Verif.AdvLog.Lemmas
import Verif.Log.Parser
/-!
C139: how the logger comes to its log in memory, and what it does with one that another phase left behind: `init_advanced_logger` and the entry point
(`/repo/components/patina_adv_logger/src/component.rs` lines 63-135), `set_log_info_address` (`logger.rs` 78-99), `adopt_memory_log` and `add_log_entry` (`memory_log.rs` 82-105, 180-240).

Here the log is in memory, with its header as it is found, so nothing is known of the fields of the header but what the code checks. One writer at a time (any number of them: `Verif.AdvLog.Model`).
Addresses do not wrap at `2^64`; that the header is aligned is not checked by the code and not modelled. Messages are shorter than `2^32 - 32` bytes.
-/
namespace Verif.AdvLog.Adopt
open Verif.Hob (Mem rd wr u16 u32 u64 le32 le64)

/-- `ADV_LOGGER_HOB_GUID`, memory_log.rs 27-28. -/
def NAME : List UInt8 := [0xB5, 0xCF, 0x60, 0x4D, 0x81, 0xF4, 0x98, 0x4A, 0x9C, 0x81, 0xBF, 0xF8, 0x64, 0x60, 0xC4, 0x3E]

/-! The fields of `AdvLoggerInfo`, memory_log.rs 272-312. -/
def bufOffset (m : Mem) (a : Nat) : Nat := (u32 m (a + 12)).toNat
def current (m : Mem) (a : Nat) : Nat := (u32 m (a + 20)).toNat
def discarded (m : Mem) (a : Nat) : Nat := (u32 m (a + 24)).toNat
def bufSize (m : Mem) (a : Nat) : Nat := (u32 m (a + 28)).toNat
def frequency (m : Mem) (a : Nat) : Nat := (u64 m (a + 40)).toNat

/-- `adopt_memory_log` gives a log, memory_log.rs 82-105. -/
def adoptable (m : Mem) (a : Nat) : Bool := u32 m a == 0x474F4C41 && u16 m (a + 4) == 5 && decide (80 ≤ bufOffset m a) && decide (a ≠ 0)

/-- `add_log_entry` on the log at `a`, memory_log.rs 180-240; `dbg`: with overflow checks. -/
def add (dbg : Bool) (m : Mem) (a : Nat) (e : Entry) : Outcome EfiError Unit × Mem :=
  if dbg = true ∧ (2 ^ 32 ≤ current m a + e.size ∨ 2 ^ 32 ≤ bufOffset m a + bufSize m a) then (.panic, m)
  else if (current m a + e.size) % 2 ^ 32 ≤ (bufOffset m a + bufSize m a) % 2 ^ 32 then
    let m1 := wr m (a + 20) (le32 (UInt32.ofNat (current m a + e.size)))
    if dbg = true ∧ current m a < bufOffset m a then (.panic, m1)
    else
      let index := (current m a + 2 ^ 32 - bufOffset m a) % 2 ^ 32
      if index + e.size ≤ bufSize m a then (.ok (), wr m1 (a + bufOffset m a + index) (encode e))
      else (.err .bufferTooSmall, m1)
  else (.err .outOfResources, wr m (a + 24) (le32 (UInt32.ofNat (discarded m a + e.size))))

/-- The logger: all of memory, and the address of its log. -/
structure State where
  mem : Mem
  log : Option Nat

/-- `set_log_info_address`, logger.rs 78-99. `freq` is what the processor gives (`perf_frequency`). -/
def setLogInfo (freq : UInt64) (s : State) (a : Nat) : Hob.Res State :=
  if s.log.isSome then .panic
  else if adoptable s.mem a then
    .ok ⟨if frequency s.mem a = 0 then wr s.mem (a + 40) (le64 freq) else s.mem, some a⟩
  else .ok s

/-- The loop of `init_advanced_logger`, component.rs 71-84: the address of the data of the HOB that it takes. -/
def findLog (dbg : Bool) (m : Mem) : Nat → Nat → Hob.Res (Option Nat)
  | 0, _ => .running
  | fuel + 1, a =>
    if (Hob.readHeader m a).type = Hob.END_OF_HOB_LIST then .ok none
    else (Hob.iterOne dbg m a).bind fun h =>
      match h with
      | .guid g d _ =>
        if Hob.guid m (g + 8) = NAME then .ok (some d)
        else (Hob.nextAddr dbg a (Hob.readHeader m a)).bind fun a' => findLog dbg m fuel a'
      | _ => (Hob.nextAddr dbg a (Hob.readHeader m a)).bind fun a' => findLog dbg m fuel a'

/-- `init_advanced_logger`, component.rs 63-87. -/
def init (dbg : Bool) (freq : UInt64) (fuel : Nat) (s : State) (p : Nat) : Hob.Res (Except EfiError Unit × State) :=
  if p = 0 then if dbg then .panic else .ok (.error .invalidParameter, s)
  else (findLog dbg s.mem fuel p).bind fun d =>
    match d with
    | none => .ok (.error .notFound, s)
    | some d => (setLogInfo freq s (u64 s.mem d).toNat).bind fun s' => .ok (.ok (), s')

/-- The errors of the entry point. -/
inductive EntryError | notStarted | protocolError
deriving DecidableEq, Repr

/-- The entry point of the component, component.rs 112-135: the address that the protocol is to have, or the error. `installs`: whether the protocol can be installed. -/
def entryPoint (installs : Bool) (s : State) : Except EntryError Nat :=
  match s.log with
  | none => .error .notStarted
  | some a => if installs then .ok a else .error .protocolError

/-! ### Memory -/

theorem wr_out {m : Mem} {a x : Nat} {bs : List UInt8} (h : x < a ∨ a + bs.length ≤ x) : wr m a bs x = m x := by
  unfold wr
  split
  · rw [List.getD_eq_getElem?_getD, List.getElem?_eq_none (by omega)]; rfl
  · rfl

theorem wr_in {m : Mem} {a i : Nat} {bs : List UInt8} (h : i < bs.length) : wr m a bs (a + i) = bs[i] := by
  unfold wr
  rw [if_pos (by omega), Nat.add_sub_cancel_left, List.getD_eq_getElem?_getD, List.getElem?_eq_getElem h]; rfl

theorem le32_len (x : UInt32) : (le32 x).length = 4 := by simp [le32]
theorem le64_len (x : UInt64) : (le64 x).length = 8 := by simp [le64]

theorem rd_congr {m m' : Mem} : ∀ {n a : Nat}, (∀ x, a ≤ x → x < a + n → m x = m' x) → rd m a n = rd m' a n
  | 0, _, _ => rfl
  | n + 1, a, h => by
    show m a :: rd m (a + 1) n = m' a :: rd m' (a + 1) n
    rw [h a (by omega) (by omega), rd_congr fun x h1 h2 => h x (by omega) (by omega)]

theorem u32_congr {m m' : Mem} {a : Nat} (h : ∀ x, a ≤ x → x < a + 4 → m x = m' x) : u32 m a = u32 m' a := by
  unfold u32; rw [rd_congr h]

theorem u16_congr {m m' : Mem} {a : Nat} (h : ∀ x, a ≤ x → x < a + 2 → m x = m' x) : u16 m a = u16 m' a := by
  unfold u16; rw [rd_congr h]

theorem bufOffset_congr {m m' : Mem} {a : Nat} (h : ∀ x, a + 12 ≤ x → x < a + 16 → m x = m' x) : bufOffset m a = bufOffset m' a := by
  unfold bufOffset; rw [u32_congr h]

theorem current_congr {m m' : Mem} {a : Nat} (h : ∀ x, a + 20 ≤ x → x < a + 24 → m x = m' x) : current m a = current m' a := by
  unfold current; rw [u32_congr h]

theorem discarded_congr {m m' : Mem} {a : Nat} (h : ∀ x, a + 24 ≤ x → x < a + 28 → m x = m' x) : discarded m a = discarded m' a := by
  unfold discarded; rw [u32_congr h]

theorem bufSize_congr {m m' : Mem} {a : Nat} (h : ∀ x, a + 28 ≤ x → x < a + 32 → m x = m' x) : bufSize m a = bufSize m' a := by
  unfold bufSize; rw [u32_congr h]

theorem holds_wr {m : Mem} {a : Nat} {bs : List UInt8} : Hob.Holds (wr m a bs) a bs := by
  intro i b h
  obtain ⟨hi, hb⟩ := List.getElem?_eq_some_iff.1 h
  rw [wr_in hi, hb]

theorem u32_wr {m : Mem} {a : Nat} {x : UInt32} : u32 (wr m a (le32 x)) a = x := Hob.u32_holds holds_wr

theorem u64_wr {m : Mem} {a : Nat} {x : UInt64} : u64 (wr m a (le64 x)) a = x := Hob.u64_holds holds_wr

theorem current_wr {m : Mem} {a n : Nat} (h : n < 4294967296) : current (wr m (a + 20) (le32 (UInt32.ofNat n))) a = n := by
  unfold current
  rw [u32_wr, UInt32.toNat_ofNat']
  exact Nat.mod_eq_of_lt h

theorem discarded_wr {m : Mem} {a n : Nat} (h : n < 4294967296) : discarded (wr m (a + 24) (le32 (UInt32.ofNat n))) a = n := by
  unfold discarded
  rw [u32_wr, UInt32.toNat_ofNat']
  exact Nat.mod_eq_of_lt h

/-! ### What a message can change -/

variable {dbg : Bool} {m : Mem} {a : Nat} {e : Entry}

/-- C139: whatever the header says that was adopted, a message changes no byte but the two counters of the header and bytes of the region that the header gives to messages. -/
theorem add_confined {x : Nat} (hx : (add dbg m a e).2 x ≠ m x) :
    (a + 20 ≤ x ∧ x < a + 28) ∨ (a + bufOffset m a ≤ x ∧ x < a + bufOffset m a + bufSize m a) := by
  unfold add at hx
  have hcur : wr m (a + 20) (le32 (UInt32.ofNat (current m a + e.size))) x ≠ m x → a + 20 ≤ x ∧ x < a + 28 := by
    intro h
    apply Classical.byContradiction
    intro hn
    exact h (wr_out (by rw [le32_len]; omega))
  split at hx
  · exact absurd rfl hx
  · split at hx
    · dsimp only at hx
      split at hx
      · exact Or.inl (hcur hx)
      · split at hx
        · rename_i hfit
          by_cases hin : a + bufOffset m a + (current m a + 2 ^ 32 - bufOffset m a) % 2 ^ 32 ≤ x ∧
              x < a + bufOffset m a + (current m a + 2 ^ 32 - bufOffset m a) % 2 ^ 32 + e.size
          · exact Or.inr ⟨by omega, by omega⟩
          · dsimp only at hx
            rw [wr_out (by rw [encode_length]; omega)] at hx
            exact Or.inl (hcur hx)
        · exact Or.inl (hcur hx)
    · dsimp only at hx
      refine Or.inl ?_
      apply Classical.byContradiction
      intro hn
      exact hx (wr_out (by rw [le32_len]; omega))

/-- C139: so the log stays one that can be adopted, with the same region for messages. -/
theorem add_keeps_log (h : adoptable m a = true) :
    adoptable (add dbg m a e).2 a = true ∧ bufOffset (add dbg m a e).2 a = bufOffset m a ∧ bufSize (add dbg m a e).2 a = bufSize m a := by
  have hoff : 80 ≤ bufOffset m a := by
    simp only [adoptable, Bool.and_eq_true, decide_eq_true_eq] at h; exact h.1.2
  have same : ∀ x, a ≤ x → x < a + 80 → (x < a + 20 ∨ a + 28 ≤ x) → (add dbg m a e).2 x = m x := by
    intro x h1 h2 h3
    apply Classical.byContradiction
    intro hn
    rcases add_confined hn with h4 | h4 <;> omega
  have h1 : u32 (add dbg m a e).2 a = u32 m a := u32_congr fun x p q => same x (by omega) (by omega) (by omega)
  have h2 : u16 (add dbg m a e).2 (a + 4) = u16 m (a + 4) := u16_congr fun x p q => same x (by omega) (by omega) (by omega)
  have h3 : bufOffset (add dbg m a e).2 a = bufOffset m a := bufOffset_congr fun x p q => same x (by omega) (by omega) (by omega)
  have h4 : bufSize (add dbg m a e).2 a = bufSize m a := bufSize_congr fun x p q => same x (by omega) (by omega) (by omega)
  refine ⟨?_, h3, h4⟩
  unfold adoptable at h ⊢
  rw [h1, h2, h3]; exact h

/-- A header whose numbers fit together: what `open_log` asks of one, memory_log.rs 159-172. -/
structure Consistent (m : Mem) (a : Nat) : Prop where
  header : 80 ≤ bufOffset m a
  above : bufOffset m a ≤ current m a
  below : current m a ≤ bufOffset m a + bufSize m a
  small : bufOffset m a + bufSize m a < 2 ^ 31

/-- C139: with such a header every message is either stored, whole, at the end of what is stored, and all that was stored before stays as it was; or it is refused for lack of space,
its size is added to the count of what was discarded, and nothing else changes. The header stays consistent. -/
theorem stored_or_counted (hc : Consistent m a) (he : e.size < 2 ^ 31) (hd : discarded m a + e.size < 2 ^ 32) :
    (current m a + e.size ≤ bufOffset m a + bufSize m a ∧ (add dbg m a e).1 = .ok () ∧ current (add dbg m a e).2 a = current m a + e.size ∧
        discarded (add dbg m a e).2 a = discarded m a ∧ Hob.Holds (add dbg m a e).2 (a + current m a) (encode e) ∧
        (∀ i, bufOffset m a ≤ i → i < current m a → (add dbg m a e).2 (a + i) = m (a + i)) ∧ Consistent (add dbg m a e).2 a) ∨
    (bufOffset m a + bufSize m a < current m a + e.size ∧ (add dbg m a e).1 = .err .outOfResources ∧ discarded (add dbg m a e).2 a = discarded m a + e.size ∧
        (∀ x, (x < a + 24 ∨ a + 28 ≤ x) → (add dbg m a e).2 x = m x) ∧ Consistent (add dbg m a e).2 a) := by
  obtain ⟨h1, h2, h3, h4⟩ := hc
  have p32 : (2 : Nat) ^ 32 = 4294967296 := rfl
  have p31 : (2 : Nat) ^ 31 = 2147483648 := rfl
  rw [p31] at h4 he; rw [p32] at hd
  by_cases hf : current m a + e.size ≤ bufOffset m a + bufSize m a
  · refine Or.inl ⟨hf, ?_⟩
    have hidx : (current m a + 2 ^ 32 - bufOffset m a) % 2 ^ 32 = current m a - bufOffset m a := by rw [p32]; omega
    have hadd : add dbg m a e =
        (.ok (), wr (wr m (a + 20) (le32 (UInt32.ofNat (current m a + e.size)))) (a + current m a) (encode e)) := by
      unfold add
      rw [if_neg (by rw [p32]; omega), if_pos (by rw [p32]; omega)]
      dsimp only
      rw [if_neg (by omega), hidx, if_pos (by omega)]
      congr 2
      omega
    rw [hadd]
    have hlow : ∀ x, x < a + 80 → (x < a + 20 ∨ a + 24 ≤ x) →
        wr (wr m (a + 20) (le32 (UInt32.ofNat (current m a + e.size)))) (a + current m a) (encode e) x = m x := by
      intro x p q
      rw [wr_out (by omega), wr_out (by rw [le32_len]; omega)]
    have hcur : current (wr (wr m (a + 20) (le32 (UInt32.ofNat (current m a + e.size)))) (a + current m a) (encode e)) a = current m a + e.size := by
      rw [current_congr (m' := wr m (a + 20) (le32 (UInt32.ofNat (current m a + e.size)))) fun x p q => wr_out (by omega), current_wr (by omega)]
    have hoff : bufOffset (wr (wr m (a + 20) (le32 (UInt32.ofNat (current m a + e.size)))) (a + current m a) (encode e)) a = bufOffset m a :=
      bufOffset_congr fun x p q => hlow x (by omega) (by omega)
    have hsize : bufSize (wr (wr m (a + 20) (le32 (UInt32.ofNat (current m a + e.size)))) (a + current m a) (encode e)) a = bufSize m a :=
      bufSize_congr fun x p q => hlow x (by omega) (by omega)
    refine ⟨rfl, hcur, discarded_congr (fun x p q => hlow x (by omega) (by omega)), holds_wr, ?_, ?_⟩
    · intro i p q
      dsimp only
      rw [wr_out (by omega), wr_out (by rw [le32_len]; omega)]
    · exact ⟨by rw [hoff]; exact h1, by rw [hoff, hcur]; omega, by rw [hoff, hsize, hcur]; exact hf, by rw [hoff, hsize, p31]; exact h4⟩
  · refine Or.inr ⟨by omega, ?_⟩
    have hadd : add dbg m a e = (.err .outOfResources, wr m (a + 24) (le32 (UInt32.ofNat (discarded m a + e.size)))) := by
      unfold add
      rw [if_neg (by rw [p32]; omega), if_neg (by rw [p32]; omega)]
    rw [hadd]
    have hx : ∀ x, (x < a + 24 ∨ a + 28 ≤ x) → wr m (a + 24) (le32 (UInt32.ofNat (discarded m a + e.size))) x = m x :=
      fun x hx => wr_out (by rw [le32_len]; omega)
    have hoff : bufOffset (wr m (a + 24) (le32 (UInt32.ofNat (discarded m a + e.size)))) a = bufOffset m a :=
      bufOffset_congr fun x p q => hx x (by omega)
    have hsize : bufSize (wr m (a + 24) (le32 (UInt32.ofNat (discarded m a + e.size)))) a = bufSize m a :=
      bufSize_congr fun x p q => hx x (by omega)
    have hcur : current (wr m (a + 24) (le32 (UInt32.ofNat (discarded m a + e.size)))) a = current m a :=
      current_congr fun x p q => hx x (by omega)
    refine ⟨rfl, ?_, hx, by rw [hoff]; exact h1, by rw [hoff, hcur]; exact h2, by rw [hoff, hsize, hcur]; exact h3, by rw [hoff, hsize, p31]; exact h4⟩
    exact discarded_wr (by omega)

/-- Several messages, one after the other. -/
def addAll (dbg : Bool) (a : Nat) (es : List Entry) (m : Mem) : Mem := es.foldl (fun m e => (add dbg m a e).2) m

/-- C139: from a consistent header on, every message of any sequence is accounted for: what the log grew by and what was counted as discarded are together the sizes of all of them,
and the header is still consistent. -/
theorem all_accounted : ∀ {es : List Entry} {m : Mem}, Consistent m a → (∀ e ∈ es, e.size < 2 ^ 31) → discarded m a + (es.map Entry.size).sum < 2 ^ 32 →
    Consistent (addAll dbg a es m) a ∧
      current (addAll dbg a es m) a + discarded (addAll dbg a es m) a = current m a + discarded m a + (es.map Entry.size).sum := by
  intro es
  induction es with
  | nil => intro m hc _ _; exact ⟨hc, by simp [addAll]⟩
  | cons e es ih =>
    intro m hc hs hd
    simp only [List.map_cons, List.sum_cons] at hd ⊢
    have hstep : addAll dbg a (e :: es) m = addAll dbg a es (add dbg m a e).2 := rfl
    rw [hstep]
    rcases stored_or_counted (dbg := dbg) hc (hs e List.mem_cons_self) (Nat.lt_of_le_of_lt (by omega) hd) with ⟨_, _, h3, h4, _, _, h7⟩ | ⟨_, _, h3, h4, h5⟩
    · obtain ⟨k1, k2⟩ := ih h7 (fun x hx => hs x (List.mem_cons_of_mem _ hx)) (by rw [h4]; exact Nat.lt_of_le_of_lt (by omega) hd)
      exact ⟨k1, by rw [k2, h3, h4]; omega⟩
    · obtain ⟨k1, k2⟩ := ih h5 (fun x hx => hs x (List.mem_cons_of_mem _ hx)) (by rw [h3]; exact Nat.lt_of_le_of_lt (by omega) hd)
      have hcur : current (add dbg m a e).2 a = current m a := current_congr fun x p q => h4 x (by omega)
      exact ⟨k1, by rw [k2, h3, hcur]; omega⟩

/-- C139, finding: a log whose place for the next message lies before the place of the messages is adopted all the same. Each message is then lost: it is not stored and not counted as
discarded, though the place moves on; with overflow checks the logger panics. The same bytes are refused by the reader of logs (`open_log`). -/
theorem lost_uncounted (h : current m a < bufOffset m a) (hs : bufOffset m a + bufSize m a < 2 ^ 32) (hf : current m a + e.size ≤ bufOffset m a + bufSize m a) :
    (add false m a e).1 = .err .bufferTooSmall ∧ (∀ x, (x < a + 20 ∨ a + 24 ≤ x) → (add false m a e).2 x = m x) ∧ discarded (add false m a e).2 a = discarded m a ∧
      (add true m a e).1 = .panic := by
  have p32 : (2 : Nat) ^ 32 = 4294967296 := rfl
  rw [p32] at hs
  have hadd : add false m a e = (.err .bufferTooSmall, wr m (a + 20) (le32 (UInt32.ofNat (current m a + e.size)))) := by
    unfold add
    rw [if_neg (by simp), if_pos (by rw [p32]; omega)]
    dsimp only
    rw [if_neg (by simp), if_neg (by rw [p32]; omega)]
  have hx : ∀ x, (x < a + 20 ∨ a + 24 ≤ x) → wr m (a + 20) (le32 (UInt32.ofNat (current m a + e.size))) x = m x :=
    fun x hx => wr_out (by rw [le32_len]; omega)
  rw [hadd]
  refine ⟨rfl, hx, discarded_congr (fun x p q => hx x (by omega)), ?_⟩
  unfold add
  rw [if_neg (by rw [p32]; omega), if_pos (by rw [p32]; omega)]
  dsimp only
  rw [if_pos ⟨rfl, h⟩]

/-! ### Where the log comes from -/

/-- A HOB that names a log. -/
def IsLog : Hob.Item → Prop
  | .guid h _ => h.name = NAME
  | _ => False

theorem rd_take {m : Mem} : ∀ {k n a : Nat}, k ≤ n → (rd m a n).take k = rd m a k
  | 0, _, _, _ => by simp [rd]
  | k + 1, 0, _, h => by omega
  | k + 1, n + 1, a, h => by
    show (m a :: rd m (a + 1) n).take (k + 1) = m a :: rd m (a + 1) k
    rw [List.take_succ_cons, rd_take (by omega)]

theorem guid_item {h : Hob.GuidHob} {data : List UInt8} (hh : Hob.Holds m a (Hob.Item.guid h data).bytes) (hw : (Hob.Item.guid h data).Typed) :
    Hob.guid m (a + 8) = h.name ∧ rd m (a + 24) data.length = data := by
  have := Hob.view_hobAt hh hw
  simp only [Hob.Item.hobAt, Hob.view, Hob.Item.seen, Hob.View.guid.injEq] at this
  exact ⟨by rw [← this.1]; rfl, this.2⟩

theorem find_skip {x : Hob.Item} {xs : List Hob.Item} {end_ : Hob.Header} {fuel : Nat} (h : Hob.ListAt m a (x :: xs) end_) (hx : ¬ IsLog x) :
    findLog dbg m (fuel + 1) a = findLog dbg m fuel (a + x.bytes.length) := by
  obtain ⟨ht, hh, hw, hin⟩ := Hob.listAt_tail h
  have hhd := Hob.readHeader_cons h
  have hend : ¬ (Hob.readHeader m a).type = Hob.END_OF_HOB_LIST := by
    rw [hhd]
    cases x with
    | other d p =>
      have := hw.1
      simp only [Hob.Item.Typed, Hob.knownTypes, List.mem_cons, not_or, List.not_mem_nil] at this
      simp only [Hob.Item.header, Hob.END_OF_HOB_LIST, this, not_false_eq_true]
    | _ =>
      have := hw.1
      simp only [Hob.Item.Typed] at this
      simp [Hob.Item.header, Hob.END_OF_HOB_LIST, this]
  rw [findLog, if_neg hend, Hob.iterOne_item hh hw]
  have hn : Hob.nextAddr dbg a (Hob.readHeader m a) = .ok (a + x.bytes.length) := by
    rw [hhd]; exact Hob.nextAddr_item hw hin
  cases x with
  | guid d data =>
    have hg := guid_item hh hw.1
    simp only [Hob.Item.iterAt, Hob.Item.hobAt, Hob.Res.bind]
    rw [if_neg (by rw [hg.1]; exact hx), hn]
  | _ => simp only [Hob.Item.iterAt, Hob.Item.hobAt, Hob.Res.bind, hn]

theorem find_none {end_ : Hob.Header} : ∀ {xs : List Hob.Item} {a fuel : Nat}, Hob.ListAt m a xs end_ → (∀ x ∈ xs, ¬ IsLog x) → xs.length < fuel →
    findLog dbg m fuel a = .ok none := by
  intro xs
  induction xs with
  | nil =>
    intro a fuel h _ hf
    cases fuel with
    | zero => cases hf
    | succ n => rw [findLog, if_pos (by rw [Hob.listAt_nil h]; exact h.isEnd)]
  | cons x xs ih =>
    intro a fuel h hn hf
    cases fuel with
    | zero => cases hf
    | succ n =>
      rw [find_skip h (hn x List.mem_cons_self)]
      exact ih (Hob.listAt_tail h).1 (fun y hy => hn y (List.mem_cons_of_mem _ hy)) (by simpa using hf)

theorem find_first {h : Hob.GuidHob} {data : List UInt8} {post : List Hob.Item} {end_ : Hob.Header} (hname : h.name = NAME) : ∀ {pre : List Hob.Item} {a fuel : Nat},
    Hob.ListAt m a (pre ++ .guid h data :: post) end_ → (∀ x ∈ pre, ¬ IsLog x) → pre.length < fuel →
    ∃ d, findLog dbg m fuel a = .ok (some d) ∧ rd m d data.length = data := by
  intro pre
  induction pre with
  | nil =>
    intro a fuel hl _ hf
    cases fuel with
    | zero => cases hf
    | succ n =>
      obtain ⟨_, hh, hw, _⟩ := Hob.listAt_tail hl
      have hg := guid_item hh hw.1
      refine ⟨a + 24, ?_, hg.2⟩
      have hend : ¬ (Hob.readHeader m a).type = Hob.END_OF_HOB_LIST := by
        rw [Hob.readHeader_cons hl]
        have := hw.1
        simp only [Hob.Item.Typed] at this
        simp [Hob.Item.header, Hob.END_OF_HOB_LIST, this]
      rw [findLog, if_neg hend, Hob.iterOne_item hh hw]
      simp only [Hob.Item.iterAt, Hob.Item.hobAt, Hob.Res.bind]
      rw [if_pos (hg.1.trans hname)]
  | cons x pre ih =>
    intro a fuel hl hn hf
    cases fuel with
    | zero => cases hf
    | succ n =>
      rw [find_skip hl (hn x List.mem_cons_self)]
      exact ih (Hob.listAt_tail hl).1 (fun y hy => hn y (List.mem_cons_of_mem _ hy)) (by simpa using hf)

variable {freq : UInt64} {s : State} {p fuel : Nat} {end_ : Hob.Header}

/-- C139: without a HOB for a log nothing is adopted and the caller is told. -/
theorem no_log {xs : List Hob.Item} (hl : Hob.ListAt s.mem p xs end_) (hn : ∀ x ∈ xs, ¬ IsLog x) (hf : xs.length < fuel) :
    init dbg freq fuel s p = .ok (.error .notFound, s) := by
  unfold init
  rw [if_neg hl.notNull, find_none hl hn hf]; rfl

/-- What the first HOB for a log says: its address. -/
def addressOf (data : List UInt8) : Nat := leVal (data.take 8)

/-- C139: the log is the one that the first HOB for a log names, wherever in the list it is. If it can be adopted it is, its contents stay as they are, and its clock has a rate; no other
byte of memory changes. If not, nothing changes. The caller is told of success in both cases. -/
theorem first_log {pre post : List Hob.Item} {h : Hob.GuidHob} {data : List UInt8} (hl : Hob.ListAt s.mem p (pre ++ .guid h data :: post) end_) (hname : h.name = NAME)
    (hpre : ∀ x ∈ pre, ¬ IsLog x) (hf : pre.length < fuel) (hdata : 8 ≤ data.length) (hnew : s.log = none) :
    ∃ s', init dbg freq fuel s p = .ok (.ok (), s') ∧
      (adoptable s.mem (addressOf data) = true → s'.log = some (addressOf data) ∧
        (∀ x, (x < addressOf data + 40 ∨ addressOf data + 48 ≤ x) → s'.mem x = s.mem x) ∧
        (frequency s.mem (addressOf data) ≠ 0 → s'.mem = s.mem) ∧ (freq ≠ 0 → frequency s'.mem (addressOf data) ≠ 0)) ∧
      (adoptable s.mem (addressOf data) = false → s' = s) := by
  obtain ⟨d, hd, hrd⟩ := find_first (dbg := dbg) hname hl hpre hf
  have haddr : (u64 s.mem d).toNat = addressOf data := by
    unfold u64 addressOf
    rw [← rd_take (m := s.mem) (n := data.length) hdata, hrd, UInt64.toNat_ofNat']
    apply Nat.mod_eq_of_lt
    have := leVal_lt (data.take 8)
    have hlen : (data.take 8).length = 8 := by rw [List.length_take]; omega
    rw [hlen] at this
    exact this
  unfold init
  rw [if_neg hl.notNull, hd]
  simp only [Hob.Res.bind]
  rw [haddr]
  unfold setLogInfo
  rw [if_neg (by rw [hnew]; simp)]
  by_cases ha : adoptable s.mem (addressOf data) = true
  · rw [if_pos ha]
    refine ⟨_, rfl, fun _ => ⟨rfl, ?_, ?_, ?_⟩, fun hc => by rw [ha] at hc; cases hc⟩
    · intro x hx
      dsimp only
      split
      · exact wr_out (by rw [le64_len]; omega)
      · rfl
    · intro hne
      dsimp only
      rw [if_neg hne]
    · intro hfr
      dsimp only
      split
      · unfold frequency
        rw [u64_wr]
        intro h0
        exact hfr (UInt64.toNat_inj.1 h0)
      · assumption
  · rw [if_neg ha]
    exact ⟨s, rfl, fun hc => absurd hc ha, fun _ => rfl⟩

/-- C139: a second log is never taken in place of the first: the logger panics. -/
theorem second_log_panics {pre post : List Hob.Item} {h : Hob.GuidHob} {data : List UInt8} (hl : Hob.ListAt s.mem p (pre ++ .guid h data :: post) end_) (hname : h.name = NAME)
    (hpre : ∀ x ∈ pre, ¬ IsLog x) (hf : pre.length < fuel) {a : Nat} (hlog : s.log = some a) : init dbg freq fuel s p = .panic := by
  obtain ⟨d, hd, _⟩ := find_first (dbg := dbg) hname hl hpre hf
  unfold init
  rw [if_neg hl.notNull, hd]
  simp only [Hob.Res.bind]
  unfold setLogInfo
  rw [if_pos (by rw [hlog]; rfl)]

/-- C139: the protocol is offered only with the address of an adopted log. -/
theorem protocol_has_log {installs : Bool} : (∀ a, entryPoint installs s = .ok a ↔ installs = true ∧ s.log = some a) ∧ (s.log = none → entryPoint installs s = .error .notStarted) := by
  unfold entryPoint
  constructor
  · intro a
    cases hl : s.log with
    | none => simp
    | some b => cases installs <;> simp
  · intro h; rw [h]

/-! ### Concrete cases -/

/-- The header of a log: the place for the next message, and the number of bytes for messages. -/
def logBytes (cur size : UInt32) : List UInt8 :=
  le32 0x474F4C41 ++ Hob.le16 5 ++ List.replicate 6 0 ++ le32 80 ++ le32 0 ++ le32 cur ++ le32 0 ++ le32 size ++ List.replicate 48 0

/-- A list with a HOB of another name before the one for the log at 0x8000, and one for another log behind it. -/
def items : List Hob.Item :=
  [.handoff Hob.Witness.phit, .guid Hob.Witness.guidHob [1, 2, 3, 4, 5, 6, 7, 8]] ++ .guid ⟨⟨4, 32, 0⟩, NAME⟩ [0, 0x80, 0, 0, 0, 0, 0, 0] ::
    [.guid ⟨⟨4, 32, 0⟩, NAME⟩ [0, 0x90, 0, 0, 0, 0, 0, 0]]

def demo (log : List UInt8) : Mem := fun x =>
  if x < 0x8000 then Hob.Witness.memOf 0x1000 (Hob.itemsBytes items ++ Hob.Witness.endOf.bytes) x else Hob.Witness.memOf 0x8000 log x

theorem demo_listAt (log : List UInt8) : Hob.ListAt (demo log) 0x1000 items Hob.Witness.endOf where
  notNull := by decide
  holds := by
    intro i b hb
    have hlen : (Hob.itemsBytes items ++ Hob.Witness.endOf.bytes).length = 160 := by decide +kernel
    have hi := (List.getElem?_eq_some_iff.1 hb).1
    unfold demo
    rw [if_pos (by omega)]
    exact Hob.Witness.holds_memOf _ _ i b hb
  inMemory := by decide +kernel
  wellFormed := by
    intro x hx
    simp only [items, List.mem_cons, List.not_mem_nil, or_false, List.cons_append, List.nil_append] at hx
    rcases hx with rfl | rfl | rfl | rfl <;>
      refine ⟨?_, by decide +kernel⟩ <;> simp [Hob.Item.Typed, Hob.Witness.phit, Hob.Witness.guidHob, Hob.Witness.name, NAME]
  isEnd := rfl

theorem demo_pre : ∀ x ∈ [Hob.Item.handoff Hob.Witness.phit, .guid Hob.Witness.guidHob [1, 2, 3, 4, 5, 6, 7, 8]], ¬ IsLog x := by
  intro x hx
  simp only [List.mem_cons, List.not_mem_nil, or_false] at hx
  rcases hx with rfl | rfl
  · exact fun h => h
  · show ¬ (Hob.Witness.name = NAME); decide

/-- The log of the first of the two HOBs is adopted. -/
example : ∃ s', init true 1000 10 ⟨demo (logBytes 80 256), none⟩ 0x1000 = .ok (.ok (), s') ∧ s'.log = some 0x8000 ∧ frequency s'.mem 0x8000 ≠ 0 := by
  obtain ⟨s', h1, h2, _⟩ := first_log (dbg := true) (freq := 1000) (s := ⟨demo (logBytes 80 256), none⟩) (fuel := 10) (demo_listAt _) rfl demo_pre (by decide) (by decide) rfl
  have h := h2 (by decide +kernel)
  exact ⟨s', h1, h.1, h.2.2.2 (by decide)⟩

/-- C139, finding: success is reported though there is no log at the address: the logger has none, and the component is later refused. -/
theorem success_without_log : init false 1000 10 ⟨demo [], none⟩ 0x1000 = .ok (.ok (), ⟨demo [], none⟩) ∧
    entryPoint true ⟨demo [], none⟩ = .error .notStarted := by
  obtain ⟨s', h1, _, h2⟩ := first_log (dbg := false) (freq := 1000) (s := ⟨demo [], none⟩) (fuel := 10) (demo_listAt _) rfl demo_pre (by decide) (by decide) rfl
  rw [h1, h2 (by decide +kernel)]
  exact ⟨rfl, rfl⟩

/-- A consistent header, with room for one message of 10 bytes and no more. -/
example : Consistent (demo (logBytes 80 50)) 0x8000 := ⟨by decide +kernel, by decide +kernel, by decide +kernel, by decide +kernel⟩

example : (add true (demo (logBytes 80 50)) 0x8000 ⟨4, 2, 3, List.replicate 10 65⟩).1 = .ok () ∧
    (add true (add true (demo (logBytes 80 50)) 0x8000 ⟨4, 2, 3, List.replicate 10 65⟩).2 0x8000 ⟨4, 2, 3, [66]⟩).1 = .err .outOfResources := by decide +kernel

/-- C139, finding: a header that is adopted and loses its messages (`lost_uncounted`); the reader of logs refuses it. -/
theorem bad_header_adopted : adoptable (demo (logBytes 0 256)) 0x8000 = true ∧ current (demo (logBytes 0 256)) 0x8000 < bufOffset (demo (logBytes 0 256)) 0x8000 ∧
    (add false (demo (logBytes 0 256)) 0x8000 ⟨4, 2, 3, [66]⟩).1 = .err .bufferTooSmall ∧
    Log.Parser.openLog false ⟨0x474F4C41, 5, 80, 0, 256, 0⟩ 336 = .err .invalidParameter := by
  refine ⟨by decide +kernel, by decide +kernel, ?_, by decide +kernel⟩
  exact (lost_uncounted (by decide +kernel) (by decide +kernel) (by decide +kernel)).1

end Verif.AdvLog.Adopt
