import Verif.Log.Parser
import Verif.Log.LoggerProps

/-!
# Properties of the parser of logs (C112)
-/

namespace Verif.Log.Parser

open Verif.AdvLog (Entry)

/-- An output that takes all it is given. -/
def Out.Takes (o : Out) : Prop := ∀ d, o.takes d = some d.length

/-- Each entry with the one before it. -/
def withBefore (es : List Entry) : List (Option Entry × Entry) := (none :: es.map some).zip es

/-- An entry begins a line of the output: it is the first, the entry before it ended its line, or the entry before it
comes from another phase of the boot. -/
def BeginsLine (before : Option Entry) (e : Entry) : Prop :=
  ∀ b, before = some b → b.data.getLast? = some 10 ∨ b.phase ≠ e.phase

instance (b : Option Entry) (e : Entry) : Decidable (BeginsLine b e) := by
  unfold BeginsLine
  cases b with
  | none => exact .isTrue (fun _ h => nomatch h)
  | some b =>
    exact decidable_of_iff (b.data.getLast? = some 10 ∨ b.phase ≠ e.phase)
      ⟨fun h _ hb => by injection hb with hb; exact hb ▸ h, fun h => h b rfl⟩

/-- The frequency is known and at least 1000, or not known at all. -/
def GoodFrequency (f : Nat) : Prop := f = 0 ∨ 1000 ≤ f

theorem timeText_some {f : Nat} (h : GoodFrequency f) (t : Nat) : ∃ l, timeText t f = some l := by
  unfold timeText
  split
  · exact ⟨_, rfl⟩
  · rename_i h0
    have : f / 1000 ≠ 0 := by unfold GoodFrequency at h; omega
    unfold clockOf
    rw [if_neg this]
    exact ⟨_, rfl⟩

/-- The metadata of an entry, when there is no panic. -/
def metaBytes (f : Nat) (e : Entry) : List UInt8 := (metaText f e).getD []

theorem metaText_eq {f : Nat} (h : GoodFrequency f) (e : Entry) : metaText f e = some (metaBytes f e) := by
  obtain ⟨l, hl⟩ := timeText_some h e.timestamp
  unfold metaBytes metaText
  rw [hl]
  rfl

theorem write_takes {o : Out} (h : o.Takes) (d : List UInt8) : o.write d = some { o with got := o.got ++ d } := by
  unfold Out.write
  rw [h d, Option.map_some, List.take_length]

/-- What the entry adds to the output. -/
def piece (withMeta : Bool) (f : Nat) (p : Option Entry × Entry) : List UInt8 :=
  (if withMeta ∧ BeginsLine p.1 p.2 then metaBytes f p.2 else []) ++ p.2.data

theorem carry_iff (b : Entry) (e : Entry) :
    dropOther (carryOf b) e = none ↔ BeginsLine (some b) e := by
  unfold dropOther carryOf BeginsLine
  by_cases h1 : b.data.getLast? = some 10
  · simp [h1]
  · by_cases h2 : b.phase = e.phase <;> simp [h1, h2]

theorem writeEntry_eq {withMeta : Bool} {f : Nat} {carry before : Option Entry} {e : Entry} {o : Out} (ho : o.Takes)
    (hf : withMeta = true → GoodFrequency f) (hc : before.bind carryOf = carry) :
    writeEntry withMeta f carry e o = .done { o with got := o.got ++ piece withMeta f (before, e) } := by
  unfold writeEntry piece
  have hcond : dropOther carry e = none ↔ BeginsLine before e := by
    subst hc
    cases before with
    | none =>
      constructor
      · intro _ b hb
        cases hb
      · intro _
        rfl
    | some b => exact carry_iff b e
  simp only [hcond]
  split
  · rename_i h
    rw [metaText_eq (hf h.1)]
    simp only [write_takes ho]
    rw [write_takes (o := ⟨o.got ++ metaBytes f e, o.takes⟩) (fun d => ho d)]
    simp
  · rw [write_takes ho]
    simp

theorem writeEntries_eq {withMeta : Bool} {f : Nat} (hf : withMeta = true → GoodFrequency f) :
    ∀ (es : List Entry) (before carry : Option Entry) (o : Out), o.Takes → before.bind carryOf = carry →
      writeEntries withMeta f carry es o =
        .done { o with got := o.got ++ ((before :: es.map some).zip es).flatMap (piece withMeta f) } := by
  intro es
  induction es with
  | nil => intro before carry o _ _; simp [writeEntries]
  | cons e es ih =>
    intro before carry o ho hc
    rw [writeEntries, writeEntry_eq ho hf hc]
    simp only []
    rw [ih (some e) (carryOf e) ⟨o.got ++ piece withMeta f (before, e), o.takes⟩ (fun d => ho d) rfl]
    simp

/-- C112 (partial): the text of a log is that of its entries in order: before the text of an entry that begins a line
there are its level, its phase and its time, when they are asked for, and nothing else is added or left out.  Missing: an
output that takes only a part of a write (the rest is lost), and frequencies below 1000 (a panic). -/
theorem log_text_partial (withMeta : Bool) (h : Header) (bytes : List UInt8) (o : Out) (ho : o.Takes)
    (hf : withMeta = true → GoodFrequency h.frequency) :
    writeLog withMeta h bytes o = .done { o with
      got := o.got ++ (withBefore (entriesIn h bytes)).flatMap (piece withMeta h.frequency) } :=
  writeEntries_eq hf _ none none o ho rfl

theorem plain_pieces (f : Nat) (es : List Entry) (before : Option Entry) :
    ((before :: es.map some).zip es).flatMap (piece false f) = (es.map (·.data)).flatten := by
  induction es generalizing before with
  | nil => rfl
  | cons e es ih =>
    rw [List.map_cons, List.zip_cons_cons, List.flatMap_cons, ih]
    simp [piece]

/-- C112: without metadata the text of a log is exactly the messages, one after the other, whatever the frequency. -/
theorem plain_log_text (h : Header) (bytes : List UInt8) (o : Out) (ho : o.Takes) :
    writeLog false h bytes o = .done { o with got := o.got ++ ((entriesIn h bytes).map (·.data)).flatten } := by
  rw [log_text_partial false h bytes o ho (fun c => nomatch c)]
  unfold withBefore
  rw [plain_pieces]

/-- C112 (finding): with metadata, a log with a frequency between 1 and 999 makes the parser panic as soon as it has an
entry. -/
theorem low_frequency_panics (h : Header) (bytes : List UInt8) (o : Out) (hf : 0 < h.frequency ∧ h.frequency < 1000)
    (hne : entriesIn h bytes ≠ []) : writeLog true h bytes o = .panics := by
  unfold writeLog
  cases he : entriesIn h bytes with
  | nil => exact absurd he hne
  | cons e es =>
    have h0 : h.frequency ≠ 0 := by omega
    have h1 : h.frequency / 1000 = 0 := by omega
    have hm : metaText h.frequency e = none := by
      unfold metaText timeText clockOf
      rw [if_neg h0, if_pos h1]
      rfl
    rw [writeEntries]
    unfold writeEntry
    rw [if_pos ⟨rfl, rfl⟩, hm]

/-- C112 (finding): an output that takes only a part of what it is given, as a pipe may, gets a part of the log, and
success is reported: here an output that takes one byte of each write. -/
theorem short_writes_lose (h : Header) (bytes : List UInt8) (o : Out) (ho : ∀ d, o.takes d = some (min 1 d.length)) :
    writeLog false h bytes o = .done { o with got := o.got ++ ((entriesIn h bytes).map (·.data.take 1)).flatten } := by
  have hw : ∀ (o : Out), (∀ d, o.takes d = some (min 1 d.length)) → ∀ d,
      o.write d = some { o with got := o.got ++ d.take 1 } := by
    intro o ho d
    unfold Out.write
    rw [ho d, Option.map_some]
    cases d <;> simp
  unfold writeLog
  generalize entriesIn h bytes = es
  suffices ∀ (es : List Entry) (carry : Option Entry) (o : Out), (∀ d, o.takes d = some (min 1 d.length)) →
      writeEntries false h.frequency carry es o =
        .done { o with got := o.got ++ (es.map (·.data.take 1)).flatten } from this es none o ho
  intro es
  induction es with
  | nil => intro carry o _; simp [writeEntries]
  | cons e es ih =>
    intro carry o ho
    rw [writeEntries]
    have : writeEntry false h.frequency carry e o = .done { o with got := o.got ++ e.data.take 1 } := by
      unfold writeEntry
      simp [hw o ho]
    rw [this]
    simp only []
    rw [ih _ ⟨o.got ++ e.data.take 1, o.takes⟩ (fun d => ho d)]
    simp

/-! ## Times -/

/-- A time of day in milliseconds. -/
def Clock.inMs (c : Clock) : Nat := ((c.hours * 60 + c.minutes) * 60 + c.seconds) * 1000 + c.milliseconds

/-- C112: the fields of a time are in range, and together they are the time since the start in milliseconds, modulo a
day. -/
theorem clock_value (t f : Nat) (hf : 1000 ≤ f) :
    ∃ c, clockOf t f = some c ∧ c.milliseconds < 1000 ∧ c.seconds < 60 ∧ c.minutes < 60 ∧ c.hours < 24 ∧
      c.inMs = t / (f / 1000) % 86400000 := by
  unfold clockOf
  rw [if_neg (by omega)]
  refine ⟨_, rfl, ?_, ?_, ?_, ?_, ?_⟩ <;> simp only [Clock.inMs] <;> omega

/-- C112: for a frequency that is a multiple of 1000 and less than a day after the start, the time is the exact time,
rounded down to a millisecond. -/
theorem clock_exact (t f : Nat) (hf : 0 < f) (hm : f % 1000 = 0) (hday : t < 86400 * f) :
    ∃ c, clockOf t f = some c ∧ c.inMs = t * 1000 / f := by
  obtain ⟨k, rfl⟩ := Nat.dvd_of_mod_eq_zero hm
  have hk : 0 < k := by omega
  obtain ⟨c, h1, -, -, -, -, h2⟩ := clock_value t (1000 * k) (by omega)
  refine ⟨c, h1, ?_⟩
  rw [h2, Nat.mul_div_cancel_left _ (by decide), Nat.mul_comm t, Nat.mul_div_mul_left _ _ (by decide)]
  apply Nat.mod_eq_of_lt
  rw [Nat.div_lt_iff_lt_mul hk]
  calc t < 86400 * (1000 * k) := hday
    _ = 86400000 * k := by omega

/-- C112 (finding): for other frequencies the time runs fast: with 1999 ticks a second, a second is shown as almost two;
and after a day the time begins again. -/
theorem clock_runs_fast :
    clockOf 1999 1999 = some ⟨0, 0, 1, 999⟩ ∧ clockOf (86400 * 1000000) 1000000 = some ⟨0, 0, 0, 0⟩ := by
  decide +kernel

/-! ## Opening -/

/-- C112: a log that is opened is inside the bytes given: its entries begin behind the header and end at or before the
end of the bytes and of the log's buffer.  Bytes of less than 4 GiB. -/
theorem opened_log_inside (dbg : Bool) (h : Header) (len : Nat) (hl : len < 2 ^ 32)
    (ho : openLog dbg h len = .ok ()) :
    h.signature = 0x474F4C41 ∧ h.version = 5 ∧ headerSize ≤ h.bufOffset ∧ h.bufOffset ≤ h.current ∧ h.current ≤ len := by
  unfold openLog at ho
  repeat (split at ho; first | cases ho | skip)
  rw [Nat.mod_eq_of_lt hl] at *
  refine ⟨?_, ?_, ?_, ?_, ?_⟩ <;> omega

/-- C112: opening bytes that are no log never panics, if the fields of the header do not overflow. -/
theorem open_never_panics (dbg : Bool) (h : Header) (len : Nat) (hl : len < 2 ^ 32)
    (hf : h.bufOffset + h.bufSize < 2 ^ 32) : openLog dbg h len ≠ .panic := by
  unfold openLog
  intro hc
  rw [Nat.mod_eq_of_lt hl] at hc
  repeat (split at hc; first | omega | cases hc | skip)
  cases hc

/-- C112 (finding): in a debug build a header whose offset and size overflow makes the parser panic; what is in the file
decides. -/
theorem open_overflow_panics (h : Header) (len : Nat) (hl : headerSize ≤ len) (hs : h.signature = 0x474F4C41)
    (hv : h.version = 5) (hc : h.bufOffset ≤ h.current) (hf : 2 ^ 32 ≤ h.bufOffset + h.bufSize) :
    openLog true h len = .panic := by
  unfold openLog
  rw [if_neg (by omega), if_neg (by simp [hs]), if_neg (by simp [hv]), if_neg (by omega), if_pos ⟨rfl, hf⟩]

/-! ## Names -/

/-- C112: the name of a level is that of the most severe level in it; the levels the logger writes have their names. -/
theorem level_names :
    (∀ l, l &&& 0x80000000 ≠ 0 → levelName l = "ERR") ∧ levelName 0x80000000 = "ERR" ∧ levelName 2 = "WARN" ∧
      levelName 0x40 = "INFO" ∧ levelName 0x400000 = "VERB" ∧ levelName 0 = "UNKN" :=
  ⟨fun _ h => if_pos h, rfl, rfl, rfl, rfl, rfl⟩

/-- C112: the level a record is logged with is the one the parser shows; trace and debug are shown alike. -/
theorem logged_level_shown (l : Level) :
    levelName l.debugLevel.toNat = match l with
      | .error => "ERR"
      | .warn => "WARN"
      | .info => "INFO"
      | .debug => "VERB"
      | .trace => "VERB" := by
  cases l <;> decide

/-- C112: the names of the phases differ. -/
theorem phase_names_differ : ∀ p q : Fin 12, phaseName p = phaseName q → p = q := by decide

/-! ## A line from the logger to the parser -/

/-- Only the first entry of an unfinished line gets metadata: entries of one phase whose texts make one line, the newline at
its end. -/
theorem one_line {f : Nat} : ∀ (es : List Entry) (b : Entry), (∀ e ∈ es, e.phase = b.phase) →
    (∀ e ∈ b :: es.dropLast, e.data.getLast? ≠ some 10) →
    ((some b :: es.map some).zip es).flatMap (piece true f) = (es.map (·.data)).flatten := by
  intro es
  induction es with
  | nil => intro b _ _; rfl
  | cons e es ih =>
    intro b hp hn
    have hb : ¬ BeginsLine (some b) e := by
      intro h
      rcases h b rfl with h | h
      · exact hn b (by simp) h
      · exact h (hp e (by simp)).symm
    rw [List.map_cons, List.zip_cons_cons, List.flatMap_cons]
    have hrest : ((some e :: es.map some).zip es).flatMap (piece true f) = (es.map (·.data)).flatten := by
      cases es with
      | nil => rfl
      | cons e' es =>
        refine ih e ?_ ?_
        · intro x hx
          rw [hp x (by simp [hx]), hp e (by simp)]
        · intro x hx
          exact hn x (by rw [List.dropLast_cons_cons]; simp at hx ⊢; exact .inr hx)
    rw [hrest]
    simp [piece, hb]

/-- C112: a record whose line has its newline at the end only, logged into an empty log with room, is printed as one line:
level, phase and time of its first entry once, then the line as it was. -/
theorem logged_line_printed (c : Config) (target : List Char) (l : Level) (pieces : List (List UInt8)) (s : Sinks)
    (m : MemLog) (he : c.enabled target l = true) (hm : s.mem = some m) (hempty : m.entries = [])
    (hroom : 32 * pieces.flatten.length ≤ m.room) (text : List UInt8) (hline : pieces.flatten = text ++ [10])
    (htext : 10 ∉ text) (f : Nat) (hf : GoodFrequency f) :
    ∃ m' e, (logAdvanced c target l pieces s).mem = some m' ∧ m'.entries.head? = some e ∧ e.phase = 4 ∧
      e.level = l.debugLevel.toNat ∧
      ∀ o : Out, o.Takes → writeEntries true f none m'.entries o =
        .done { o with got := o.got ++ metaBytes f e ++ text ++ [10] } := by
  obtain ⟨m', new, h1, h2, -, h4, h5⟩ := memory_gets_line c target l pieces s m he hm hroom
  rw [hempty, List.nil_append] at h2
  cases new with
  | nil => rw [hline] at h4; simp at h4
  | cons e es =>
    refine ⟨m', e, h1, by simp [h2], (h5 e (by simp)).1, (h5 e (by simp)).2.1, ?_⟩
    intro o ho
    rw [h2, writeEntries_eq (fun _ => hf) (e :: es) none none o ho rfl]
    rw [List.map_cons, List.zip_cons_cons, List.flatMap_cons]
    have hnl : ∀ x ∈ (e :: es).dropLast, x.data.getLast? ≠ some 10 := by
      intro x hx hc
      have hlast : (e :: es).dropLast ++ [(e :: es).getLast (by simp)] = e :: es := List.dropLast_concat_getLast _
      have hd : ((e :: es).dropLast.map (·.data)).flatten ++ ((e :: es).getLast (by simp)).data = text ++ [10] := by
        rw [← hline, ← h4]
        conv => rhs; rw [← hlast]
        simp only [List.map_append, List.flatten_append, List.map_cons, List.map_nil, List.flatten_cons, List.flatten_nil,
          List.append_nil]
      have hne := (h5 _ (List.getLast_mem (l := e :: es) (by simp))).2.2
      -- everything before the last entry is part of the text without newlines
      have hpre : ∀ b ∈ ((e :: es).dropLast.map (·.data)).flatten, b ∈ text := by
        intro b hb
        generalize hA : ((e :: es).dropLast.map (·.data)).flatten = A at hd hb
        generalize ((e :: es).getLast (by simp)).data = B at hd hne
        have hB : B = B.dropLast ++ [B.getLast hne] := (List.dropLast_concat_getLast hne).symm
        rw [hB, ← List.append_assoc] at hd
        have := (List.append_inj' hd rfl).1
        rw [← this]
        simp [hb]
      exact htext (hpre 10 (List.mem_flatten.2 ⟨x.data, List.mem_map.2 ⟨x, hx, rfl⟩, List.mem_of_getLast? hc⟩))
    have hrest : ((some e :: es.map some).zip es).flatMap (piece true f) = (es.map (·.data)).flatten := by
      cases es with
      | nil => rfl
      | cons e' es =>
        refine one_line _ _ ?_ ?_
        · intro x hx
          rw [(h5 x (by simp [hx])).1, (h5 e (by simp)).1]
        · intro x hx
          exact hnl x (by rw [List.dropLast_cons_cons]; exact hx)
    have hfirst : piece true f (none, e) = metaBytes f e ++ e.data := by
      unfold piece
      rw [if_pos ⟨rfl, fun b hb => nomatch hb⟩]
    rw [hrest, hfirst]
    have hall : e.data ++ (es.map (·.data)).flatten = text ++ [10] := by
      rw [← hline, ← h4]; rfl
    rw [List.append_assoc (metaBytes f e), hall]
    simp

/-! ## Concrete cases -/

/-- Two entries of a line, then one of another phase in the middle of a line. -/
def sample : List Entry :=
  [⟨4, 0x40, 1000, [65]⟩, ⟨4, 0x40, 2000, [66, 10]⟩, ⟨4, 2, 3000, [67]⟩, ⟨7, 2, 3001, [68, 10]⟩]

def quiet : Out := ⟨[], fun d => some d.length⟩

example : quiet.Takes := fun _ => rfl

/-- An empty log with room, and a record in three pieces that is printed from it. -/
def roomy : Sinks :=
  { port := [], mem := some { entries := [], room := 4096, discarded := 0, portDisabled := true, portLevels := 0 },
    clock := fun _ => 5000000, reads := 0 }

example : ∃ m' e, (logAdvanced ⟨[], 5⟩ "boot".toList .info [[65, 66], [67], [10]] roomy).mem = some m' ∧
    m'.entries.head? = some e ∧ e.phase = 4 ∧ e.level = Level.info.debugLevel.toNat ∧
    ∀ o : Out, o.Takes → writeEntries true 1000000 none m'.entries o =
      .done { o with got := o.got ++ metaBytes 1000000 e ++ [65, 66, 67] ++ [10] } :=
  logged_line_printed _ _ _ _ _ _ (by decide +kernel) rfl rfl (by decide) [65, 66, 67] rfl (by decide) _ (.inr (by decide))

/-- What the parser makes of the sample: the text of its metadata. -/
theorem sample_text :
    (match writeEntries true 1000000 none sample quiet with
      | .done o => some o.got
      | _ => none) =
    some (ascii "INFO |DXE     |00:00:00.001| AB\nWARN |DXE     |00:00:00.003| CWARN |MM      |00:00:00.003| D\n".toList) := by
  decide +kernel

/-- A log with one entry, as it is in a file (the header is given apart). -/
def oneEntry : List UInt8 := List.replicate 80 0 ++ AdvLog.encode ⟨4, 0x40, 1000, [65, 10]⟩

example : entriesIn ⟨0x474F4C41, 5, 80, 112, 4096, 100⟩ oneEntry = [⟨4, 0x40, 1000, [65, 10]⟩] := by decide +kernel
example : openLog true ⟨0x474F4C41, 5, 80, 112, 4096, 100⟩ oneEntry.length = .ok () := by decide +kernel
example : GoodFrequency 1000000 := .inr (by decide)
example : openLog true ⟨0x474F4C41, 5, 80, 112, 4096, 0⟩ 200 = .ok () := rfl
example : BeginsLine (some ⟨4, 0x40, 1, [65, 10]⟩) ⟨4, 2, 3, [67]⟩ := by decide
example : ¬ BeginsLine (some ⟨4, 0x40, 1, [65]⟩) ⟨4, 2, 3, [67]⟩ := by decide

end Verif.Log.Parser
