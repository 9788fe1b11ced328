import Verif.Log.Logger

/-!
# Properties of the loggers (C111)
-/

namespace Verif.Log

open Verif.AdvLog (Entry)

/-- The entries that a list of texts makes, one each, with the readings of the counter from `k` on. -/
def entriesOf (clock : Nat → Nat) (level : BitVec 32) : Nat → List (List UInt8) → List Entry
  | _, [] => []
  | k, d :: ds => { phase := 4, level := level.toNat, timestamp := clock k, data := d } :: entriesOf clock level (k + 1) ds

/-- The sinks after some texts were written, one after the other. -/
def Wrote (level : BitVec 32) (texts : List (List UInt8)) (s s' : Sinks) : Prop :=
  s'.clock = s.clock ∧
  match s.mem with
  | none => s'.mem = none ∧ s'.reads = s.reads ∧ s'.port = s.port ++ texts.flatten
  | some m =>
    s'.mem = some ((entriesOf s.clock level s.reads texts).foldl MemLog.add m) ∧ s'.reads = s.reads + texts.length ∧
      s'.port = s.port ++ (if m.portEnabled level then texts.flatten else [])

theorem add_header (m : MemLog) (e : Entry) :
    (m.add e).portDisabled = m.portDisabled ∧ (m.add e).portLevels = m.portLevels := by
  unfold MemLog.add; split <;> exact ⟨rfl, rfl⟩

theorem foldl_add_header (l : List Entry) (m : MemLog) :
    (l.foldl MemLog.add m).portDisabled = m.portDisabled ∧ (l.foldl MemLog.add m).portLevels = m.portLevels := by
  induction l generalizing m with
  | nil => exact ⟨rfl, rfl⟩
  | cons e l ih =>
    rw [List.foldl_cons]
    have h1 := ih (m.add e)
    have h2 := add_header m e
    exact ⟨h1.1.trans h2.1, h1.2.trans h2.2⟩

theorem portEnabled_foldl (l : List Entry) (m : MemLog) (level : BitVec 32) :
    (l.foldl MemLog.add m).portEnabled level = m.portEnabled level := by
  unfold MemLog.portEnabled
  rw [(foldl_add_header l m).1, (foldl_add_header l m).2]

theorem entriesOf_append (clock : Nat → Nat) (level : BitVec 32) (k : Nat) (a b : List (List UInt8)) :
    entriesOf clock level k (a ++ b) = entriesOf clock level k a ++ entriesOf clock level (k + a.length) b := by
  induction a generalizing k with
  | nil => simp [entriesOf]
  | cons d a ih =>
    simp only [List.cons_append, entriesOf, List.length_cons, ih]
    rw [show k + 1 + a.length = k + (a.length + 1) by omega]

theorem Wrote.refl (level : BitVec 32) (s : Sinks) : Wrote level [] s s := by
  refine ⟨rfl, ?_⟩
  cases h : s.mem with
  | none => exact ⟨rfl, rfl, by simp⟩
  | some m => exact ⟨rfl, rfl, by simp⟩

theorem Wrote.write {level : BitVec 32} {texts : List (List UInt8)} {s s' : Sinks} (h : Wrote level texts s s')
    (d : List UInt8) : Wrote level (texts ++ [d]) s (s'.logWrite level d) := by
  obtain ⟨hc, h⟩ := h
  unfold Wrote
  cases hm : s.mem with
  | none =>
    rw [hm] at h
    obtain ⟨h1, h2, h3⟩ := h
    simp only [Sinks.logWrite, h1]
    exact ⟨hc, trivial, h2, by rw [h3]; simp⟩
  | some m =>
    rw [hm] at h
    obtain ⟨h1, h2, h3⟩ := h
    simp only [Sinks.logWrite, h1]
    refine ⟨hc, ?_, by rw [h2]; simp; omega, ?_⟩
    · rw [entriesOf_append, List.foldl_append, hc, h2]
      rfl
    · rw [portEnabled_foldl, h3]
      cases m.portEnabled level <;> simp

/-- What the writer has done with some pieces: texts that are written, and bytes that wait. -/
structure Pending (level : BitVec 32) (done : List UInt8) (s : Sinks) (texts : List (List UInt8)) (w : Writer) :
    Prop where
  wrote : Wrote level texts s w.sinks
  bytes : texts.flatten ++ w.waiting = done
  short : w.waiting.length ≤ 128
  nonempty : ∀ t ∈ texts, t ≠ []

theorem Pending.flush {level : BitVec 32} {done : List UInt8} {s : Sinks} {texts : List (List UInt8)} {w : Writer}
    (h : Pending level done s texts w) : ∃ texts', Pending level done s texts' (w.flush level) ∧
      (w.flush level).waiting = [] := by
  unfold Writer.flush
  split
  · rename_i h0
    exact ⟨texts, h, List.eq_nil_of_length_eq_zero h0⟩
  · rename_i h0
    refine ⟨texts ++ [w.waiting], ⟨h.wrote.write _, by simp [← h.bytes], by simp, ?_⟩, rfl⟩
    intro t ht
    rcases List.mem_append.1 ht with ht | ht
    · exact h.nonempty t ht
    · rw [List.mem_singleton.1 ht]
      intro c
      rw [c] at h0
      exact h0 rfl

theorem Pending.writeStr {level : BitVec 32} {done : List UInt8} {s : Sinks} {texts : List (List UInt8)} {w : Writer}
    (h : Pending level done s texts w) (d : List UInt8) :
    ∃ texts', Pending level (done ++ d) s texts' (w.writeStr level d) := by
  unfold Writer.writeStr
  have hadd : ∀ texts (w : Writer), Pending level done s texts w → d.length ≤ 128 - w.waiting.length →
      Pending level (done ++ d) s texts { w with waiting := w.waiting ++ d } := fun texts w hp hl =>
    ⟨hp.wrote, by rw [← List.append_assoc, hp.bytes], by
      have := hp.short
      rw [List.length_append]; omega, hp.nonempty⟩
  split
  · rename_i hd
    split
    · obtain ⟨texts', hp, hw⟩ := h.flush
      exact ⟨texts', hadd _ _ hp (by rw [hw]; simp; omega)⟩
    · exact ⟨texts, hadd _ _ h (by omega)⟩
  · rename_i hd
    obtain ⟨texts', hp, hw⟩ := h.flush
    have hb := hp.bytes
    rw [hw, List.append_nil] at hb
    refine ⟨texts' ++ [d], ⟨hp.wrote.write d, ?_, by rw [hw]; simp, ?_⟩⟩
    · simp only [List.flatten_append, List.flatten_cons, List.flatten_nil, List.append_nil, hb, hw]
    · intro t ht
      rcases List.mem_append.1 ht with ht | ht
      · exact hp.nonempty t ht
      · rw [List.mem_singleton.1 ht]
        rintro rfl
        exact hd (by decide)

/-- What logging an enabled record does: its bytes are written in nonempty texts, in order. -/
theorem logAdvanced_wrote (c : Config) (target : List Char) (l : Level) (pieces : List (List UInt8)) (s : Sinks)
    (he : c.enabled target l = true) :
    ∃ texts, Wrote l.debugLevel texts s (logAdvanced c target l pieces s) ∧ texts.flatten = pieces.flatten ∧
      ∀ t ∈ texts, t ≠ [] := by
  unfold logAdvanced
  rw [if_pos he]
  have hfold : ∀ (ps : List (List UInt8)) (done : List UInt8) (texts : List (List UInt8)) (w : Writer),
      Pending l.debugLevel done s texts w → ∃ texts', Pending l.debugLevel (done ++ ps.flatten) s texts'
        (ps.foldl (fun w p => w.writeStr l.debugLevel p) w) := by
    intro ps
    induction ps with
    | nil => intro done texts w h; exact ⟨texts, by simpa using h⟩
    | cons p ps ih =>
      intro done texts w h
      obtain ⟨texts', h'⟩ := h.writeStr p
      obtain ⟨texts'', h''⟩ := ih _ _ _ h'
      exact ⟨texts'', by simpa using h''⟩
  obtain ⟨texts, h⟩ := hfold pieces [] [] { waiting := [], sinks := s }
    ⟨Wrote.refl _ _, by simp, by simp, by simp⟩
  obtain ⟨texts', h', hw⟩ := h.flush
  have hb := h'.bytes
  rw [hw, List.append_nil, List.nil_append] at hb
  exact ⟨texts', h'.wrote, hb, h'.nonempty⟩

/-- C111: the buffer of the writer, which has 128 bytes, never has to hold more, whatever pieces come. -/
theorem buffer_never_overrun (level : BitVec 32) (pieces : List (List UInt8)) (s : Sinks) :
    (pieces.foldl (fun (w : Writer) p => w.writeStr level p) ⟨[], s⟩).waiting.length ≤ 128 := by
  suffices ∀ (ps : List (List UInt8)) (done : List UInt8) (texts : List (List UInt8)) (w : Writer),
      Pending level done s texts w → (ps.foldl (fun (w : Writer) p => w.writeStr level p) w).waiting.length ≤ 128 from
    this pieces [] [] ⟨[], s⟩ ⟨Wrote.refl _ _, by simp, by simp, by simp⟩
  intro ps
  induction ps with
  | nil => intro done texts w h; exact h.short
  | cons p ps ih =>
    intro done texts w h
    obtain ⟨texts', h'⟩ := h.writeStr p
    exact ih _ _ _ h'

/-- C111: an enabled record reaches the port whole and in order, whatever pieces its line comes in: the port gets the
bytes of the line and nothing else, unless the header of the log in memory turns the port off for the level. -/
theorem port_gets_line (c : Config) (target : List Char) (l : Level) (pieces : List (List UInt8)) (s : Sinks)
    (he : c.enabled target l = true) :
    (logAdvanced c target l pieces s).port =
      s.port ++ (if (s.mem.map (·.portEnabled l.debugLevel)).getD true then pieces.flatten else []) := by
  obtain ⟨texts, ⟨-, h⟩, hb, -⟩ := logAdvanced_wrote c target l pieces s he
  cases hm : s.mem with
  | none => rw [hm] at h; rw [h.2.2, hb]; simp
  | some m => rw [hm] at h; rw [h.2.2, hb]; simp

/-- C111: a record that is not enabled leaves no trace; the serial logger writes an enabled record whole and in order,
so both loggers give the same output. -/
theorem serial_gets_line (c : Config) (target : List Char) (l : Level) (pieces : List (List UInt8))
    (port : List UInt8) :
    logSerial c target l pieces port = port ++ (if c.enabled target l then pieces.flatten else []) := by
  unfold logSerial
  split
  · induction pieces generalizing port with
    | nil => simp
    | cons p ps ih => rw [List.foldl_cons, ih]; simp
  · simp

/-- C111: a record that is not enabled leaves no trace in the advanced logger. -/
theorem disabled_leaves_no_trace (c : Config) (target : List Char) (l : Level) (pieces : List (List UInt8))
    (s : Sinks) (he : c.enabled target l = false) : logAdvanced c target l pieces s = s := by
  unfold logAdvanced
  rw [he]
  simp

theorem entriesOf_data (clock : Nat → Nat) (level : BitVec 32) (k : Nat) (l : List (List UInt8)) :
    (entriesOf clock level k l).map (·.data) = l := by
  induction l generalizing k with
  | nil => rfl
  | cons d l ih => simp [entriesOf, ih]

theorem entriesOf_fields (clock : Nat → Nat) (level : BitVec 32) (k : Nat) (l : List (List UInt8)) :
    ∀ e ∈ entriesOf clock level k l, e.phase = 4 ∧ e.level = level.toNat := by
  induction l generalizing k with
  | nil => intro e he; cases he
  | cons d l ih =>
    intro e he
    rcases List.mem_cons.1 he with rfl | he
    · exact ⟨rfl, rfl⟩
    · exact ih _ e he

theorem foldl_add_fits (l : List Entry) (m : MemLog) (h : (l.map Entry.size).sum ≤ m.room) :
    (l.foldl MemLog.add m).entries = m.entries ++ l ∧ (l.foldl MemLog.add m).discarded = m.discarded := by
  induction l generalizing m with
  | nil => simp
  | cons e l ih =>
    rw [List.map_cons, List.sum_cons] at h
    rw [List.foldl_cons]
    have h1 : m.add e = { m with entries := m.entries ++ [e], room := m.room - e.size } := by
      unfold MemLog.add; rw [if_pos (by omega)]
    have := ih (m.add e) (by rw [h1]; simp only; omega)
    rw [this.1, this.2, h1]
    simp

/-- How much room the entries of a line can take: each entry has a header of 24 bytes, is rounded up to 8, and there are
no more entries than bytes. -/
theorem texts_size (clock : Nat → Nat) (level : BitVec 32) (k : Nat) (l : List (List UInt8)) (hne : ∀ t ∈ l, t ≠ []) :
    ((entriesOf clock level k l).map Entry.size).sum ≤ 32 * l.flatten.length := by
  induction l generalizing k with
  | nil => simp [entriesOf]
  | cons d l ih =>
    have h1 := ih (k + 1) fun t ht => hne t (by simp [ht])
    have h2 : 0 < d.length := List.length_pos_iff.2 (hne d (by simp))
    simp only [entriesOf, List.map_cons, List.sum_cons, List.flatten_cons, List.length_append]
    have h3 : Entry.size { phase := 4, level := level.toNat, timestamp := clock k, data := d } ≤ 32 * d.length := by
      simp only [Entry.size, Verif.AdvLog.align8, Verif.AdvLog.headerSize]; omega
    omega

/-- C111: when there is room, an enabled record is in the log in memory whole: entries are added at the end whose texts
in order make the line, all with the level of the record and the phase of this module; nothing is discarded and the
entries before are kept. -/
theorem memory_gets_line (c : Config) (target : List Char) (l : Level) (pieces : List (List UInt8)) (s : Sinks)
    (m : MemLog) (he : c.enabled target l = true) (hm : s.mem = some m) (hroom : 32 * pieces.flatten.length ≤ m.room) :
    ∃ m' new, (logAdvanced c target l pieces s).mem = some m' ∧ m'.entries = m.entries ++ new ∧
      m'.discarded = m.discarded ∧ (new.map (·.data)).flatten = pieces.flatten ∧
      (∀ e ∈ new, e.phase = 4 ∧ e.level = l.debugLevel.toNat ∧ e.data ≠ []) := by
  obtain ⟨texts, ⟨-, h⟩, hb, hne⟩ := logAdvanced_wrote c target l pieces s he
  rw [hm] at h
  have hs := texts_size s.clock l.debugLevel s.reads texts hne
  rw [hb] at hs
  have hf := foldl_add_fits (entriesOf s.clock l.debugLevel s.reads texts) m (by omega)
  refine ⟨_, entriesOf s.clock l.debugLevel s.reads texts, h.1, hf.1, hf.2, ?_, ?_⟩
  · rw [entriesOf_data, hb]
  · intro e hmem
    have := entriesOf_fields _ _ _ _ e hmem
    refine ⟨this.1, this.2, hne _ ?_⟩
    rw [← entriesOf_data s.clock l.debugLevel s.reads texts]
    exact List.mem_map.2 ⟨e, hmem, rfl⟩

/-- C111: whatever is logged, the entries that are in the log stay there as they are. -/
theorem earlier_entries_stay (c : Config) (target : List Char) (l : Level) (pieces : List (List UInt8)) (s : Sinks)
    (m : MemLog) (hm : s.mem = some m) :
    ∃ m' new, (logAdvanced c target l pieces s).mem = some m' ∧ m'.entries = m.entries ++ new := by
  cases he : c.enabled target l with
  | false => exact ⟨m, [], by rw [disabled_leaves_no_trace c target l pieces s he, hm], by simp⟩
  | true =>
    obtain ⟨texts, ⟨-, h⟩, -, -⟩ := logAdvanced_wrote c target l pieces s he
    rw [hm] at h
    have : ∀ (es : List Entry) (m : MemLog), ∃ new, (es.foldl MemLog.add m).entries = m.entries ++ new := by
      intro es
      induction es with
      | nil => intro m; exact ⟨[], by simp⟩
      | cons e es ih =>
        intro m
        obtain ⟨new, hn⟩ := ih (m.add e)
        rw [List.foldl_cons, hn]
        unfold MemLog.add
        split
        · exact ⟨e :: new, by simp⟩
        · exact ⟨new, rfl⟩
    obtain ⟨new, hn⟩ := this (entriesOf s.clock l.debugLevel s.reads texts) m
    exact ⟨_, new, h.1, hn⟩

/-! ## Which records are enabled -/

/-- C111: a target without a filter of its own is logged up to the level of the logger; otherwise the first filter whose
name the target begins with decides. -/
theorem enabled_iff (c : Config) (target : List Char) (l : Level) :
    c.enabled target l = true ↔
      (∃ before f after, c.filters = before ++ f :: after ∧ (∀ g ∈ before, ¬ g.1 <+: target) ∧ f.1 <+: target ∧
        l.filter ≤ f.2) ∨
      ((∀ g ∈ c.filters, ¬ g.1 <+: target) ∧ l.filter ≤ c.maxLevel) := by
  unfold Config.enabled
  rw [decide_eq_true_eq]
  generalize c.filters = fs
  induction fs with
  | nil => simp
  | cons f fs ih =>
    rw [List.find?_cons]
    by_cases hp : f.1 <+: target
    · rw [List.isPrefixOf_iff_prefix.2 hp]
      simp only [Option.map_some, Option.getD_some]
      constructor
      · intro h
        exact .inl ⟨[], f, fs, rfl, by simp, hp, h⟩
      · rintro (⟨before, g, after, heq, hb, hg, hl⟩ | ⟨hall, -⟩)
        · cases before with
          | nil => injection heq with h1 _; rw [h1]; exact hl
          | cons b before =>
            injection heq with h1 _
            exact absurd hp (h1 ▸ hb b (by simp))
        · exact absurd hp (hall f (by simp))
    · have : f.1.isPrefixOf target = false := by
        rw [Bool.eq_false_iff]
        exact fun h => hp (List.isPrefixOf_iff_prefix.1 h)
      rw [this, ih]
      constructor
      · rintro (⟨before, g, after, heq, hb, hg, hl⟩ | ⟨hall, hl⟩)
        · refine .inl ⟨f :: before, g, after, by rw [heq]; rfl, ?_, hg, hl⟩
          intro x hx
          rcases List.mem_cons.1 hx with rfl | hx
          · exact hp
          · exact hb x hx
        · refine .inr ⟨?_, hl⟩
          intro x hx
          rcases List.mem_cons.1 hx with rfl | hx
          · exact hp
          · exact hall x hx
      · rintro (⟨before, g, after, heq, hb, hg, hl⟩ | ⟨hall, hl⟩)
        · cases before with
          | nil => injection heq with h1 _; exact absurd hg (h1 ▸ hp)
          | cons b before =>
            injection heq with h1 h2
            exact .inl ⟨before, g, after, h2, fun x hx => hb x (by simp [hx]), hg, hl⟩
        · exact .inr ⟨fun x hx => hall x (by simp [hx]), hl⟩

/-- C111: a more severe record of a target is enabled whenever a less severe one is. -/
theorem severe_first (c : Config) (target : List Char) (l l' : Level) (h : l'.filter ≤ l.filter)
    (he : c.enabled target l = true) : c.enabled target l' = true := by
  unfold Config.enabled at he ⊢
  rw [decide_eq_true_eq] at he ⊢
  omega

/-- C111: the levels in the order of `log::LevelFilter`, off being 0. -/
theorem levels_in_order : [Level.error, .warn, .info, .debug, .trace].map Level.filter = [1, 2, 3, 4, 5] := rfl

/-- C111 (finding): a filter governs every target whose name begins like it, so that the filter of one crate silences
another, and a filter behind one with a shorter name is never used. -/
theorem filter_shadows (name rest : List Char) (level level' max : Nat) (fs : List (List Char × Nat)) (l : Level) :
    Config.enabled ⟨(name, level) :: (name ++ rest, level') :: fs, max⟩ (name ++ rest) l = decide (l.filter ≤ level) := by
  unfold Config.enabled
  have : name.isPrefixOf (name ++ rest) = true := List.isPrefixOf_iff_prefix.2 (List.prefix_append _ _)
  simp only [List.find?_cons, this, Option.map_some, Option.getD_some]

example : Config.enabled ⟨[("patina".toList, 0)], 5⟩ "patina_performance".toList .error = false := by decide +kernel

/-! ## A line that does not fit -/

/-- A full log with room for one short entry. -/
def nearlyFull : Sinks :=
  { port := [], mem := some { entries := [], room := 32, discarded := 0, portDisabled := false, portLevels := 0x80000000 },
    clock := fun k => k, reads := 0 }

/-- C111 (finding): when the room runs out the log does not end there: a long piece of a line is dropped and a short one
after it is kept, so that the log has the end of a line without its beginning. -/
theorem line_with_a_hole :
    ((logAdvanced ⟨[], 5⟩ [] .error [List.replicate 200 65, [46, 10]] nearlyFull).mem.map
      fun m => (m.entries.map (·.data), m.discarded)) = some ([[46, 10]], 224) := by
  decide +kernel

example : (logAdvanced ⟨[], 5⟩ [] .error [[65, 66], [67], [10]] nearlyFull).port = [65, 66, 67, 10] := by decide +kernel
example : (logAdvanced ⟨[], 5⟩ [] .warn [[65, 66], [67], [10]] nearlyFull).port = [] := by decide +kernel

end Verif.Log
