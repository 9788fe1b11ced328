import Verif.Perf.ExchangeSpec
import Verif.Perf.Sources
/-!
What is fetched from the management mode.
-/
namespace Verif.Perf.Exchange

/-- A request of five fields, as it is in the buffer. -/
theorem request_bytes {b : Bytes} {x0 x1 x2 x3 x4 : Nat} (h : 64 ≤ b.length) :
    request b [leBytes 8 x0, leBytes 8 x1, leBytes 8 x2, leBytes 8 x3, leBytes 8 x4] =
      some (GUID ++ (leBytes 8 64 ++ (leBytes 8 x0 ++ (leBytes 8 x1 ++ (leBytes 8 x2 ++ (leBytes 8 x3 ++ (leBytes 8 x4 ++ b.drop 64))))))) := by
  have hg : GUID.length = 16 := rfl
  unfold request
  obtain ⟨h1, -⟩ := writeAll_fit (b := b) (off := 0) (l := [GUID, leBytes 8 0]) (by refine ⟨by omega, by rw [hg]; omega, by rw [hg]; omega, by rw [hg, leBytes_length]; omega, trivial⟩) (Nat.zero_le _)
  rw [h1]
  have e1 : ([GUID, leBytes 8 0] : List Bytes).flatten = GUID ++ leBytes 8 0 := by simp
  have l1 : ([GUID, leBytes 8 0] : List Bytes).flatten.length = 24 := by rw [e1, List.length_append, leBytes_length, hg]
  rw [l1]
  dsimp only
  have hs1 : (splice b 0 ([GUID, leBytes 8 0] : List Bytes).flatten) = GUID ++ leBytes 8 0 ++ b.drop 24 := by
    unfold splice
    rw [l1, e1]
    simp
  have hl1 : (splice b 0 ([GUID, leBytes 8 0] : List Bytes).flatten).length = b.length := splice_length (by rw [l1]; omega)
  obtain ⟨h2, -⟩ := writeAll_fit (b := splice b 0 ([GUID, leBytes 8 0] : List Bytes).flatten) (off := 24) (l := [leBytes 8 x0, leBytes 8 x1, leBytes 8 x2, leBytes 8 x3, leBytes 8 x4])
    (by rw [hl1]; simp only [Fit, leBytes_length, and_true]; omega) (by rw [hl1]; omega)
  have e2 : ([leBytes 8 x0, leBytes 8 x1, leBytes 8 x2, leBytes 8 x3, leBytes 8 x4] : List Bytes).flatten = leBytes 8 x0 ++ (leBytes 8 x1 ++ (leBytes 8 x2 ++ (leBytes 8 x3 ++ leBytes 8 x4))) := by simp
  have l2 : ([leBytes 8 x0, leBytes 8 x1, leBytes 8 x2, leBytes 8 x3, leBytes 8 x4] : List Bytes).flatten.length = 40 := by rw [e2]; simp only [List.length_append, leBytes_length]
  rw [show 0 + 24 = 24 from rfl, h2, l2]
  dsimp only
  have l3 : (GUID ++ leBytes 8 0 : Bytes).length = 24 := by rw [List.length_append, leBytes_length, hg]
  have hs2 : splice (splice b 0 ([GUID, leBytes 8 0] : List Bytes).flatten) 24 ([leBytes 8 x0, leBytes 8 x1, leBytes 8 x2, leBytes 8 x3, leBytes 8 x4] : List Bytes).flatten =
      GUID ++ leBytes 8 0 ++ ([leBytes 8 x0, leBytes 8 x1, leBytes 8 x2, leBytes 8 x3, leBytes 8 x4] : List Bytes).flatten ++ b.drop 64 := by
    rw [hs1]
    unfold splice
    rw [l2, List.take_left' l3, show 24 + 40 = 24 + 40 from rfl, ← List.drop_drop, List.drop_left' l3, List.drop_drop]
  rw [hs2]
  congr 1

theorem field_at {p s : Bytes} {x i : Nat} (hp : p.length = 24 + 8 * i) (hx : x < 2 ^ 64) : field (p ++ (leBytes 8 x ++ s)) i = x := by
  unfold field
  rw [List.drop_left' hp, List.take_left' (leBytes_length ..), leVal_leBytes_of_lt (by omega)]

/-- What a request for five fields asks for. -/
theorem request_asks {b : Bytes} {x0 x1 x2 x3 x4 : Nat} (h : 64 ≤ b.length) (h0 : x0 < 2 ^ 64) (h2 : x2 < 2 ^ 64) (h4 : x4 < 2 ^ 64) :
    ∃ q, request b [leBytes 8 x0, leBytes 8 x1, leBytes 8 x2, leBytes 8 x3, leBytes 8 x4] = some q ∧ Asks q x0 ∧ field q 2 = x2 ∧ field q 4 = x4 ∧ q.length = b.length := by
  refine ⟨_, request_bytes h, ⟨List.take_left' rfl, ?_, ?_⟩, ?_, ?_, ?_⟩
  · simp only [List.length_append, leBytes_length]
    show _ ≤ 16 + _
    omega
  · rw [← List.append_assoc GUID]
    exact field_at (by rw [List.length_append, leBytes_length]; rfl) h0
  · rw [← List.append_assoc GUID, ← List.append_assoc (GUID ++ _), ← List.append_assoc (GUID ++ _ ++ _)]
    exact field_at (by simp only [List.length_append, leBytes_length]; rfl) h2
  · rw [← List.append_assoc GUID, ← List.append_assoc (GUID ++ _), ← List.append_assoc (GUID ++ _ ++ _), ← List.append_assoc (GUID ++ _ ++ _ ++ _), ← List.append_assoc (GUID ++ _ ++ _ ++ _ ++ _)]
    exact field_at (by simp only [List.length_append, leBytes_length]; rfl) h4
  · simp only [List.length_append, leBytes_length, List.length_drop]
    show 16 + _ = _
    omega

theorem field_data (b : Bytes) (i : Nat) : leVal (((b.drop 24).drop (8 * i)).take 8) = field b i := by
  unfold field
  rw [List.drop_drop]

theorem loop_from {dbg : Bool} {mm : Mm} {d : Bytes} (h : Serves mm d) {r : Region} (ha : r.address ≠ 0) (hp : r.pages ≠ 0) (hd : d.length < 2 ^ 63) :
    ∀ (fuel o : Nat) (s : mm.State) (b : Bytes), 64 + 1024 ≤ b.length → o ≤ d.length → d.length < fuel + o → fetchLoop dbg mm r d.length fuel s b (d.take o) = some (.ok d) := by
  intro fuel
  induction fuel with
  | zero => intro o s b _ _ hf; omega
  | succ fuel ih =>
    intro o s b hb ho hf
    have hl : (d.take o).length = o := by rw [List.length_take]; omega
    unfold fetchLoop
    rw [hl]
    by_cases hc : o < d.length
    · rw [if_pos hc]
      unfold communicate
      rw [if_neg (by rintro (h | h) <;> contradiction)]
      obtain ⟨q, hq, hasks, hq2, hq4, hql⟩ := request_asks (b := b) (x0 := 3) (x1 := 0) (x2 := 1024) (x3 := 0) (x4 := o) (by omega) (by omega) (by omega) (by omega)
      unfold dataRequest
      rw [hq]
      dsimp only
      obtain ⟨g1, g2, g3, g4, g5, g6, g7⟩ := h.data s q hasks (by rw [hq4]; exact hc) (by rw [hq2]; omega) (by rw [hq2]; omega)
      have hk := mm.keeps s q
      rcases hh : mm.handle s q with ⟨s', b', ok⟩
      rw [hh] at g1 g2 g3 g4 g5 g6 g7 hk
      dsimp only at g1 g2 g3 g4 g5 g6 g7 hk
      subst g1
      rw [hq2] at g5
      rw [hq4] at g6 g7
      dsimp only
      have hbl : b'.length = b.length := by rw [hk, hql]
      have hpd : parseData dbg (b'.drop 24) = some (0, field b' 2, (b'.drop 64).take 1024) := by
        unfold parseData
        rw [List.length_drop, if_neg (by omega)]
        have f0 := field_data b' 0
        have f1 := field_data b' 1
        have f2 := field_data b' 2
        rw [if_neg, if_neg (by omega)]
        · rw [f1, f2, g3, List.drop_drop]
        · rintro ⟨-, hx⟩
          exact hx (by have := f0; rw [Nat.mul_zero, List.drop_zero] at this; rw [this, g2])
      rw [hpd]
      dsimp only
      rw [if_neg (by simp), if_neg (by omega), List.take_take, Nat.min_eq_left g5, g7, ← List.take_add]
      exact ih _ s' b' (by omega) g6 (by omega)
    · rw [if_neg hc, List.take_of_length_le (by omega)]

/-- All records of the management mode are fetched, whatever pieces it hands over, in any buffer of a page or more. -/
theorem fetches_all {dbg : Bool} {mm : Mm} {d : Bytes} (h : Serves mm d) {r : Region} (ha : r.address ≠ 0) (hp : r.pages ≠ 0) (hd : d.length < 2 ^ 63) (s : mm.State) {b : Bytes} (hb : 0x1000 ≤ b.length) :
    fetchRecords dbg mm r (d.length + 1) s b = some (.ok d) := by
  unfold fetchRecords communicate
  rw [if_neg (by rintro (h | h) <;> contradiction)]
  obtain ⟨q, hq, hasks, -, -, hql⟩ := request_asks (b := b) (x0 := 1) (x1 := 0) (x2 := 0) (x3 := 0) (x4 := 0) (by omega) (by omega) (by omega) (by omega)
  unfold sizeRequest
  rw [hq]
  dsimp only
  obtain ⟨g1, g2, g3, g4⟩ := h.size s q hasks
  have hk := mm.keeps s q
  rcases hh : mm.handle s q with ⟨s', b', ok⟩
  rw [hh] at g1 g2 g3 g4 hk
  dsimp only at g1 g2 g3 g4 hk
  subst g1
  dsimp only
  have hps : parseSize dbg (b'.drop 24) = some (0, d.length) := by
    unfold parseSize
    rw [List.length_drop, if_neg (by omega)]
    have f0 := field_data b' 0
    have f1 := field_data b' 1
    have f2 := field_data b' 2
    rw [if_neg]
    · rw [f1, f2, g3, g4]
    · rintro ⟨-, hx⟩
      exact hx (by have := f0; rw [Nat.mul_zero, List.drop_zero] at this; rw [this, g2])
  rw [hps]
  dsimp only
  rw [if_neg (by simp), if_neg (by omega)]
  exact loop_from h ha hp hd _ 0 s' b' (by omega) (Nat.zero_le _) (by omega)

/-- The records of the management mode end up in the table; those it has no room for are left out. -/
theorem adds_records {dbg : Bool} {mm : Mm} {rs : List Rec} (h : Serves mm (allBytes rs)) {r : Region} (ha : r.address ≠ 0) (hp : r.pages ≠ 0) (s : mm.State) {b : Bytes} (hb : 0x1000 ≤ b.length)
    {t : Fbpt} {l : List Rec} (hi : Inv t l) (hf : ∀ r ∈ rs, Fits r) (hz : 56 + (allBytes l).length + (allBytes rs).length < 2 ^ 32) :
    ∃ t' rs', fetchAndAdd dbg (some ⟨mm, s⟩) r ((allBytes rs).length + 1) b t = some (some t') ∧ Inv t' (l ++ rs') ∧ List.Sublist rs' (rs.map fun r => r.raw.again) ∧
      (∀ b, t.recs = .owned b → rs' = rs.map fun r => r.raw.again) := by
  obtain ⟨t', rs', h1, h2, h3, h4⟩ := addAll_adds (dbg := dbg) hi hf hz
  refine ⟨t', rs', ?_, h2, h3, h4⟩
  unfold fetchAndAdd
  dsimp only
  rw [fetches_all h ha hp (by omega) s hb, ]
  dsimp only
  rw [iter_records hf]
  exact congrArg some h1

/-- Without the protocol, or when the management mode refuses, the table stays. -/
theorem refused_keeps {dbg : Bool} {mm : Mm} {s : mm.State} {r : Region} {fuel : Nat} {b : Bytes} {t : Fbpt} (h : ∃ e, fetchRecords dbg mm r fuel s b = some (.err e)) :
    fetchAndAdd dbg none r fuel b t = some (some t) ∧ fetchAndAdd dbg (some ⟨mm, s⟩) r fuel b t = some (some t) := by
  obtain ⟨e, h⟩ := h
  refine ⟨rfl, ?_⟩
  unfold fetchAndAdd
  dsimp only
  rw [h]

/-! ### A management mode that serves -/

/-- A handler for the records `d`, in pieces of at most 100 bytes. -/
def handler (d : Bytes) (b : Bytes) : Bytes :=
  if field b 0 = 1 then b.take 32 ++ leBytes 8 0 ++ leBytes 8 d.length ++ b.drop 48
  else
    let n := min 100 (min (field b 2) (d.length - field b 4))
    b.take 32 ++ leBytes 8 0 ++ leBytes 8 n ++ (b.drop 48).take 16 ++ (d.drop (field b 4)).take n ++ b.drop (64 + n)

/-- The management mode with this handler; what is too small for it is refused. -/
def someMm (d : Bytes) : Mm where
  State := Unit
  handle _ b := if (handler d b).length = b.length then ((), handler d b, true) else ((), b, false)
  keeps _ b := by
    split
    · assumption
    · rfl

theorem some_serves (d : Bytes) (hd : d.length < 2 ^ 63) : Serves (someMm d) d := by
  have hf0 : ∀ (b x : Bytes), 64 ≤ b.length → field (b.take 32 ++ x) 0 = field b 0 := fun b x hb => by
    unfold field
    rw [List.drop_append_of_le_length (by rw [List.length_take]; omega), List.drop_take, List.take_append_of_le_length (by rw [List.length_take, List.length_drop]; omega), List.take_take]
    rfl
  refine ⟨fun s b ha => ?_, fun s b ha ho h0 hr => ?_⟩
  · have hl : (handler d b).length = b.length := by
      unfold handler
      rw [if_pos ha.function]
      have := ha.length
      simp only [List.length_append, leBytes_length, List.length_take, List.length_drop]
      omega
    have hh : (someMm d).handle s b = ((), handler d b, true) := if_pos hl
    rw [hh]
    have hb := ha.length
    have ht : (b.take 32).length = 32 := by rw [List.length_take]; omega
    dsimp only
    unfold handler
    rw [if_pos ha.function]
    refine ⟨rfl, ?_, ?_, ?_⟩
    · rw [List.append_assoc, List.append_assoc, hf0 _ _ (by omega)]; exact ha.function
    · rw [List.append_assoc, List.append_assoc]; exact field_at (i := 1) (by rw [ht]) (by omega)
    · rw [List.append_assoc]; exact field_at (i := 2) (by rw [List.length_append, ht, leBytes_length]) (by omega)
  · have hne : field b 0 ≠ 1 := by rw [ha.function]; decide
    have hb := ha.length
    have hn : min 100 (min (field b 2) (d.length - field b 4)) ≤ 100 ∧ 0 < min 100 (min (field b 2) (d.length - field b 4)) ∧
        min 100 (min (field b 2) (d.length - field b 4)) ≤ field b 2 ∧ field b 4 + min 100 (min (field b 2) (d.length - field b 4)) ≤ d.length := by omega
    have hdef : handler d b = b.take 32 ++ leBytes 8 0 ++ leBytes 8 (min 100 (min (field b 2) (d.length - field b 4))) ++ (b.drop 48).take 16 ++
        (d.drop (field b 4)).take (min 100 (min (field b 2) (d.length - field b 4))) ++ b.drop (64 + min 100 (min (field b 2) (d.length - field b 4))) := if_neg hne
    generalize min 100 (min (field b 2) (d.length - field b 4)) = n at hn hdef
    obtain ⟨n1, n2, n3, n4⟩ := hn
    have ht : (b.take 32).length = 32 := by rw [List.length_take]; omega
    have hm : ((b.drop 48).take 16).length = 16 := by rw [List.length_take, List.length_drop]; omega
    have hdl : ((d.drop (field b 4)).take n).length = n := by rw [List.length_take, List.length_drop]; omega
    have hl : (handler d b).length = b.length := by
      rw [hdef]
      simp only [List.length_append, leBytes_length, ht, hm, hdl, List.length_drop]
      omega
    have hh : (someMm d).handle s b = ((), handler d b, true) := if_pos hl
    rw [hh]
    dsimp only
    have f2 : field (handler d b) 2 = n := by
      rw [hdef]
      simp only [List.append_assoc]
      rw [← List.append_assoc (b.take 32)]
      exact field_at (i := 2) (by rw [List.length_append, ht, leBytes_length]) (by omega)
    rw [f2]
    refine ⟨rfl, ?_, ?_, n2, n3, n4, ?_⟩
    · rw [hdef]
      simp only [List.append_assoc]
      rw [hf0 _ _ (by omega)]
      exact ha.function
    · rw [hdef]
      simp only [List.append_assoc]
      exact field_at (i := 1) (by rw [ht]) (by omega)
    · rw [hdef, List.append_assoc, List.drop_left' (by simp only [List.length_append, leBytes_length, ht, hm]), List.take_left' hdl]

example : Serves (someMm (allBytes [someRec, .guid 1 0 5 77])) (allBytes [someRec, .guid 1 0 5 77]) := some_serves _ (by decide +kernel)

/-- The GUID in the header is `c095791a-3001-47b2-80c9-eac7319f2fa4`. -/
theorem request_guid {b : Bytes} {data : List Bytes} (hdata : data = sizeRequest ∨ ∃ o, data = dataRequest o) (h : 64 ≤ b.length) :
    ∃ q, request b data = some q ∧ q.take 16 = leBytes 4 0xc095791a ++ leBytes 2 0x3001 ++ leBytes 2 0x47b2 ++ [0x80, 0xc9, 0xea, 0xc7, 0x31, 0x9f, 0x2f, 0xa4] := by
  have key : ∀ x0 x1 x2 x3 x4 : Nat, ∃ q, request b [leBytes 8 x0, leBytes 8 x1, leBytes 8 x2, leBytes 8 x3, leBytes 8 x4] = some q ∧
      q.take 16 = leBytes 4 0xc095791a ++ leBytes 2 0x3001 ++ leBytes 2 0x47b2 ++ [0x80, 0xc9, 0xea, 0xc7, 0x31, 0x9f, 0x2f, 0xa4] := by
    intro x0 x1 x2 x3 x4
    refine ⟨_, request_bytes h, ?_⟩
    rw [List.take_left' (show GUID.length = 16 from rfl)]
    decide +kernel
  rcases hdata with rfl | ⟨o, rfl⟩ <;> exact key _ _ _ _ _

/-! ### Findings -/

/-- The length in the header of a request counts the header too, although it is the length of the message behind it: 64 instead of 40. -/
theorem length_counts_header {b : Bytes} {data : List Bytes} (hdata : data = sizeRequest ∨ ∃ o, data = dataRequest o) (h : 64 ≤ b.length) :
    ∃ q, request b data = some q ∧ leVal ((q.drop 16).take 8) = data.flatten.length + 24 := by
  have key : ∀ x0 x1 x2 x3 x4 : Nat, ∃ q, request b [leBytes 8 x0, leBytes 8 x1, leBytes 8 x2, leBytes 8 x3, leBytes 8 x4] = some q ∧
      leVal ((q.drop 16).take 8) = ([leBytes 8 x0, leBytes 8 x1, leBytes 8 x2, leBytes 8 x3, leBytes 8 x4] : List Bytes).flatten.length + 24 := by
    intro x0 x1 x2 x3 x4
    refine ⟨_, request_bytes h, ?_⟩
    rw [List.drop_left' (show GUID.length = 16 from rfl), List.take_left' (leBytes_length ..), leVal_leBytes_of_lt (by decide)]
    simp [leBytes_length]
  rcases hdata with rfl | ⟨o, rfl⟩
  · exact key ..
  · exact key ..

/-- A management mode that answers every request with success and no data. -/
def idleMm : Mm where
  State := Unit
  handle _ b := ((), if 48 ≤ b.length then b.take 32 ++ leBytes 8 0 ++ leBytes 8 (if field b 0 = 1 then 1 else 0) ++ b.drop 48 else b, true)
  keeps _ b := by
    dsimp only
    split
    · simp only [List.length_append, leBytes_length, List.length_take, List.length_drop]; omega
    · rfl

theorem idle_field (b : Bytes) (hb : 64 ≤ b.length) (s : Unit) :
    field (idleMm.handle s b).2.1 0 = field b 0 ∧ field (idleMm.handle s b).2.1 1 = 0 ∧ field (idleMm.handle s b).2.1 2 = (if field b 0 = 1 then 1 else 0) := by
  have ht : (b.take 32).length = 32 := by rw [List.length_take]; omega
  have e : (idleMm.handle s b).2.1 = b.take 32 ++ leBytes 8 0 ++ leBytes 8 (if field b 0 = 1 then 1 else 0) ++ b.drop 48 := if_pos (by omega)
  rw [e]
  refine ⟨?_, ?_, ?_⟩
  · unfold field
    rw [List.append_assoc, List.append_assoc, List.drop_append_of_le_length (by rw [List.length_take]; omega), List.drop_take, List.take_append_of_le_length (by rw [List.length_take, List.length_drop]; omega), List.take_take]
    rfl
  · rw [List.append_assoc, List.append_assoc]; exact field_at (i := 1) (by rw [ht]) (by omega)
  · rw [List.append_assoc]; exact field_at (i := 2) (by rw [List.length_append, ht, leBytes_length]) (by split <;> omega)

/-- With it, the boot never goes on. -/
theorem empty_answers_hang {dbg : Bool} {r : Region} (ha : r.address ≠ 0) (hp : r.pages ≠ 0) {b : Bytes} (hb : 0x1000 ≤ b.length) (fuel : Nat) (t : Fbpt) :
    fetchAndAdd dbg (some ⟨idleMm, ()⟩) r fuel b t = none := by
  have loop : ∀ (fuel : Nat) (s : idleMm.State) (b : Bytes), 0x1000 ≤ b.length → fetchLoop dbg idleMm r 1 fuel s b [] = none := by
    intro fuel
    induction fuel with
    | zero => exact fun _ _ _ => rfl
    | succ fuel ih =>
      intro s b hb
      unfold fetchLoop
      rw [if_pos (by simp)]
      unfold communicate
      rw [if_neg (by rintro (h | h) <;> contradiction)]
      obtain ⟨q, hq, hasks, -, -, hql⟩ := request_asks (b := b) (x0 := 3) (x1 := 0) (x2 := 1024) (x3 := 0) (x4 := 0) (by omega) (by omega) (by omega) (by omega)
      unfold dataRequest
      rw [show ([] : Bytes).length = 0 from rfl, hq]
      dsimp only
      obtain ⟨i0, i1, i2⟩ := idle_field q (by omega) ()
      have hk := idleMm.keeps () q
      rw [hasks.function] at i0 i2
      have hh : idleMm.handle s q = (s, (idleMm.handle () q).2.1, true) := rfl
      rw [hh]
      dsimp only
      generalize (idleMm.handle () q).2.1 = b' at *
      have hpd : parseData dbg (b'.drop 24) = some (0, 0, (b'.drop 64).take 1024) := by
        unfold parseData
        rw [List.length_drop, if_neg (by omega)]
        have f0 := field_data b' 0
        have f1 := field_data b' 1
        have f2 := field_data b' 2
        rw [if_neg, if_neg (by omega)]
        · rw [f1, f2, i1, i2, List.drop_drop]; rfl
        · rintro ⟨-, hx⟩
          exact hx (by have := f0; rw [Nat.mul_zero, List.drop_zero] at this; rw [this, i0])
      rw [hpd]
      dsimp only
      rw [if_neg (by simp), if_neg (by omega)]
      exact ih s b' (by omega)
  unfold fetchAndAdd
  dsimp only
  have : fetchRecords dbg idleMm r fuel () b = none := by
    unfold fetchRecords communicate
    rw [if_neg (by rintro (h | h) <;> contradiction)]
    obtain ⟨q, hq, hasks, -, -, hql⟩ := request_asks (b := b) (x0 := 1) (x1 := 0) (x2 := 0) (x3 := 0) (x4 := 0) (by omega) (by omega) (by omega) (by omega)
    unfold sizeRequest
    rw [hq]
    dsimp only
    obtain ⟨i0, i1, i2⟩ := idle_field q (by omega) ()
    have hk := idleMm.keeps () q
    rw [hasks.function] at i0 i2
    have hh : idleMm.handle () q = ((), (idleMm.handle () q).2.1, true) := rfl
    rw [hh]
    dsimp only
    generalize (idleMm.handle () q).2.1 = b' at *
    have hps : parseSize dbg (b'.drop 24) = some (0, 1) := by
      unfold parseSize
      rw [List.length_drop, if_neg (by omega)]
      have f0 := field_data b' 0
      have f1 := field_data b' 1
      have f2 := field_data b' 2
      rw [if_neg]
      · rw [f1, f2, i1, i2]; rfl
      · rintro ⟨-, hx⟩
        exact hx (by have := f0; rw [Nat.mul_zero, List.drop_zero] at this; rw [this, i0])
    rw [hps]
    dsimp only
    rw [if_neg (by simp), if_neg (by omega)]
    exact loop fuel () b' (by omega)
  rw [this]

/-- A region without an address or without pages panics. -/
theorem empty_region_panics {dbg : Bool} {mm : Mm} {s : mm.State} {r : Region} (h : r.address = 0 ∨ r.pages = 0) (fuel : Nat) (b : Bytes) (t : Fbpt) :
    fetchAndAdd dbg (some ⟨mm, s⟩) r fuel b t = some none := by
  unfold fetchAndAdd fetchRecords communicate
  dsimp only
  rw [if_pos h]

/-- A HOB that is too short for a region panics. -/
theorem short_region_panics (b : Bytes) : Region.parse b = none ↔ b.length < 24 := by
  unfold Region.parse
  split <;> simp_all

/-- A HOB with a region is read as its three fields. -/
theorem region_reads {t a p : Nat} (ht : t < 2 ^ 64) (ha : a < 2 ^ 64) (hp : p < 2 ^ 64) (rest : Bytes) :
    Region.parse (leBytes 8 t ++ (leBytes 8 a ++ (leBytes 8 p ++ rest))) = some ⟨t, a, p⟩ := by
  unfold Region.parse
  rw [if_neg (by simp only [List.length_append, leBytes_length]; omega), List.take_left' (leBytes_length ..), List.drop_left' (leBytes_length ..), List.take_left' (leBytes_length ..),
    ← List.append_assoc, List.drop_left' (by simp only [List.length_append, leBytes_length]), List.take_left' (leBytes_length ..),
    leVal_leBytes_of_lt (by omega), leVal_leBytes_of_lt (by omega), leVal_leBytes_of_lt (by omega)]

end Verif.Perf.Exchange
