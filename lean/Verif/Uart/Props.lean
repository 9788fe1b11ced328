import Verif.Uart.Model
/-! What a user of a serial port relies on. -/
namespace Verif.Uart

/-! ## Specification -/

/-- The bytes written to the data register, in order. -/
def puts : List Access → List UInt8
  | [] => []
  | .put b :: l => b :: puts l
  | _ :: l => puts l

/-- The bytes read from the data register, in order. -/
def gets : List Access → List UInt8
  | [] => []
  | .get b :: l => b :: gets l
  | _ :: l => gets l

/-- The flag register said that there was room: bit 5 was clear. -/
def Room (f : UInt8) : Prop := f.toNat.testBit 5 = false
/-- The flag register said that nothing was being sent: bit 3 was clear. -/
def Idle (f : UInt8) : Prop := f.toNat.testBit 3 = false
/-- The flag register said that a byte was received: bit 4 was clear. -/
def Received (f : UInt8) : Prop := f.toNat.testBit 4 = false

/-- Every write to the data register comes right after a read of the flag register that showed room. -/
def PutsAfterRoom (l : List Access) : Prop :=
  ∀ pre b post, l = pre ++ .put b :: post → ∃ pre' f, pre = pre' ++ [.flag f] ∧ Room f

/-- Between a write to the data register and the end, or the next write, the flag register showed that nothing was being sent. -/
def IdleAfterPuts (l : List Access) : Prop :=
  ∀ pre b post, l = pre ++ .put b :: post → ∃ mid f rest, post = mid ++ .flag f :: rest ∧ Idle f ∧ puts mid = []

/-! ## Proofs -/

theorem flag_bits (f : UInt8) : (f &&& FR_BUSY = 0 ↔ Idle f) ∧ (f &&& FR_RXFE = 0 ↔ Received f) ∧ (f &&& FR_TXFF = 0 ↔ Room f) := by
  have key : ∀ n : Fin 256, ((UInt8.ofNat n.val) &&& FR_BUSY = 0 ↔ Idle (UInt8.ofNat n.val)) ∧ ((UInt8.ofNat n.val) &&& FR_RXFE = 0 ↔ Received (UInt8.ofNat n.val)) ∧
      ((UInt8.ofNat n.val) &&& FR_TXFF = 0 ↔ Room (UInt8.ofNat n.val)) := by
    unfold Idle Received Room
    decide +kernel
  have := key ⟨f.toNat, f.toNat_lt⟩
  simpa using this

variable {σ : Type} {P : Port σ}

theorem puts_append (a b : List Access) : puts (a ++ b) = puts a ++ puts b := by
  induction a with
  | nil => rfl
  | cons x a ih => cases x <;> simp [puts, ih]

theorem gets_append (a b : List Access) : gets (a ++ b) = gets a ++ gets b := by
  induction a with
  | nil => rfl
  | cons x a ih => cases x <;> simp [gets, ih]

theorem wait_spec {mask : UInt8} : ∀ {n : Nat} {s : σ} {r : Ran σ Unit}, waitClear P mask n s = some r →
    ∃ (fs : List UInt8) (f : UInt8), r.log = fs.map Access.flag ++ [.flag f] ∧ f &&& mask = 0 ∧ ∀ g ∈ fs, g &&& mask ≠ 0
  | 0, s, r, h => by simp [waitClear] at h
  | n + 1, s, r, h => by
    rw [waitClear] at h
    by_cases hf : (P.flags s).1 &&& mask ≠ 0
    · simp only [hf, ne_eq, not_false_eq_true, if_true, Option.map_eq_some_iff] at h
      obtain ⟨r', h', rfl⟩ := h
      obtain ⟨fs, f, hl, h0, hn⟩ := wait_spec h'
      refine ⟨(P.flags s).1 :: fs, f, by simp [hl], h0, ?_⟩
      intro g hg
      rcases List.mem_cons.1 hg with rfl | hg
      · exact hf
      · exact hn g hg
    · simp only [hf, if_false, Option.some.injEq] at h
      subst h
      exact ⟨[], _, rfl, by simpa using hf, by simp⟩

theorem puts_flags (fs : List UInt8) : puts (fs.map Access.flag) = [] := by
  induction fs with
  | nil => rfl
  | cons x a ih => simp [puts, ih]

theorem gets_flags (fs : List UInt8) : gets (fs.map Access.flag) = [] := by
  induction fs with
  | nil => rfl
  | cons x a ih => simp [gets, ih]

theorem no_put {l pre post : List Access} {b : UInt8} (h : puts l = []) : l ≠ pre ++ .put b :: post := by
  rintro rfl
  rw [puts_append] at h
  simp [puts] at h

/-- The shape of what writing a byte does. -/
theorem writeByte_spec {n : Nat} {b : UInt8} {s : σ} {r : Ran σ Unit} (h : writeByte P n b s = some r) :
    ∃ (fs : List UInt8) (f : UInt8) (gs : List UInt8) (g : UInt8), r.log = fs.map Access.flag ++ .flag f :: .put b :: gs.map Access.flag ++ [.flag g] ∧ Room f ∧ Idle g := by
  rw [writeByte, Option.bind_eq_some_iff] at h
  obtain ⟨r1, h1, h⟩ := h
  rw [Option.map_eq_some_iff] at h
  obtain ⟨r2, h2, rfl⟩ := h
  obtain ⟨fs, f, hl1, h0, -⟩ := wait_spec h1
  obtain ⟨gs, g, hl2, h0', -⟩ := wait_spec h2
  refine ⟨fs, f, gs, g, by simp [hl1, hl2], (flag_bits f).2.2.1 h0, (flag_bits g).1.1 h0'⟩

theorem app_put {a c pre post : List Access} {b : UInt8} (h : a ++ c = pre ++ .put b :: post) :
    (∃ post', a = pre ++ .put b :: post' ∧ post = post' ++ c) ∨ (∃ pre', pre = a ++ pre' ∧ c = pre' ++ .put b :: post) := by
  rcases List.append_eq_append_iff.1 h with ⟨a', h1, h2⟩ | ⟨a', h1, h2⟩
  · exact .inr ⟨a', h1, h2⟩
  · cases a' with
    | nil => exact .inr ⟨[], by simp_all, by simpa using h2.symm⟩
    | cons y a' =>
      simp only [List.cons_append, List.cons.injEq] at h2
      obtain ⟨rfl, rfl⟩ := h2
      exact .inl ⟨a', h1, rfl⟩

theorem room_append {a c : List Access} (ha : PutsAfterRoom a) (hc : PutsAfterRoom c) : PutsAfterRoom (a ++ c) := by
  intro pre b post h
  rcases app_put h with ⟨post', h1, -⟩ | ⟨pre', rfl, h1⟩
  · exact ha _ _ _ h1
  · obtain ⟨p, f, rfl, hf⟩ := hc _ _ _ h1
    exact ⟨a ++ p, f, by simp, hf⟩

theorem idle_append {a c : List Access} (ha : IdleAfterPuts a) (hc : IdleAfterPuts c) : IdleAfterPuts (a ++ c) := by
  intro pre b post h
  rcases app_put h with ⟨post', h1, rfl⟩ | ⟨pre', rfl, h1⟩
  · obtain ⟨mid, f, rest, rfl, hf, hm⟩ := ha _ _ _ h1
    exact ⟨mid, f, rest ++ c, by simp, hf, hm⟩
  · exact hc _ _ _ h1

/-- The bytes written to the port are those of the buffer, in order, and nothing is read from it. -/
theorem written {n : Nat} : ∀ {bs : List UInt8} {s : σ} {r : Ran σ Unit}, write P n bs s = some r → puts r.log = bs ∧ gets r.log = []
  | [], s, r, h => by
    simp only [write, Option.some.injEq] at h
    subst h
    exact ⟨rfl, rfl⟩
  | b :: bs, s, r, h => by
    rw [write, Option.bind_eq_some_iff] at h
    obtain ⟨r1, h1, h⟩ := h
    rw [Option.map_eq_some_iff] at h
    obtain ⟨r2, h2, rfl⟩ := h
    obtain ⟨fs, f, gs, g, hl, -, -⟩ := writeByte_spec h1
    have ih := written h2
    simp [hl, puts_append, gets_append, puts, gets, puts_flags, gets_flags, ih]

/-- No byte is written before the port showed room for it, and no byte is written, nor does `write` return, before the port showed that the
previous one was sent. -/
theorem write_waits {n : Nat} : ∀ {bs : List UInt8} {s : σ} {r : Ran σ Unit}, write P n bs s = some r →
    PutsAfterRoom r.log ∧ IdleAfterPuts r.log
  | [], s, r, h => by
    simp only [write, Option.some.injEq] at h
    subst h
    exact ⟨fun pre b post h => by simp at h, fun pre b post h => by simp at h⟩
  | b :: bs, s, r, h => by
    rw [write, Option.bind_eq_some_iff] at h
    obtain ⟨r1, h1, h⟩ := h
    rw [Option.map_eq_some_iff] at h
    obtain ⟨r2, h2, rfl⟩ := h
    obtain ⟨fs, f, gs, g, hl, hf, hg⟩ := writeByte_spec h1
    have ih := write_waits h2
    have e : r1.log = (fs.map Access.flag ++ [.flag f]) ++ ([.put b] ++ (gs.map Access.flag ++ [.flag g])) := by simp [hl]
    have one : ∀ pre c post, r1.log = pre ++ Access.put c :: post → pre = fs.map Access.flag ++ [.flag f] ∧ post = gs.map Access.flag ++ [.flag g] := by
      intro pre c post h
      rw [e] at h
      rcases app_put h with ⟨post', h1, -⟩ | ⟨pre', rfl, h1⟩
      · exact absurd h1 (no_put (by simp [puts_append, puts_flags, puts]))
      · cases pre' with
        | nil =>
          simp only [List.cons_append, List.nil_append, List.cons.injEq] at h1
          simp [h1]
        | cons y t =>
          simp only [List.cons_append, List.nil_append, List.cons.injEq] at h1
          exact absurd h1.2 (no_put (by simp [puts_append, puts_flags, puts]))
    refine ⟨room_append ?_ ih.1, idle_append ?_ ih.2⟩
    · intro pre c post h
      exact ⟨_, f, (one pre c post h).1, hf⟩
    · intro pre c post h
      exact ⟨_, g, [], (one pre c post h).2, hg, puts_flags _⟩

/-- `try_read` reads the data register only if the port just showed that a byte was received, and gives that byte; otherwise it gives nothing and
takes nothing from the port. -/
theorem try_read_spec (s : σ) :
    (∃ f, (readByte P s).log = [.flag f] ∧ ¬ Received f ∧ (readByte P s).val = none) ∨
    (∃ f b, (readByte P s).log = [.flag f, .get b] ∧ Received f ∧ (readByte P s).val = some b) := by
  unfold readByte
  by_cases h : (P.flags s).1 &&& FR_RXFE ≠ 0
  · refine .inl ⟨(P.flags s).1, ?_⟩
    simp only [h, ne_eq, not_false_eq_true, if_true, true_and, and_true]
    exact fun hr => h ((flag_bits _).2.1.2 hr)
  · refine .inr ⟨(P.flags s).1, (P.get (P.flags s).2).1, ?_⟩
    simp only [h, if_false, true_and, and_true]
    exact (flag_bits _).2.1.1 (by simpa using h)

/-- `read` polls the port until it shows that a byte was received and gives that byte: one byte is taken from the port and nothing is written. -/
theorem read_spec : ∀ {n : Nat} {s : σ} {r : Ran σ UInt8}, read P n s = some r →
    ∃ (fs : List UInt8) (f : UInt8), r.log = fs.map Access.flag ++ [.flag f, .get r.val] ∧ Received f ∧ ∀ g ∈ fs, ¬ Received g
  | 0, s, r, h => by simp [read] at h
  | n + 1, s, r, h => by
    rw [read] at h
    rcases try_read_spec (P := P) s with ⟨f, hl, hf, hv⟩ | ⟨f, b, hl, hf, hv⟩
    · simp only [hv, Option.map_eq_some_iff] at h
      obtain ⟨r', h', rfl⟩ := h
      obtain ⟨fs, f', hl', hf', hn⟩ := read_spec h'
      refine ⟨f :: fs, f', by simp [hl, hl'], hf', ?_⟩
      intro g hg
      rcases List.mem_cons.1 hg with rfl | hg
      · exact hf
      · exact hn g hg
    · simp only [hv, Option.some.injEq] at h
      subst h
      exact ⟨[], f, by simp [hl], hf, by simp⟩

/-! ## On the port of the manual -/

/-- What the port was given to send, and still has or has sent. -/
def Fifo.sent (d : Fifo) : List UInt8 := d.wire ++ d.tx

variable {sched : Nat → Nat × List UInt8}

theorem pass_sent (d : Fifo) : (d.pass sched).sent = d.sent := by simp [Fifo.pass, Fifo.sent]
theorem pass_lost (d : Fifo) : (d.pass sched).lost = d.lost := rfl
theorem pass_cap (d : Fifo) : (d.pass sched).cap = d.cap := rfl
theorem pass_room {d : Fifo} (h : d.tx.length < d.cap) : (d.pass sched).tx.length < (d.pass sched).cap := by
  simp [Fifo.pass]; omega

theorem flagByte_spec (d : Fifo) : (Idle d.flagByte ↔ d.tx = []) ∧ (Received d.flagByte ↔ d.rx ≠ []) ∧ (Room d.flagByte ↔ d.tx.length < d.cap) := by
  unfold Fifo.flagByte Idle Received Room
  have key : ∀ (p q r : Prop) [Decidable p] [Decidable q] [Decidable r],
      (((((if p then 0 else 8 : UInt8) ||| if q then 16 else 0) ||| if r then 0 else 32).toNat.testBit 3 = false) ↔ p) ∧
      (((((if p then 0 else 8 : UInt8) ||| if q then 16 else 0) ||| if r then 0 else 32).toNat.testBit 4 = false) ↔ ¬ q) ∧
      (((((if p then 0 else 8 : UInt8) ||| if q then 16 else 0) ||| if r then 0 else 32).toNat.testBit 5 = false) ↔ r) := by
    intro p q r _ _ _
    by_cases h1 : p <;> by_cases h2 : q <;> by_cases h3 : r <;>
      simp only [h1, h2, h3, if_true, if_false, not_true_eq_false, not_false_eq_true] <;> decide
  exact key _ _ _

theorem wait_fifo_succ (mask : UInt8) (n : Nat) (d : Fifo) : waitClear (fifo sched) mask (n + 1) d =
    if (d.pass sched).flagByte &&& mask = 0 then some ⟨(), [.flag (d.pass sched).flagByte], d.pass sched⟩
    else (waitClear (fifo sched) mask n (d.pass sched)).map fun r => { r with log := .flag (d.pass sched).flagByte :: r.log } := by
  rw [waitClear]
  by_cases h : (d.pass sched).flagByte &&& mask = 0
  · rw [if_pos h]
    exact if_neg (fun hn => hn h)
  · rw [if_neg h]
    exact if_pos h

theorem wait_fifo {mask : UInt8} : ∀ {n : Nat} {d : Fifo} {r : Ran Fifo Unit}, waitClear (fifo sched) mask n d = some r →
    r.port.sent = d.sent ∧ r.port.lost = d.lost ∧ r.port.cap = d.cap ∧ r.port.flagByte &&& mask = 0
  | 0, s, r, h => by simp [waitClear] at h
  | n + 1, d, r, h => by
    rw [wait_fifo_succ] at h
    split at h
    · rename_i hf
      simp only [Option.some.injEq] at h
      subst h
      exact ⟨pass_sent d, rfl, rfl, hf⟩
    · rw [Option.map_eq_some_iff] at h
      obtain ⟨r', h', rfl⟩ := h
      have := wait_fifo h'
      simpa [pass_sent, pass_lost, pass_cap] using this

theorem writeByte_fifo {n : Nat} {b : UInt8} {d : Fifo} {r : Ran Fifo Unit} (h : writeByte (fifo sched) n b d = some r) :
    r.port.sent = d.sent ++ [b] ∧ r.port.lost = d.lost ∧ r.port.cap = d.cap ∧ r.port.tx = [] := by
  rw [writeByte, Option.bind_eq_some_iff] at h
  obtain ⟨r1, h1, h⟩ := h
  rw [Option.map_eq_some_iff] at h
  obtain ⟨r2, h2, rfl⟩ := h
  obtain ⟨s1, l1, c1, f1⟩ := wait_fifo h1
  obtain ⟨s2, l2, c2, f2⟩ := wait_fifo h2
  have hr := (flagByte_spec r1.port).2.2.1 ((flag_bits _).2.2.1 f1)
  have hi := (flagByte_spec r2.port).1.1 ((flag_bits _).1.1 f2)
  have hp := pass_room (sched := sched) hr
  have e : (fifo sched).put b r1.port = { r1.port.pass sched with tx := (r1.port.pass sched).tx ++ [b] } := by
    simp only [fifo, hp, if_true]
  rw [e] at s2 l2 c2
  have ps := pass_sent (sched := sched) r1.port
  refine ⟨?_, ?_, ?_, hi⟩
  · rw [s2, ← s1, ← ps]
    simp [Fifo.sent]
  · rw [l2, ← l1]; rfl
  · rw [c2, ← c1]; rfl

/-- On the port of the manual, whatever the speed at which it sends: once `write` has returned, the bytes of the buffer are on the wire, in order,
right after what was given to the port before, and none was lost. -/
theorem on_the_wire {n : Nat} : ∀ {bs : List UInt8} {d : Fifo} {r : Ran Fifo Unit}, write (fifo sched) n bs d = some r →
    r.port.sent = d.sent ++ bs ∧ r.port.lost = d.lost ∧ (bs ≠ [] → r.port.wire = d.wire ++ d.tx ++ bs)
  | [], d, r, h => by
    simp only [write, Option.some.injEq] at h
    subst h
    simp
  | b :: bs, d, r, h => by
    rw [write, Option.bind_eq_some_iff] at h
    obtain ⟨r1, h1, h⟩ := h
    rw [Option.map_eq_some_iff] at h
    obtain ⟨r2, h2, rfl⟩ := h
    obtain ⟨s1, l1, c1, t1⟩ := writeByte_fifo h1
    obtain ⟨s2, l2, w2⟩ := on_the_wire h2
    refine ⟨by simp [s2, s1], by simp [l2, l1], fun _ => ?_⟩
    cases bs with
    | nil =>
      simp only [write, Option.some.injEq] at h2
      subst h2
      simp only [Fifo.sent, t1, List.append_nil] at s1
      simpa using s1
    | cons b' bs =>
      have := w2 (by simp)
      simp only [Fifo.sent, t1, List.append_nil] at s1
      simp [this, t1, s1]

/-- A port that sends something again and again: `write` returns. -/
theorem write_returns_flags {mask : UInt8} (hm : ∀ f : UInt8, Idle f → Room f → f &&& mask = 0) (hs : ∀ n, ∃ m, n ≤ m ∧ 0 < (sched m).1) :
    ∀ (k : Nat) {d : Fifo}, d.tx.length ≤ k → 0 < d.cap → ∃ n r, waitClear (fifo sched) mask n d = some r := by
  have step : ∀ d : Fifo, (∃ n r, waitClear (fifo sched) mask n (d.pass sched) = some r) → ∃ n r, waitClear (fifo sched) mask n d = some r := by
    rintro d ⟨n, r, h⟩
    refine ⟨n + 1, ?_⟩
    rw [wait_fifo_succ]
    split
    · exact ⟨_, rfl⟩
    · exact ⟨_, by rw [h]; rfl⟩
  intro k
  induction k with
  | zero =>
    intro d hd hc
    refine ⟨1, ?_⟩
    have ht : (d.pass sched).tx = [] := by
      have : d.tx = [] := List.length_eq_zero_iff.1 (by omega)
      simp [Fifo.pass, this]
    have hi := (flagByte_spec (d.pass sched)).1.2 ht
    have hr := (flagByte_spec (d.pass sched)).2.2.2 (by rw [ht]; exact hc)
    have := hm _ hi hr
    rw [wait_fifo_succ, if_pos this]
    exact ⟨_, rfl⟩
  | succ k ih =>
    intro d hd hc
    obtain ⟨m, hm1, hm2⟩ := hs d.now
    have gen : ∀ (j : Nat) (d : Fifo), d.now + j = m → d.tx.length ≤ k + 1 → 0 < d.cap → ∃ n r, waitClear (fifo sched) mask n d = some r := by
      intro j
      induction j with
      | zero =>
        intro d hn hd hc
        apply step
        apply ih (d := d.pass sched) _ hc
        have : d.now = m := by omega
        simp only [Fifo.pass, List.length_drop, this]
        omega
      | succ j ihj =>
        intro d hn hd hc
        apply step
        apply ihj (d.pass sched) _ _ hc
        · simp only [Fifo.pass]; omega
        · simp only [Fifo.pass, List.length_drop]; omega
    exact gen (m - d.now) d (by omega) hd hc

theorem wait_more {mask : UInt8} : ∀ {n : Nat} {s : σ} {r : Ran σ Unit}, waitClear P mask n s = some r → ∀ m, n ≤ m → waitClear P mask m s = some r
  | 0, s, r, h, _, _ => by simp [waitClear] at h
  | n + 1, s, r, h, 0, hm => by omega
  | n + 1, s, r, h, m + 1, hm => by
    rw [waitClear] at h ⊢
    by_cases hf : (P.flags s).1 &&& mask ≠ 0
    · simp only [hf, ne_eq, not_false_eq_true, if_true, Option.map_eq_some_iff] at h ⊢
      obtain ⟨r', h', rfl⟩ := h
      exact ⟨r', wait_more h' m (by omega), rfl⟩
    · simpa only [hf, if_false] using h

theorem writeByte_more {n m : Nat} {b : UInt8} {s : σ} {r : Ran σ Unit} (h : writeByte P n b s = some r) (hm : n ≤ m) : writeByte P m b s = some r := by
  rw [writeByte, Option.bind_eq_some_iff] at h ⊢
  obtain ⟨r1, h1, h⟩ := h
  rw [Option.map_eq_some_iff] at h
  obtain ⟨r2, h2, rfl⟩ := h
  exact ⟨r1, wait_more h1 m hm, by rw [wait_more h2 m hm]; rfl⟩

theorem write_more {n m : Nat} (hm : n ≤ m) : ∀ {bs : List UInt8} {s : σ} {r : Ran σ Unit}, write P n bs s = some r → write P m bs s = some r
  | [], s, r, h => h
  | b :: bs, s, r, h => by
    rw [write, Option.bind_eq_some_iff] at h ⊢
    obtain ⟨r1, h1, h⟩ := h
    rw [Option.map_eq_some_iff] at h
    obtain ⟨r2, h2, rfl⟩ := h
    exact ⟨r1, writeByte_more h1 hm, by rw [write_more hm h2]; rfl⟩

/-- If the port has room for at least one byte and goes on sending, `write` returns, whatever the buffer. -/
theorem write_returns (hs : ∀ n, ∃ m, n ≤ m ∧ 0 < (sched m).1) : ∀ (bs : List UInt8) (d : Fifo), 0 < d.cap →
    ∃ n r, write (fifo sched) n bs d = some r
  | [], d, _ => ⟨0, _, rfl⟩
  | b :: bs, d, hc => by
    obtain ⟨n1, r1, h1⟩ := write_returns_flags (mask := FR_TXFF) (fun f _ h => (flag_bits f).2.2.2 h) hs _ (d := d) (Nat.le_refl _) hc
    obtain ⟨-, -, c1, -⟩ := wait_fifo h1
    have hc2 : 0 < ((fifo sched).put b r1.port).cap := by
      simp only [fifo]
      split <;> simp [Fifo.pass, c1, hc]
    obtain ⟨n2, r2, h2⟩ := write_returns_flags (mask := FR_BUSY) (fun f h _ => (flag_bits f).1.2 h) hs _ (Nat.le_refl _) hc2
    have hb : writeByte (fifo sched) (max n1 n2) b d = some ⟨(), r1.log ++ .put b :: r2.log, r2.port⟩ := by
      rw [writeByte, wait_more h1 _ (by omega)]
      simp only [Option.bind_some]
      rw [wait_more h2 _ (by omega)]
      rfl
    obtain ⟨-, -, c3, -⟩ := writeByte_fifo hb
    obtain ⟨n3, r3, h3⟩ := write_returns hs bs r2.port (by rw [c3]; exact hc)
    refine ⟨max (max n1 n2) n3, ⟨(), (r1.log ++ .put b :: r2.log) ++ r3.log, r3.port⟩, ?_⟩
    rw [write, writeByte_more hb (by omega)]
    simp only [Option.bind_some]
    rw [write_more (by omega) h3]
    rfl

/-- A port that sends nothing any more, such as one that was never enabled, is waited for without end: `write` does not return, and there is no
time-out. -/
theorem write_hangs (hs : ∀ m, (sched m).1 = 0) (b : UInt8) (bs : List UInt8) (d : Fifo) (n : Nat) : write (fifo sched) n (b :: bs) d = none := by
  have stuck : ∀ (n : Nat) (d : Fifo), d.tx ≠ [] → waitClear (fifo sched) FR_BUSY n d = none := by
    intro n
    induction n with
    | zero => intro d _; rfl
    | succ n ih =>
      intro d hd
      have ht : (d.pass sched).tx ≠ [] := by simpa [Fifo.pass, hs] using hd
      have : ¬ ((d.pass sched).flagByte &&& FR_BUSY = 0) := fun h => ht ((flagByte_spec _).1.1 ((flag_bits _).1.1 h))
      rw [wait_fifo_succ, if_neg this, ih _ ht]
      rfl
  cases hw : write (fifo sched) n (b :: bs) d with
  | none => rfl
  | some r =>
    rw [write, Option.bind_eq_some_iff] at hw
    obtain ⟨r1, h1, -⟩ := hw
    rw [writeByte, Option.bind_eq_some_iff] at h1
    obtain ⟨r0, h0, h1⟩ := h1
    rw [Option.map_eq_some_iff] at h1
    obtain ⟨r2, h2, -⟩ := h1
    obtain ⟨-, -, -, f1⟩ := wait_fifo h0
    have hp := pass_room (sched := sched) ((flagByte_spec r0.port).2.2.1 ((flag_bits _).2.2.1 f1))
    rw [stuck] at h2
    · simp at h2
    · simp only [fifo, hp, if_true]
      simp

/-- All that came in, in order: what was read followed by what is still in the port. -/
theorem read_oldest : ∀ {n : Nat} {d : Fifo} {r : Ran Fifo UInt8}, read (fifo sched) n d = some r →
    ∃ came, d.rx ++ came = r.val :: r.port.rx ∧ r.port.sent = d.sent ∧ r.port.lost = d.lost
  | 0, d, r, h => by simp [read] at h
  | n + 1, d, r, h => by
    rw [read] at h
    unfold readByte at h
    simp only [fifo] at h
    by_cases hf : (d.pass sched).flagByte &&& FR_RXFE ≠ 0
    · simp only [hf, ne_eq, not_false_eq_true, if_true, Option.map_eq_some_iff] at h
      obtain ⟨r', h', rfl⟩ := h
      obtain ⟨came, hc, hs, hl⟩ := read_oldest (n := n) h'
      refine ⟨(sched d.now).2 ++ came, ?_, by rw [← pass_sent (sched := sched) d]; exact hs, hl⟩
      rw [← List.append_assoc]
      exact hc
    · simp only [hf, if_false] at h
      have hr := (flagByte_spec (d.pass sched)).2.1.1 ((flag_bits _).2.1.1 (by simpa using hf))
      have hr2 : ((d.pass sched).pass sched).rx ≠ [] := by
        simp only [Fifo.pass] at hr ⊢
        simp only [ne_eq, List.append_eq_nil_iff] at hr ⊢
        exact fun h => hr h.1
      cases e : ((d.pass sched).pass sched).rx with
      | nil => exact absurd e hr2
      | cons b t =>
        simp only [e, Option.some.injEq] at h
        subst h
        refine ⟨(sched d.now).2 ++ (sched (d.now + 1)).2, ?_, ?_, rfl⟩
        · rw [← List.append_assoc]
          exact e
        · rw [← pass_sent (sched := sched) d, ← pass_sent (sched := sched) (d.pass sched)]
          rfl

/-- The port that is not there takes everything, never has anything and cannot be waited for. -/
theorem null_port (bs : List UInt8) : nullWrite bs = [] ∧ nullTryRead = none ∧ nullRead = .panic := ⟨rfl, rfl, rfl⟩

/-! ## The hypotheses are met -/

/-- A port that sends a byte every third access and receives `7` before the fourth. -/
def slow : Nat → Nat × List UInt8 := fun i => (if i % 3 = 2 then 1 else 0, if i = 3 then [7] else [])

example : ∀ n, ∃ m, n ≤ m ∧ 0 < (slow m).1 := fun n => ⟨3 * n + 2, by omega, by simp [slow]⟩

example : ((write (fifo slow) 9 [1, 2] ⟨1, [5], [4], [], [], 0⟩).map fun r => (r.log, r.port.wire, r.port.lost)) =
    some ([.flag 56, .flag 56, .flag 16, .put 1, .flag 40, .flag 0, .flag 0, .put 2, .flag 0], [4, 5, 1, 2], []) := by decide +kernel

example : ((read (fifo slow) 9 ⟨1, [5], [4], [], [], 0⟩).map fun r => (r.val, r.log)) =
    some (7, [.flag 56, .flag 56, .flag 16, .flag 0, .get 7]) := by decide +kernel

end Verif.Uart
