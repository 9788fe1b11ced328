import Verif.Prelude
/-!
C138: how the debugger keeps its connection over several stops: `enter_debugger` and the loop of `handle_interrupt`, `/repo/core/patina_debugger/src/debugger.rs` lines 160-252
and 386-411.

* The stub that decodes the packets of the other side is the crate `gdbstub`. It is a parameter: its states, what it does with a byte, and so on. What it sends is a list of bytes.
  Its look ahead into the connection (`peek`) is in `Verif.Debugger.Stop` and left out here.
* `T` is the stopped program with everything the other side can change (`PatinaTarget`).
* `input` are the bytes that will come in; `ready` of them have come in when the debugger is entered.
-/
namespace Verif.Debugger.Session

/-- `GdbStubStateMachine`. -/
inductive Sm (G : Type) where
  | idle (g : G)
  | running (g : G)
  | ctrlC (g : G)
  | disconnected (g : G)

/-- The crate `gdbstub`: what a call gives, what it does to the program and what it sends. `none` is an error. -/
structure Stub (G T : Type) where
  start : T → Option (Sm G) × T × List UInt8
  incoming : G → T → UInt8 → Option (Sm G) × T × List UInt8
  stop : G → T → Option (Sm G) × T × List UInt8
  interrupt : G → T → Option (Sm G) × T × List UInt8
  toIdle : G → Sm G
  resumed : T → Bool
  reboot : T → Bool

/-- `DebugError` -/
inductive Err | reentry | notInitialized | stubInit | stub | rebootFailure
deriving DecidableEq, Repr

/-- What of the debugger stays between stops: the connection, if there is one, and whether `initialize` gave it a buffer. -/
structure Kept (G : Type) where
  session : Option (Sm G)
  buffer : Bool

/-- The line to the other side: what will come in, and what was sent. -/
structure Line where
  input : List UInt8
  sent : List UInt8
deriving DecidableEq, Repr

/-- `$T05thread:01;#07` -/
def STOP : List UInt8 := [0x24, 0x54, 0x30, 0x35, 0x74, 0x68, 0x72, 0x65, 0x61, 0x64, 0x3A, 0x30, 0x31, 0x3B, 0x23, 0x30, 0x37]

variable {G T : Type} (S : Stub G T)

/-- The loop, lines 196-238; `got` are the bytes that were given to the stub. `none`: it still waits for a byte, or has not ended after that many rounds.
A failure of the transport (line 208) cannot occur: `SerialConnection::read` has no error. -/
def loop : Nat → Sm G → T → Line → List UInt8 → Option (Option (Sm G) × T × Line × List UInt8)
  | 0, _, _, _, _ => none
  | n + 1, sm, t, l, got =>
    if S.resumed t then some (some sm, t, l, got)
    else match sm with
      | .idle g =>
        match l.input with
        | [] => none
        | b :: bs =>
          if b = 0 then loop n (.idle g) t { l with input := bs } got
          else match S.incoming g t b with
            | (some sm, t, out) => loop n sm t ⟨bs, l.sent ++ out⟩ (got ++ [b])
            | (none, t, out) => some (none, t, ⟨bs, l.sent ++ out⟩, got ++ [b])
      | .running g =>
        match S.stop g t with
        | (some sm, t, out) => loop n sm t { l with sent := l.sent ++ out } got
        | (none, t, out) => some (none, t, { l with sent := l.sent ++ out }, got)
      | .ctrlC g =>
        match S.interrupt g t with
        | (some sm, t, out) => loop n sm t { l with sent := l.sent ++ out } got
        | (none, t, out) => some (none, t, { l with sent := l.sent ++ out }, got)
      | .disconnected g => loop n (S.toIdle g) t l got

/-- What a stop comes to: the result, the program, what is kept, the line, and the bytes that the stub was given. -/
structure Out (G T : Type) where
  result : Except Err Unit
  target : T
  kept : Kept G
  line : Line
  got : List UInt8

/-- Lines 196-252, once there is a connection, which has been taken out of what is kept (line 170). -/
def serve (fuel : Nat) (buffer : Bool) (sm : Sm G) (t : T) (l : Line) : Option (Out G T) :=
  match loop S fuel sm t l [] with
  | none => none
  | some (none, t, l, got) => some ⟨.error .stub, t, ⟨none, buffer⟩, l, got⟩
  | some (some sm, t, l, got) =>
    if S.reboot t then some ⟨.error .rebootFailure, t, ⟨none, buffer⟩, l, got⟩
    else some ⟨.ok (), t, ⟨some sm, buffer⟩, l, got⟩

/-- `enter_debugger`, lines 160-252. `locked`: the debugger is already working on another stop. -/
def enter (fuel : Nat) (locked : Bool) (k : Kept G) (t : T) (l : Line) (ready : Nat) : Option (Out G T) :=
  if locked then some ⟨.error .reentry, t, k, l, []⟩
  else match k.session with
    | some sm => serve S fuel k.buffer sm t l
    | none =>
      if k.buffer = false then some ⟨.error .notInitialized, t, k, l, []⟩
      else match S.start t with
        | (none, t, out) => some ⟨.error .stubInit, t, ⟨none, k.buffer⟩, ⟨l.input.drop ready, l.sent ++ STOP ++ out⟩, []⟩
        | (some sm, t, out) => serve S fuel k.buffer sm t ⟨l.input.drop ready, l.sent ++ STOP ++ out⟩

/-- How a stop ends: the program goes on, or the debugger loops for ever (`debugger_crash`, lines 415-425). -/
inductive End | resumed | crashed (e : Err)
deriving DecidableEq, Repr

/-- The loop of `handle_interrupt`, lines 386-411. Each round has the program as `entry` makes it (`process_entry`) from the one before; what a session with an error did to it
is lost with it, except for what is kept in `T` by `entry`. `ready` for each round. `locked` stays as it is, because whoever holds the lock is what was stopped. -/
def handle (locked : Bool) (entry : T → T) (fuel : Nat) : List Nat → Kept G → T → Line → Option (End × T × Kept G × Line)
  | [], _, _, _ => none
  | ready :: more, k, t, l =>
    match enter S fuel locked k (entry t) l ready with
    | none => none
    | some o =>
      match o.result with
      | .ok _ => some (.resumed, o.target, o.kept, o.line)
      | .error .stub => handle locked entry fuel more o.kept o.target o.line
      | .error e => some (.crashed e, o.target, o.kept, o.line)

/-! ### Theorems -/

variable {S}

/-- What the loop does to the line: some bytes are taken, those that are not zero are given to the stub, in order; what was sent stays and more follows. -/
theorem loop_line : ∀ {n : Nat} {sm : Sm G} {t : T} {l : Line} {got : List UInt8} {r t' l' got'}, loop S n sm t l got = some (r, t', l', got') →
    ∃ taken out, l.input = taken ++ l'.input ∧ got' = got ++ taken.filter (fun b => b ≠ 0) ∧ l'.sent = l.sent ++ out ∧ (r ≠ none → S.resumed t' = true) := by
  intro n
  induction n with
  | zero => intro sm t l got r t' l' got' h; cases h
  | succ n ih =>
    intro sm t l got r t' l' got' h
    unfold loop at h
    split at h
    · rename_i hr
      injection h with h; injection h with h1 h; injection h with h2 h; injection h with h3 h4
      subst h1; subst h2; subst h3; subst h4
      exact ⟨[], [], by simp, by simp, by simp, fun _ => hr⟩
    · split at h
      · split at h
        · cases h
        · rename_i b bs hb
          split at h
          · rename_i h0
            obtain ⟨taken, out, k1, k2, k3, k4⟩ := ih h
            exact ⟨b :: taken, out, by rw [hb, List.cons_append, ← k1], by rw [k2, List.filter_cons_of_neg (by simp [h0])], k3, k4⟩
          · rename_i h0
            split at h
            · obtain ⟨taken, out, k1, k2, k3, k4⟩ := ih h
              exact ⟨b :: taken, _ ++ out, by rw [hb, List.cons_append, ← k1], by rw [k2, List.filter_cons_of_pos (by simp [h0])]; simp, k3.trans (List.append_assoc _ _ _), k4⟩
            · injection h with h; injection h with h1 h; injection h with h2 h; injection h with h3 h4
              subst h1; subst h2; subst h3; subst h4
              exact ⟨[b], _, by rw [hb]; rfl, by simp [h0], rfl, fun hh => absurd rfl hh⟩
      · split at h
        · obtain ⟨taken, out, k1, k2, k3, k4⟩ := ih h
          exact ⟨taken, _ ++ out, k1, k2, k3.trans (List.append_assoc _ _ _), k4⟩
        · injection h with h; injection h with h1 h; injection h with h2 h; injection h with h3 h4
          subst h1; subst h2; subst h3; subst h4
          exact ⟨[], _, by simp, by simp, rfl, fun hh => absurd rfl hh⟩
      · split at h
        · obtain ⟨taken, out, k1, k2, k3, k4⟩ := ih h
          exact ⟨taken, _ ++ out, k1, k2, k3.trans (List.append_assoc _ _ _), k4⟩
        · injection h with h; injection h with h1 h; injection h with h2 h; injection h with h3 h4
          subst h1; subst h2; subst h3; subst h4
          exact ⟨[], _, by simp, by simp, rfl, fun hh => absurd rfl hh⟩
      · exact ih h

theorem serve_line {fuel : Nat} {buffer : Bool} {sm : Sm G} {t : T} {l : Line} {o : Out G T} (h : serve S fuel buffer sm t l = some o) :
    (∃ taken out, l.input = taken ++ o.line.input ∧ o.got = taken.filter (fun b => b ≠ 0) ∧ o.line.sent = l.sent ++ out) ∧ o.kept.buffer = buffer ∧
      (o.kept.session.isSome = true ↔ o.result = .ok ()) ∧ (o.result = .ok () → S.resumed o.target = true ∧ S.reboot o.target = false) ∧
      (o.result = .ok () ∨ o.result = .error .stub ∨ (o.result = .error .rebootFailure ∧ S.resumed o.target = true ∧ S.reboot o.target = true)) := by
  unfold serve at h
  split at h
  · cases h
  · rename_i hl
    injection h with h; subst h
    obtain ⟨taken, out, k1, k2, k3, _⟩ := loop_line hl
    exact ⟨⟨taken, out, k1, by rw [k2]; rfl, k3⟩, rfl, by simp, by simp, Or.inr (Or.inl rfl)⟩
  · rename_i hl
    obtain ⟨taken, out, k1, k2, k3, k4⟩ := loop_line hl
    split at h
    · rename_i hb
      injection h with h; subst h
      exact ⟨⟨taken, out, k1, by rw [k2]; rfl, k3⟩, rfl, by simp, by simp, Or.inr (Or.inr ⟨rfl, k4 (by simp), hb⟩)⟩
    · rename_i hb
      injection h with h; subst h
      exact ⟨⟨taken, out, k1, by rw [k2]; rfl, k3⟩, rfl, by simp, fun _ => ⟨k4 (by simp), by simpa using hb⟩, Or.inl rfl⟩

variable {fuel ready : Nat} {locked : Bool} {k : Kept G} {t : T} {l : Line} {o : Out G T}

/-- C138: a second stop while the debugger works on a first is reported as such and changes neither the program, nor the connection, nor the line. -/
theorem reentry_changes_nothing : enter S fuel true k t l ready = some ⟨.error .reentry, t, k, l, []⟩ := rfl

/-- C138, finding: but nobody goes on after it: a fault inside the debugger, other than one it probes memory with, ends in its endless loop, without a word to the other side. -/
theorem reentry_crashes {entry : T → T} {rs : List Nat} : handle S true entry fuel (ready :: rs) k t l = some (.crashed .reentry, entry t, k, l) := rfl

/-- C138: with a connection from an earlier stop nothing is thrown away: every byte that is taken from the line and is not zero is given to the stub, once and in order, and nothing is
sent but what the stub sends after what was sent before. -/
theorem connection_continues {sm : Sm G} (hs : k.session = some sm) (h : enter S fuel false k t l ready = some o) :
    ∃ taken, l.input = taken ++ o.line.input ∧ o.got = taken.filter (fun b => b ≠ 0) ∧ l.sent <+: o.line.sent ∧ serve S fuel k.buffer sm t l = some o := by
  have h : serve S fuel k.buffer sm t l = some o := by
    unfold enter at h; rw [if_neg (by simp), hs] at h; exact h
  obtain ⟨⟨taken, out, k1, k2, k3⟩, _⟩ := serve_line h
  exact ⟨taken, k1, k2, ⟨out, k3.symm⟩, h⟩

/-- C138: without one, what had come in before is thrown away, the other side is told of the stop, and after that every byte that is not zero reaches the stub, once and in order. -/
theorem connection_starts (hs : k.session = none) (hb : k.buffer = true) (h : enter S fuel false k t l ready = some o) :
    ∃ taken, l.input.drop ready = taken ++ o.line.input ∧ o.got = taken.filter (fun b => b ≠ 0) ∧ (l.sent ++ STOP) <+: o.line.sent := by
  unfold enter at h
  rw [if_neg (by simp), hs] at h
  dsimp only at h
  rw [if_neg (by simp [hb])] at h
  split at h
  · injection h with h; subst h
    exact ⟨[], rfl, rfl, ⟨_, rfl⟩⟩
  · rename_i out0 _
    obtain ⟨⟨taken, out, k1, k2, k3⟩, _⟩ := serve_line h
    exact ⟨taken, k1, k2, ⟨out0 ++ out, by rw [k3]; simp⟩⟩

/-- C138: before the debugger is initialized a stop is an error, and nothing is sent. -/
theorem not_initialized (hs : k.session = none) (hb : k.buffer = false) : enter S fuel false k t l ready = some ⟨.error .notInitialized, t, k, l, []⟩ := by
  unfold enter
  rw [if_neg (by simp), hs]
  dsimp only
  rw [if_pos hb]

/-- C138: the program goes on only if the other side resumed it without asking for a reboot, and then the connection is kept for the next stop; after any error of a stop there is
none, so the next stop starts anew. -/
theorem kept_iff_resumed (h : enter S fuel false k t l ready = some o) :
    (o.result = .ok () → S.resumed o.target = true ∧ S.reboot o.target = false) ∧ (o.kept.session.isSome = true ↔ o.result = .ok ()) ∧ o.kept.buffer = k.buffer := by
  unfold enter at h
  rw [if_neg (by simp)] at h
  split at h
  · obtain ⟨_, h1, h2, h3, _⟩ := serve_line h
    exact ⟨h3, h2, h1⟩
  · rename_i hs
    split at h
    · injection h with h; subst h
      exact ⟨by simp, by simp [hs], rfl⟩
    · split at h
      · injection h with h; subst h
        exact ⟨by simp, by simp, rfl⟩
      · obtain ⟨_, h1, h2, h3, _⟩ := serve_line h
        exact ⟨h3, h2, h1⟩

/-- C138: what a stop can come to, once the debugger has its buffer. -/
theorem results (hb : k.buffer = true) (h : enter S fuel false k t l ready = some o) :
    o.result = .ok () ∨ o.result = .error .stub ∨ (o.result = .error .rebootFailure ∧ S.resumed o.target = true ∧ S.reboot o.target = true) ∨
      (o.result = .error .stubInit ∧ k.session = none ∧ (S.start t).1 = none) := by
  unfold enter at h
  rw [if_neg (by simp)] at h
  split at h
  · obtain ⟨_, _, _, _, h4 | h4 | h4⟩ := serve_line h
    · exact Or.inl h4
    · exact Or.inr (Or.inl h4)
    · exact Or.inr (Or.inr (Or.inl h4))
  · rename_i hs
    rw [if_neg (by simp [hb])] at h
    split at h
    · rename_i hst
      injection h with h; subst h
      exact Or.inr (Or.inr (Or.inr ⟨rfl, hs, by rw [hst]⟩))
    · obtain ⟨_, _, _, _, h4 | h4 | h4⟩ := serve_line h
      · exact Or.inl h4
      · exact Or.inr (Or.inl h4)
      · exact Or.inr (Or.inr (Or.inl h4))

/-- How often `x` is contained, without overlaps counted twice, at the given places: `l` has the parts in order. -/
inductive Parts (x : List UInt8) : Nat → List UInt8 → Prop
  | none (l : List UInt8) : Parts x 0 l
  | more {n : Nat} {l : List UInt8} (rest : List UInt8) : Parts x n l → Parts x (n + 1) (l ++ x ++ rest)

theorem Parts.append {x l : List UInt8} {n : Nat} (h : Parts x n l) (r : List UInt8) : Parts x n (l ++ r) := by
  cases h with
  | none => exact .none _
  | more rest h => rw [List.append_assoc]; exact .more (rest ++ r) h

/-- C138: a stop ends with the program resumed after any number of errors of the stub; for each of them the other side is told of the stop once more. -/
theorem told_again {entry : T → T} {e : End} {t' : T} {k' : Kept G} {l' : Line} : ∀ {rs : List Nat} {k : Kept G} {t : T} {l : Line} {n : Nat},
    k.buffer = true → Parts STOP n l.sent → handle S false entry fuel rs k t l = some (e, t', k', l') →
    ∃ rounds, rounds < rs.length ∧ Parts STOP (n + rounds + if k.session.isSome then 0 else 1) l'.sent ∧ (e = .resumed → k'.session.isSome = true ∧ S.resumed t' = true) := by
  intro rs
  induction rs with
  | nil => intro k t l n _ _ h; cases h
  | cons r rs ih =>
    intro k t l n hb hn h
    unfold handle at h
    split at h
    · cases h
    · rename_i o ho
      have hk := kept_iff_resumed ho
      have hsent : Parts STOP (n + if k.session.isSome then 0 else 1) o.line.sent := by
        cases hs : k.session with
        | some sm =>
          obtain ⟨_, _, _, ⟨out, h3⟩, _⟩ := connection_continues hs ho
          rw [← h3]; exact hn.append _
        | none =>
          obtain ⟨_, _, _, ⟨out, h3⟩⟩ := connection_starts hs hb ho
          rw [← h3]; exact .more out hn
      split at h
      · rename_i hres
        injection h with h; injection h with h1 h; injection h with h2 h; injection h with h3 h4
        subst h1; subst h2; subst h3; subst h4
        exact ⟨0, by simp, by simpa using hsent, fun _ => ⟨hk.2.1.2 hres, (hk.1 hres).1⟩⟩
      · rename_i hres
        have hnone : o.kept.session.isSome = false := by
          cases hx : o.kept.session.isSome with
          | false => rfl
          | true => have := hk.2.1.1 hx; rw [hres] at this; cases this
        obtain ⟨rounds, q1, q2, q3⟩ := ih (hk.2.2.trans hb) hsent h
        refine ⟨rounds + 1, by simp only [List.length_cons]; omega, ?_, q3⟩
        rw [hnone] at q2
        have : n + (rounds + 1) + (if k.session.isSome then 0 else 1) = n + (if k.session.isSome then 0 else 1) + rounds + (if false = true then 0 else 1) := by
          rw [if_neg (by simp : ¬ (false = true))]; omega
        rw [this]; exact q2
      · rename_i hres
        injection h with h; injection h with h1 h; injection h with h2 h; injection h with h3 h4
        subst h1; subst h2; subst h3; subst h4
        exact ⟨0, by simp, by simpa using hsent, fun h => by cases h⟩

/-- C138: a stop ends in the endless loop of the debugger only if the stub cannot be started, or if the other side asked for a reboot and the machine did not reboot. -/
theorem crash_reason {entry : T → T} {x : Err} {t' : T} {k' : Kept G} {l' : Line} : ∀ {rs : List Nat} {k : Kept G} {t : T} {l : Line},
    k.buffer = true → handle S false entry fuel rs k t l = some (.crashed x, t', k', l') →
    (x = .rebootFailure ∧ S.resumed t' = true ∧ S.reboot t' = true) ∨ (x = .stubInit ∧ ∃ t, (S.start t).1 = none) := by
  intro rs
  induction rs with
  | nil => intro k t l _ h; cases h
  | cons r rs ih =>
    intro k t l hb h
    unfold handle at h
    split at h
    · cases h
    · rename_i o ho
      have hk := (kept_iff_resumed ho).2.2.trans hb
      have hr := results hb ho
      split at h
      · cases h
      · exact ih hk h
      · rename_i e hne hres
        injection h with h; injection h with h1 h; injection h with h2 h; injection h1 with h1
        subst h1; subst h2
        rw [hres] at hr
        rcases hr with hr | hr | ⟨hr, h4⟩ | ⟨hr, _, h4⟩
        · cases hr
        · injection hr with hr; exact absurd hr hne
        · injection hr with hr; exact Or.inl ⟨hr, h4⟩
        · injection hr with hr; exact Or.inr ⟨hr, _, h4⟩

/-! ### A concrete case -/

/-- A stub that answers each byte with `+`, resumes at `c`, fails at `!`, and asks for a reboot at `r`. The program is (resumed, reboot). -/
def demo : Stub Unit (Bool × Bool) where
  start := fun t => (some (.running ()), t, [])
  incoming := fun _ t b =>
    if b = 0x21 then (none, t, []) else (some (.idle ()), (t.1 || b == 0x63 || b == 0x72, t.2 || b == 0x72), [0x2B])
  stop := fun _ t => (some (.idle ()), t, [0x53])
  interrupt := fun _ t => (some (.idle ()), t, [])
  toIdle := .idle
  resumed := (·.1)
  reboot := (·.2)

/-- A first stop: two stale bytes are dropped, the stop is told, a zero is skipped; a second stop goes on with the connection. -/
example : ((enter demo 10 false ⟨none, true⟩ (false, false) ⟨[1, 2, 0x67, 0, 0x63, 9], []⟩ 2).map fun o => (o.result.toBool, o.line, o.got, o.kept.session.isSome)) =
      some (true, ⟨[9], STOP ++ [0x53, 0x2B, 0x2B]⟩, [0x67, 0x63], true) ∧
    ((enter demo 10 false ⟨some (.idle ()), true⟩ (false, false) ⟨[9, 0x63], [7]⟩ 1).map fun o => (o.result.toBool, o.line, o.got)) =
      some (true, ⟨[], [7, 0x2B, 0x2B]⟩, [9, 0x63]) := by decide

/-- An error of the stub in the middle: the stop is told again, and the program is resumed in the second round. -/
example : ((handle demo false (fun _ => (false, false)) 10 [0, 0] ⟨some (.idle ()), true⟩ (false, false) ⟨[0x67, 0x21, 0x63], []⟩).map fun x => (x.1, x.2.2.1.session.isSome, x.2.2.2)) =
    some (.resumed, true, ⟨[], [0x2B] ++ STOP ++ [0x53, 0x2B]⟩) := by decide

/-- A reboot that does not happen ends in a crash of the debugger. -/
example : ((handle demo false (fun _ => (false, false)) 10 [0, 0] ⟨some (.idle ()), true⟩ (false, false) ⟨[0x72], []⟩).map (·.1)) = some (.crashed .rebootFailure) := by decide

end Verif.Debugger.Session
