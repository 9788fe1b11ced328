import Verif.Mm.Lemmas
/-! C42: the MM communicate buffer. -/
namespace Verif.Mm

/-- C42 (write): in any buffer (whatever its bytes) with enough room, setting recipient and message succeeds;
afterwards the memory is exactly recipient, length, message, and the untouched rest; and all getters
return what was set. -/
theorem set_then_get (b : Buf) (g : Guid) (m : List UInt8) (hr : HEADER + m.length ≤ b.mem.length)
    (hsz : b.mem.length < 2 ^ 64) (hold : b.msgLen < 2 ^ 64) :
    (b.setInfo g).1 = .ok () ∧
    ((b.setInfo g).2.setMessage m).1 = .ok () ∧
    let b' := ((b.setInfo g).2.setMessage m).2
    b'.mem = g.bytes ++ leBytes 8 m.length ++ m ++ b.mem.drop (HEADER + m.length) ∧
    b'.mem.length = b.mem.length ∧
    b'.getMessage = .ok m ∧ b'.getGuid = .ok (some g) ∧ b'.getLength = .ok m.length := by
  have h0 : b.validateCapacity 0 = .ok () := by
    simp only [Buf.validateCapacity]
    rw [if_neg (by omega), if_neg (by omega)]
  have hl := headerBytes_length g b.msgLen
  let b1 : Buf := { b with recipient := some g, mem := copyAt b.mem 0 (headerBytes g b.msgLen) }
  have hb1 : b.setInfo g = (b1.verify, b1) := by simp [Buf.setInfo, h0, b1]
  have hv1 : b1.verify = .ok () := verify_of_header b1 g _ rfl hold (copyAt_zero _ _)
  have hlen1 : b1.mem.length = b.mem.length := copyAt_length _ _ _ (by omega)
  have hc1 : b1.validateCapacity m.length = .ok () := by
    simp only [Buf.validateCapacity, hlen1]
    rw [if_neg (by omega), if_neg (by omega)]
  let b2 : Buf := { b1 with msgLen := m.length, mem := copyAt (copyAt b1.mem 0 (headerBytes g m.length)) HEADER m }
  have hb2 : b1.setMessage m = (b2.verify, b2) := by
    simp only [Buf.setMessage, hc1]
    simp only [b2, b1]
  have hm2 : b2.mem = headerBytes g m.length ++ m ++ b.mem.drop (HEADER + m.length) := by
    show copyAt (copyAt b1.mem 0 (headerBytes g m.length)) HEADER m = _
    rw [setMessage_mem _ _ _ (by omega)]
    congr 1
    show (copyAt b.mem 0 (headerBytes g b.msgLen)).drop _ = _
    rw [copyAt_zero, ← List.drop_drop, List.drop_left' hl, hl, List.drop_drop]
  have hv2 : b2.verify = .ok () :=
    verify_of_header b2 g (m ++ b.mem.drop (HEADER + m.length)) rfl (by show m.length < 2 ^ 64; omega)
      (by rw [hm2, List.append_assoc])
  rw [hb1]
  refine ⟨hv1, by rw [hb2]; exact hv2, ?_⟩
  rw [hb2]
  have hlen2 : b2.mem.length = b.mem.length := by
    rw [hm2]
    simp only [List.length_append, headerBytes_length, List.length_drop]
    omega
  refine ⟨by rw [hm2]; rfl, hlen2, ?_, by simp [Buf.getGuid, hv2]; rfl, by simp [Buf.getLength, hv2]; rfl⟩
  have hml : b2.msgLen = m.length := rfl
  simp only [Buf.getMessage, hv2, Outcome.ok_bind, hml, hlen2]
  by_cases hz : m.length = 0
  · simp [List.length_eq_zero_iff.1 hz]
  · rw [if_neg hz, if_neg (by omega), hm2, List.append_assoc, List.drop_left' (headerBytes_length _ _)]
    congr 1
    exact List.take_left' rfl

/-- C42 (oversize): a message that does not fit is refused and nothing changes. -/
theorem oversize_refused (b : Buf) (m : List UInt8) (h : b.mem.length < HEADER + m.length) :
    (b.setMessage m).2 = b ∧ ((b.setMessage m).1 = .err .tooSmallForHeader ∨ (b.setMessage m).1 = .err .tooSmallForMessage) := by
  by_cases h1 : b.mem.length < HEADER
  · simp [Buf.setMessage, Buf.validateCapacity, h1]
  · have h2 : m.length > b.mem.length - HEADER := by omega
    simp [Buf.setMessage, Buf.validateCapacity, h1, h2]

/-- C42 (oversize, recipient): a buffer too small for the header is refused and nothing changes. -/
theorem small_refused (b : Buf) (g : Guid) (h : b.mem.length < HEADER) :
    b.setInfo g = (.err .tooSmallForHeader, b) := by
  simp [Buf.setInfo, Buf.validateCapacity, h]

/-- C42 (no message without recipient). -/
theorem no_recipient (b : Buf) (m : List UInt8) (h : b.recipient = none) :
    (b.setMessage m).2 = b ∧ (b.setMessage m).1 ≠ .ok () := by
  unfold Buf.setMessage
  split
  · simp [h]
  · rename_i h'; exact ⟨rfl, fun e => h' e⟩

/-- C42 (tamper detection): whatever the memory contains, if its first 24 bytes are not exactly the
recipient and message length recorded by the owner, every getter returns an error. -/
theorem tamper_detected (b : Buf) (g : Guid) (hr : b.recipient = some g)
    (ht : b.mem.take HEADER ≠ g.bytes ++ leBytes 8 b.msgLen) :
    (∃ e, b.getMessage = .err e) ∧ (∃ e, b.getGuid = .err e) ∧ (∃ e, b.getLength = .err e) := by
  have hv : ∃ e, b.verify = .err e := by
    cases h : b.verify with
    | ok u => exact absurd (verify_header hr h) ht
    | err e => exact ⟨e, rfl⟩
    | panic => exact absurd h (verify_not_panic b)
  obtain ⟨e, he⟩ := hv
  exact ⟨⟨e, by simp [Buf.getMessage, he]⟩, ⟨e, by simp [Buf.getGuid, he]⟩, ⟨e, by simp [Buf.getLength, he]⟩⟩

/-- C42 (bounded reads): whatever the memory contains, a message returned is a part of the buffer's
memory right behind the header, of exactly the recorded length, inside the buffer; nothing panics. -/
theorem get_in_bounds (b : Buf) :
    b.getMessage ≠ .panic ∧ ∀ m, b.getMessage = .ok m →
      HEADER + m.length ≤ b.mem.length ∧ m.length = b.msgLen ∧ ∃ pre post, b.mem = pre ++ m ++ post ∧ pre.length = HEADER := by
  unfold Buf.getMessage
  cases hb : b.verify with
  | panic => exact absurd hb (verify_not_panic b)
  | err e => simp
  | ok u =>
    have hl := verify_len hb
    simp only [Outcome.ok_bind]
    split
    · rename_i hz
      refine ⟨by simp, ?_⟩
      intro m hm
      cases hm
      refine ⟨by simpa using hl, by simp [hz], b.mem.take HEADER, b.mem.drop HEADER, by simp, ?_⟩
      simp; omega
    · split
      · simp
      · rename_i h1 h2
        refine ⟨by simp, ?_⟩
        intro m hm
        cases hm
        refine ⟨by simp; omega, by simp; omega, b.mem.take HEADER, (b.mem.drop HEADER).drop b.msgLen, ?_, ?_⟩
        · rw [List.append_assoc, List.take_append_drop, List.take_append_drop]
        · simp; omega

/-- Reachable recorded lengths always fit the buffer, for any sequence of calls and external changes. -/
inductive BufOp where
  | setInfo (g : Guid)
  | setMessage (m : List UInt8)
  /-- something else overwrites the memory -/
  | scribble (mem : List UInt8)

def BufOp.run (b : Buf) : BufOp → Buf
  | .setInfo g => (b.setInfo g).2
  | .setMessage m => (b.setMessage m).2
  | .scribble mem => if mem.length = b.mem.length then { b with mem := mem } else b

/-- C42 (history): over any sequence of calls and any external modifications of the bytes, the buffer keeps its
size and the recorded length always fits; so `set_then_get` and `get_in_bounds` apply in every reachable state. -/
theorem history_fits (mem : List UInt8) (id : Nat) (ops : List BufOp) :
    let b := ops.foldl BufOp.run (Buf.new mem id)
    b.mem.length = mem.length ∧ (b.recipient ≠ none → HEADER ≤ mem.length) ∧ b.msgLen ≤ mem.length - HEADER := by
  suffices h : ∀ b : Buf, (b.mem.length = mem.length ∧ (b.recipient ≠ none → HEADER ≤ mem.length) ∧ b.msgLen ≤ mem.length - HEADER) →
      let b := ops.foldl BufOp.run b
      b.mem.length = mem.length ∧ (b.recipient ≠ none → HEADER ≤ mem.length) ∧ b.msgLen ≤ mem.length - HEADER from
    h (Buf.new mem id) ⟨by simp [Buf.new], by simp [Buf.new], by simp [Buf.new]⟩
  induction ops with
  | nil => intro b h; exact h
  | cons op ops ih =>
    intro b h
    refine ih _ ?_
    obtain ⟨h1, h2, h3⟩ := h
    cases op with
    | setInfo g =>
      simp only [BufOp.run, Buf.setInfo]
      cases hc : b.validateCapacity 0 with
      | ok u =>
        have hcap : HEADER ≤ b.mem.length := by
          unfold Buf.validateCapacity at hc
          split at hc
          · cases hc
          · omega
        refine ⟨?_, fun _ => by omega, h3⟩
        show (copyAt _ _ _).length = _
        rw [copyAt_length _ _ _ (by rw [headerBytes_length]; omega), h1]
      | err e => exact ⟨h1, h2, h3⟩
      | panic => exact ⟨h1, h2, h3⟩
    | setMessage m =>
      simp only [BufOp.run, Buf.setMessage]
      cases hc : b.validateCapacity m.length with
      | ok u =>
        cases hr : b.recipient with
        | none => exact ⟨h1, by simp [hr], h3⟩
        | some g =>
          have hcap : HEADER + m.length ≤ b.mem.length := by
            unfold Buf.validateCapacity at hc
            split at hc
            · cases hc
            · split at hc
              · cases hc
              · omega
          refine ⟨?_, fun _ => by omega, by show m.length ≤ _; omega⟩
          show (copyAt (copyAt _ _ _) _ _).length = _
          have hl : (copyAt b.mem 0 (headerBytes g m.length)).length = b.mem.length :=
            copyAt_length _ _ _ (by rw [headerBytes_length]; omega)
          rw [copyAt_length _ _ _ (by omega), hl, h1]
      | err e => exact ⟨h1, h2, h3⟩
      | panic => exact ⟨h1, h2, h3⟩
    | scribble mem' =>
      simp only [BufOp.run]
      split
      · rename_i hl; exact ⟨by simp [hl, h1], h2, h3⟩
      · exact ⟨h1, h2, h3⟩

/-- C42 (construction): a buffer is created only over a non-null, page-aligned region that can hold a
header and does not wrap around the address space; it is zero-filled. -/
theorem fromRaw_ok (addr : Nat) (mem : List UInt8) (id : Nat) (b : Buf) (hsz : mem.length < 2 ^ 64)
    (h : Buf.fromRaw addr mem id = .ok b) :
    addr ≠ 0 ∧ addr % 4096 = 0 ∧ HEADER ≤ mem.length ∧ addr + mem.length < 2 ^ 64 ∧
      b.mem = List.replicate mem.length 0 ∧ b.getMessage = .ok [] ∧ b.getGuid = .ok none := by
  unfold Buf.fromRaw at h
  split at h
  · cases h
  rename_i h1
  split at h
  · cases h
  rename_i h2
  split at h
  · cases h
  rename_i h3
  split at h
  · cases h
  rename_i h4
  cases h
  have hv : (Buf.new mem id).verify = .ok () := by
    have e1 : (List.replicate mem.length (0 : UInt8)).take HEADER = List.replicate 24 0 := by
      rw [List.take_replicate]; congr 1; simp only [HEADER] at *; omega
    have e2 : (List.replicate 24 (0 : UInt8)).take 16 = List.replicate 16 0 := rfl
    have e3 : leVal ((List.replicate 24 (0 : UInt8)).drop 16) = 0 := rfl
    simp only [Buf.verify, Buf.expectedGuid, Buf.new, List.length_replicate, h1, if_false, e1, e2, e3]
    simp
  refine ⟨h2, Decidable.of_not_not h3, by omega, by omega, rfl, ?_, ?_⟩
  · rw [getMessage_ok hv]; rfl
  · rw [getGuid_ok hv]; rfl

/-! ### The communicator service -/

/-- C42 (request): what the MM handler sees is exactly recipient, length and data, followed by the old
rest of the buffer; and the outcome of the call is determined by what the handler leaves: an
unmodified header gives back the bytes of the request's length, a modified header is an error. -/
theorem communicate_spec (h : Handler) (b : Buf) (data : List UInt8) (g : Guid)
    (hfit : HEADER + data.length ≤ b.mem.length) (hsz : b.mem.length < 2 ^ 64) (hold : b.msgLen < 2 ^ 64)
    (hh : ∀ m m', h m = some m' → m'.length = m.length) :
    let req := g.bytes ++ leBytes 8 data.length ++ data ++ b.mem.drop (HEADER + data.length)
    (h req = none → (communicateOn h b data g).1 = .err .swMmiFailed) ∧
    (∀ out, h req = some out → out.take HEADER = g.bytes ++ leBytes 8 data.length →
      (communicateOn h b data g).1 = .ok ((out.drop HEADER).take data.length)) ∧
    (∀ out, h req = some out → out.take HEADER ≠ g.bytes ++ leBytes 8 data.length →
      (communicateOn h b data g).1 = .err .invalidResponse) := by
  obtain ⟨s1, s2, s3⟩ := set_then_get b g data hfit hsz hold
  obtain ⟨t1, t2, t3, t4, t5⟩ := s3
  generalize e1 : b.setInfo g = p1 at *
  obtain ⟨r1, b1⟩ := p1
  generalize e2 : b1.setMessage data = p2 at *
  obtain ⟨r2, b2⟩ := p2
  simp only at s1 s2 t1 t2 t3 t4 t5
  subst s1 s2
  have hlen : ¬ b.mem.length < HEADER + data.length := by omega
  have hrec : b2.recipient = some g ∧ b2.msgLen = data.length := by
    constructor
    · unfold Buf.getGuid at t4
      cases hv : b2.verify <;> simp [hv] at t4
      exact t4
    · unfold Buf.getLength at t5
      cases hv : b2.verify <;> simp [hv] at t5
      exact t5
  simp only [communicateOn, hlen, if_false, e1, e2]
  rw [← t1]
  refine ⟨?_, ?_, ?_⟩
  · intro hn; rw [hn]
  · intro out ho htake
    rw [ho]
    have hlo := hh _ _ ho
    have hv : ({ b2 with mem := out } : Buf).verify = .ok () := by
      refine verify_of_header _ g (out.drop HEADER) hrec.1 ?_ ?_
      · show b2.msgLen < _; rw [hrec.2]; omega
      · show out = headerBytes g b2.msgLen ++ _
        rw [hrec.2, headerBytes, ← htake, List.take_append_drop]
    have : ({ b2 with mem := out } : Buf).getMessage = .ok ((out.drop HEADER).take data.length) := by
      rw [getMessage_ok hv]
      simp only [hrec.2]
      split
      · rename_i hz; rw [hz]; rfl
      · rw [if_neg (by omega)]
    simp only [this]
  · intro out ho htake
    rw [ho]
    have := (tamper_detected ({ b2 with mem := out } : Buf) g hrec.1 (by
      show out.take HEADER ≠ g.bytes ++ leBytes 8 b2.msgLen
      rw [hrec.2]; exact htake)).1
    obtain ⟨e, he⟩ := this
    simp only [he]

/-- C42 (isolation): a call changes at most the first buffer with the given id; every other buffer
is untouched. -/
theorem communicate_isolated (h : Option Handler) (bufs : List Buf) (id : Nat) (data : List UInt8) (g : Guid) :
    (communicate h bufs id data g).2 = bufs ∨
    ∃ pre b b' post, bufs = pre ++ b :: post ∧ b.id = id ∧ (∀ x ∈ pre, x.id ≠ id) ∧
      (communicate h bufs id data g).2 = pre ++ b' :: post := by
  unfold communicate
  split
  · left; rfl
  · split
    · left; rfl
    · cases h with
      | none => left; rfl
      | some h =>
        rcases onBuffer_spec id (fun b => communicateOn h b data g) bufs with ⟨h1, _⟩ | ⟨pre, b, post, h1, h2, h3, h4⟩
        · left; simp only [h1]
        · right
          exact ⟨pre, b, (communicateOn h b data g).2, post, h1, h3, h2, by simp only [h4]⟩

/-- Finding: a handler that answers with a different length (as the MM protocol allows: the header's message
length is the response size) never gets its answer through: the caller sees `InvalidResponse`. -/
theorem shorter_response_rejected (b : Buf) (data resp : List UInt8) (g : Guid)
    (hfit : HEADER + data.length ≤ b.mem.length) (hsz : b.mem.length < 2 ^ 64) (hold : b.msgLen < 2 ^ 64)
    (hlt : resp.length < data.length) :
    (communicateOn (fun m => some (g.bytes ++ leBytes 8 resp.length ++ resp ++ m.drop (HEADER + resp.length))) b data g).1 =
      .err .invalidResponse := by
  have := communicate_spec
    (fun m => if m.length < HEADER + resp.length then none else some (g.bytes ++ leBytes 8 resp.length ++ resp ++ m.drop (HEADER + resp.length)))
    b data g hfit hsz hold (by
      intro m m' hm
      split at hm
      · cases hm
      · cases hm
        simp [g.len, HEADER] at *; omega)
  obtain ⟨_, _, h3⟩ := this
  obtain ⟨s1, s2, s3⟩ := set_then_get b g data hfit hsz hold
  obtain ⟨t1, t2, _⟩ := s3
  have hlen : ¬ b.mem.length < HEADER + data.length := by omega
  have hl2 : ¬ ((b.setInfo g).2.setMessage data).2.mem.length < HEADER + resp.length := by omega
  specialize h3 (g.bytes ++ leBytes 8 resp.length ++ resp ++ (g.bytes ++ leBytes 8 data.length ++ data ++ b.mem.drop (HEADER + data.length)).drop (HEADER + resp.length))
    (by
      rw [if_neg]
      rw [← t1]; exact hl2)
    (by
      intro hc
      rw [List.append_assoc, List.take_left' (by simp [g.len, HEADER])] at hc
      have := List.append_cancel_left hc
      have h1 : leVal (leBytes 8 resp.length) = leVal (leBytes 8 data.length) := by rw [this]
      rw [leVal_leBytes_of_lt (by omega), leVal_leBytes_of_lt (by omega)] at h1
      omega)
  rw [← h3]
  generalize e1 : b.setInfo g = p1 at *
  obtain ⟨r1, b1⟩ := p1
  generalize e2 : b1.setMessage data = p2 at *
  obtain ⟨r2, b2⟩ := p2
  simp only at s1 s2 hl2
  subst s1 s2
  simp only [communicateOn, hlen, if_false, e1, e2, hl2]

/-! ### Non-vacuity -/

def gA : Guid := ⟨[1,2,3,4,5,6,7,8,9,10,11,12,13,14,15,16], rfl⟩
example : HEADER + [(7:UInt8), 8, 9].length ≤ (Buf.new (List.replicate 40 0) 0).mem.length := by decide
example : ((((Buf.new (List.replicate 40 0) 0).setInfo gA).2.setMessage [7, 8, 9]).2.getMessage) = .ok [7, 8, 9] := by decide
example : (Buf.fromRaw 4096 (List.replicate 40 1) 3) = .ok (Buf.new (List.replicate 40 1) 3) := by decide
example : (communicate (some (fun m => some (m.take 24 ++ [5, 6] ++ m.drop 26))) [Buf.new (List.replicate 40 0) 3] 3 [1, 2] gA).1 = .ok [5, 6] := by
  decide

end Verif.Mm
