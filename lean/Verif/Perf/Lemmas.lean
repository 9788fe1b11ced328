import Verif.Perf.Spec
namespace Verif.Perf

theorem splice_parts {p q s x : Bytes} (h : q.length = x.length) : splice (p ++ q ++ s) p.length x = p ++ x ++ s := by
  unfold splice
  rw [← h, ← List.length_append, List.drop_left, List.append_assoc p q, List.take_left]

theorem parts (b : Bytes) {off n : Nat} (h : off + n ≤ b.length) : ∃ p q s : Bytes, b = p ++ q ++ s ∧ p.length = off ∧ q.length = n := by
  refine ⟨b.take off, (b.drop off).take n, b.drop (off + n), ?_, ?_, ?_⟩
  · rw [← List.drop_drop, List.append_assoc, List.take_append_drop, List.take_append_drop]
  · rw [List.length_take]; omega
  · rw [List.length_take, List.length_drop]; omega

theorem splice_length {b : Bytes} {off : Nat} {x : Bytes} (h : off + x.length ≤ b.length) : (splice b off x).length = b.length := by
  unfold splice
  rw [List.length_append, List.length_append, List.length_take, List.length_drop]; omega

/-- All these writes find room. -/
def Fit (len : Nat) : Nat → List Bytes → Prop
  | _, [] => True
  | off, x :: l => off < len ∧ off + x.length ≤ len ∧ Fit len (off + x.length) l

theorem gwrite_fit {b : Bytes} {off : Nat} {x : Bytes} (h1 : off < b.length) (h2 : off + x.length ≤ b.length) :
    gwrite b off x = some (splice b off x, off + x.length) := if_pos ⟨h1, h2⟩

theorem writeAll_fit {b : Bytes} {off : Nat} {l : List Bytes} (h : Fit b.length off l) (hl : off ≤ b.length) :
    writeAll b off l = (splice b off l.flatten, some (off + l.flatten.length)) ∧ off + l.flatten.length ≤ b.length := by
  induction l generalizing b off with
  | nil => exact ⟨by simp [writeAll, splice], hl⟩
  | cons x l ih =>
    obtain ⟨h1, h2, h3⟩ := h
    have hlen := splice_length (b := b) (off := off) (x := x) h2
    obtain ⟨h4, h5⟩ := ih (b := splice b off x) (off := off + x.length) (by rw [hlen]; exact h3) (by rw [hlen]; exact h2)
    rw [hlen] at h5
    have h6 : off + (x :: l).flatten.length ≤ b.length := by rw [List.flatten_cons, List.length_append]; omega
    refine ⟨?_, h6⟩
    unfold writeAll
    rw [gwrite_fit h1 h2]
    show writeAll (splice b off x) (off + x.length) l = _
    rw [h4]
    have hq : off + (x.length + l.flatten.length) ≤ b.length := by omega
    obtain ⟨p, q, s, hb, hp, hqq⟩ := parts b hq
    subst hp
    have hq1 : q = q.take x.length ++ q.drop x.length := (List.take_append_drop _ _).symm
    have e1 : splice b p.length x = p ++ x ++ (q.drop x.length ++ s) := by
      rw [hb, hq1]
      have : p ++ (q.take x.length ++ q.drop x.length) ++ s = p ++ q.take x.length ++ (q.drop x.length ++ s) := by simp only [List.append_assoc]
      rw [this, splice_parts (by rw [List.length_take]; omega)]
      congr 2
      rw [List.drop_left' (by rw [List.length_take]; omega)]
    have e2 : splice b p.length (x :: l).flatten = p ++ (x ++ l.flatten) ++ s := by
      rw [hb, splice_parts (by rw [hqq, List.flatten_cons, List.length_append])]; rfl
    rw [e2, e1]
    have e3 : p ++ x ++ (q.drop x.length ++ s) = (p ++ x) ++ q.drop x.length ++ s := by simp only [List.append_assoc]
    have e4 : p.length + x.length = (p ++ x).length := by simp
    rw [e3, e4, splice_parts (by rw [List.length_drop]; omega), List.flatten_cons]
    simp only [List.append_assoc, List.length_append, Nat.add_assoc]

theorem writeAll_unfit {b : Bytes} {off : Nat} {l : List Bytes} (h : ¬ Fit b.length off l) : (writeAll b off l).2 = none := by
  induction l generalizing b off with
  | nil => exact absurd trivial h
  | cons x l ih =>
    unfold writeAll
    by_cases hc : off < b.length ∧ off + x.length ≤ b.length
    · rw [gwrite_fit hc.1 hc.2]
      show (writeAll (splice b off x) (off + x.length) l).2 = none
      refine ih fun hf => h ⟨hc.1, hc.2, ?_⟩
      rw [splice_length hc.2] at hf; exact hf
    · rw [show gwrite b off x = none from if_neg hc]

/-- Writes leave alone what is before them. -/
theorem writeAll_keeps (b : Bytes) (off : Nat) (l : List Bytes) : (writeAll b off l).1.length = b.length ∧ ∀ n ≤ off, (writeAll b off l).1.take n = b.take n := by
  induction l generalizing b off with
  | nil => exact ⟨rfl, fun _ _ => rfl⟩
  | cons x l ih =>
    unfold writeAll
    by_cases hc : off < b.length ∧ off + x.length ≤ b.length
    · rw [gwrite_fit hc.1 hc.2]
      show (writeAll (splice b off x) (off + x.length) l).1.length = _ ∧ ∀ n ≤ off, (writeAll (splice b off x) (off + x.length) l).1.take n = _
      obtain ⟨h1, h2⟩ := ih (splice b off x) (off + x.length)
      refine ⟨h1.trans (splice_length hc.2), fun n hn => (h2 n (by omega)).trans ?_⟩
      unfold splice
      rw [List.append_assoc, List.take_append_of_le_length (by rw [List.length_take]; omega), List.take_take, Nat.min_eq_left hn]
    · rw [show gwrite b off x = none from if_neg hc]; exact ⟨rfl, fun _ _ => rfl⟩

theorem chunks_data (r : Rec) : r.chunks.flatten = r.data := by
  cases r <;> simp [Rec.chunks, Rec.data]
  decide

theorem kind_eq (r : Rec) : r.kind = r.typ := by cases r <;> rfl

theorem revision_eq (r : Rec) : r.revision = r.rev := by cases r <;> rfl

def Rec.head (r : Rec) : List Bytes := [leBytes 2 r.typ, [0], leBytes 1 r.rev]

/-- All of a record finds room, exactly if there is room for its size, and one byte more if it has no data. -/
theorem record_fit (r : Rec) (len off : Nat) : Fit len off (r.head ++ r.chunks) ↔ off + r.size + (if r.data = [] then 1 else 0) ≤ len := by
  cases r with
  | generic t v d =>
    simp only [Rec.head, Rec.chunks, Fit, Rec.size, Rec.data, List.cons_append, List.nil_append, leBytes_length, List.length_cons, List.length_nil]
    cases d with
    | nil => simp; omega
    | cons x d => simp; omega
  | _ =>
    rw [if_neg (by simp [Rec.data, leBytes, List.replicate])]
    simp only [Rec.head, Rec.chunks, Fit, Rec.size, Rec.data, List.cons_append, List.nil_append, leBytes_length, List.length_cons, List.length_nil,
      List.length_append, List.length_replicate]
    constructor
    · intro h; omega
    · intro h; repeat first | trivial | omega | constructor

theorem writeInto_fit {b : Bytes} {off : Nat} {r : Rec} (h : off + r.size + (if r.data = [] then 1 else 0) ≤ b.length) :
    writeInto b off r = (splice b off r.bytes, some r.size) := by
  obtain ⟨h1, h2⟩ := writeAll_fit ((record_fit r b.length off).2 h) (by omega)
  have hd : (r.head ++ r.chunks).flatten = leBytes 2 r.typ ++ ([0] ++ (leBytes 1 r.rev ++ r.data)) := by
    rw [List.flatten_append, chunks_data]; simp [Rec.head]
  have hn : (r.head ++ r.chunks).flatten.length = r.size := by
    rw [hd]; simp only [List.length_append, leBytes_length, List.length_cons, List.length_nil, Rec.size]; omega
  unfold writeInto
  have h1' : writeAll b off ([leBytes 2 r.typ, [0], leBytes 1 r.rev] ++ r.chunks) = _ := h1
  rw [h1', hn]
  show (match gwrite (splice b off _) (off + 2) (leBytes 1 (off + r.size - off)) with | some (b, _) => (b, some (off + r.size - off)) | none => _) = _
  rw [Nat.add_sub_cancel_left]
  rw [hn] at h2
  have hs : 4 ≤ r.size := by unfold Rec.size; omega
  have hlen := splice_length (b := b) (off := off) (x := (r.head ++ r.chunks).flatten) (by omega)
  rw [gwrite_fit (by rw [hlen]; omega) (by rw [hlen, leBytes_length]; omega)]
  show (splice _ _ _, some r.size) = _
  congr 1
  obtain ⟨p, q, s, hb, hp, hq⟩ := parts b h2
  subst hp
  rw [hb, splice_parts (by rw [hq, hn]), hd]
  have e1 : p ++ (leBytes 2 r.typ ++ ([0] ++ (leBytes 1 r.rev ++ r.data))) ++ s = (p ++ leBytes 2 r.typ) ++ [0] ++ (leBytes 1 r.rev ++ r.data ++ s) := by
    simp only [List.append_assoc]
  have e2 : p.length + 2 = (p ++ leBytes 2 r.typ).length := by simp
  rw [e1, e2, splice_parts (by simp), splice_parts (by rw [hq]; simp only [Rec.bytes, List.length_append, leBytes_length, Rec.size])]
  simp only [Rec.bytes, kind_eq, revision_eq, List.append_assoc]

theorem writeInto_unfit {b : Bytes} {off : Nat} {r : Rec} (h : b.length < off + r.size + (if r.data = [] then 1 else 0)) :
    (writeInto b off r).2 = none ∧ (writeInto b off r).1.length = b.length ∧ ∀ n ≤ off, (writeInto b off r).1.take n = b.take n := by
  have h1 := writeAll_unfit (mt (record_fit r b.length off).1 (by omega))
  have h2 := writeAll_keeps b off (r.head ++ r.chunks)
  unfold writeInto
  show (match writeAll b off (r.head ++ r.chunks) with | (b, none) => (b, none) | (b, some e) => _).2 = none ∧ _ ∧ _
  rcases hw : writeAll b off (r.head ++ r.chunks) with ⟨b', o⟩
  rw [hw] at h1 h2
  cases (show o = none from h1)
  have hw' : writeAll b off ([leBytes 2 r.typ, [0], leBytes 1 r.rev] ++ r.chunks) = (b', none) := hw
  rw [hw']
  exact ⟨rfl, h2⟩

theorem bytes_length (r : Rec) : r.bytes.length = r.size := by simp only [Rec.bytes, List.length_append, leBytes_length, Rec.size]

/-! ### Reading records -/

theorem iterate_append {r : Rec} (hr : Fits r) (b : Bytes) (fuel : Nat) : iterate (fuel + 1) (r.bytes ++ b) = (iterate fuel b).map (r.raw :: ·) := by
  have hs : 4 ≤ r.size := by unfold Rec.size; omega
  have hlen : (r.bytes ++ b).length = r.size + b.length := by rw [List.length_append, bytes_length]
  have hne : r.bytes ++ b ≠ [] := fun e => by rw [e] at hlen; simp at hlen; omega
  have e1 : r.bytes ++ b = leBytes 2 r.typ ++ (leBytes 1 r.size ++ (leBytes 1 r.rev ++ (r.data ++ b))) := by simp only [Rec.bytes, kind_eq, revision_eq, List.append_assoc]
  have ht : (r.bytes ++ b).take 2 = leBytes 2 r.typ := by rw [e1, List.take_left' (by simp)]
  have hl : ((r.bytes ++ b).drop 2).take 1 = leBytes 1 r.size := by rw [e1, List.drop_left' (by simp), List.take_left' (by simp)]
  have hv : ((r.bytes ++ b).drop 3).take 1 = leBytes 1 r.rev := by
    have : (r.bytes ++ b).drop 3 = ((r.bytes ++ b).drop 2).drop 1 := by rw [List.drop_drop]
    rw [this, e1, List.drop_left' (by simp), List.drop_left' (by simp), List.take_left' (by simp)]
  have hval : leVal (((r.bytes ++ b).drop 2).take 1) = r.size := by rw [hl, leVal_leBytes_of_lt (by have := hr.size; omega)]
  have hd : ((r.bytes ++ b).take r.size).drop 4 = r.data := by
    rw [List.take_left' (bytes_length r)]
    have : r.bytes = (leBytes 2 r.kind ++ leBytes 1 r.size ++ leBytes 1 r.revision) ++ r.data := rfl
    rw [this, List.drop_left' (by simp)]
  have htyp : leVal ((r.bytes ++ b).take 2) = r.kind := by rw [ht, ← kind_eq, leVal_leBytes_of_lt (by have := hr.typ; omega)]
  have hrev : leVal (((r.bytes ++ b).drop 3).take 1) = r.revision := by rw [hv, ← revision_eq, leVal_leBytes_of_lt (by have := hr.rev; omega)]
  conv => lhs; unfold iterate
  rw [if_neg hne, if_neg (by omega)]
  dsimp only
  rw [hval, if_neg (by omega), htyp, hrev, hd, List.drop_left' (bytes_length r)]
  rfl

theorem iterate_all {l : List Rec} (hl : ∀ r ∈ l, Fits r) (fuel : Nat) (hf : l.length ≤ fuel) : iterate fuel (allBytes l) = some (l.map Rec.raw) := by
  induction l generalizing fuel with
  | nil => cases fuel <;> rfl
  | cons r l ih =>
    cases fuel with
    | zero => simp at hf
    | succ fuel =>
      show iterate (fuel + 1) (r.bytes ++ allBytes l) = _
      rw [iterate_append (hl r List.mem_cons_self), ih (fun x hx => hl x (List.mem_cons_of_mem _ hx)) fuel (by simpa using hf)]
      rfl

theorem allBytes_length_ge (l : List Rec) : l.length ≤ (allBytes l).length := by
  induction l with
  | nil => simp
  | cons r l ih =>
    have : (allBytes (r :: l)).length = r.size + (allBytes l).length := by
      show (r.bytes ++ allBytes l).length = _
      rw [List.length_append, bytes_length]
    have hs : 4 ≤ r.size := by unfold Rec.size; omega
    rw [this, List.length_cons]; omega

/-- Reading back a sequence of records gives these records. -/
theorem iter_records {l : List Rec} (hl : ∀ r ∈ l, Fits r) : iter (allBytes l) = some (l.map Rec.raw) :=
  iterate_all hl _ (allBytes_length_ge l)

theorem allBytes_append (l m : List Rec) : allBytes (l ++ m) = allBytes l ++ allBytes m := List.flatMap_append

theorem allBytes_one (l : List Rec) (r : Rec) : allBytes (l ++ [r]) = allBytes l ++ r.bytes := by rw [allBytes_append]; simp [allBytes]

end Verif.Perf
