import Verif.Services.Multiple
/-!
Property C80: the services that fill a buffer with what they find.
-/
namespace Verif.Services
open Verif.Protocol

variable {α : Type}

/-! ### Specification vocabulary -/

/-- The handles a search by everything or by protocol is about, oldest first (C13). -/
def found (db : Db) : Search → List Nat
  | .all => allHandles db
  | .protocol (some g) => (allHandles db).filter fun h => (lookup db h g).isSome
  | _ => []

/-- Searches whose answer only depends on what is installed. -/
def Plain (q : Search) : Prop := q = .all ∨ ∃ g, q = .protocol (some g)

theorem search_plain {db : Db} (hr : Reachable db) {q : Search} (hq : Plain q) :
    search db q = (if found db q = [] then .err .notFound else .ok (found db q), db) := by
  rcases hq with rfl | ⟨g, rfl⟩
  · unfold search found; rw [(locate_all_exact hr).2.2]
  · show (db.locateHandles (some g), db) = _; rw [locate_by_protocol hr]; rfl

/-! ### C80 -/

/-- LocateHandle by protocol or for all handles: it succeeds exactly if something is found and there is a buffer with room for all of it, and then the buffer
holds exactly what was found. If there is no room the size needed is reported. -/
theorem locate_handle_exact {db : Db} (hr : Reachable db) {q : Search} (hq : Plain q) (size : Option Nat) (null : Bool) :
    let r := locateHandle db q size null
    r.2.2.2 = db ∧
    (r.1 = .success ↔ found db q ≠ [] ∧ null = false ∧ ∃ n, size = some n ∧ 8 * (found db q).length ≤ n) ∧
    (r.1 = .success → r.2.1 = some (8 * (found db q).length) ∧ r.2.2.1 = some (found db q)) ∧
    (r.1 ≠ .success → r.2.2.1 = none) ∧
    (r.1 = .notFound ↔ found db q = []) ∧
    (r.1 = .bufferTooSmall ↔ ∃ n, size = some n ∧ n < 8 * (found db q).length) ∧
    (r.1 = .bufferTooSmall → r.2.1 = some (8 * (found db q).length)) := by
  simp only
  unfold locateHandle
  rw [search_plain hr hq]
  by_cases hf : found db q = []
  · rw [if_pos hf]
    simp [Status.of, hf]
  · rw [if_neg hf]
    simp only [if_neg hf]
    cases size with
    | none => simp [hf]
    | some n =>
      simp only [Option.some.injEq]
      rw [Nat.mul_comm (found db q).length 8]
      by_cases hn : n < 8 * (found db q).length
      · rw [if_pos hn]
        simp [hf]
        omega
      · rw [if_neg hn]
        cases null with
        | true => simp [hf]; omega
        | false => simp [hf]; omega

/-- Calling again with the size asked for succeeds, if nothing was installed or uninstalled meanwhile. -/
theorem locate_handle_retry {db db' : Db} (hr : Reachable db) {q : Search} (hq : Plain q) {n m : Nat} {null : Bool} {b : Option (List Nat)}
    (he : locateHandle db q (some n) null = (.bufferTooSmall, some m, b, db')) :
    db' = db ∧ locateHandle db' q (some m) false = (.success, some m, some (found db q), db) := by
  have h1 := locate_handle_exact hr hq (some n) null
  rw [he] at h1
  simp only [Option.some.injEq] at h1
  obtain ⟨e, _, _, _, _, hb, hm⟩ := h1
  have hm := hm trivial
  obtain ⟨n', hn', hlt⟩ := hb.1 trivial
  refine ⟨e, ?_⟩
  subst e
  have h2 := locate_handle_exact hr hq (some m) false
  simp only at h2
  obtain ⟨k1, k2, k3, _⟩ := h2
  have hs : (locateHandle db' q (some m) false).1 = .success := k2.2 ⟨by intro hx; rw [hx] at hlt; simp at hlt, trivial, m, rfl, by omega⟩
  have k3 := k3 hs
  obtain ⟨a, b⟩ := k3
  rw [hm]
  rw [hm] at a b hs k1
  exact Prod.ext hs (Prod.ext a (Prod.ext b k1))

/-- A search with arguments that make no sense is refused. -/
theorem locate_handle_invalid (db : Db) {q : Search} (hq : q = .other ∨ q = .notify none ∨ q = .protocol none) (size : Option Nat) (null : Bool) :
    locateHandle db q size null = (.invalidParameter, none, none, db) := by
  rcases hq with rfl | rfl | rfl <;> rfl

/-- LocateHandle by notification: the answer is the handle the registration is owed (C16), which is not owed any more then, whether or not there was room. -/
theorem locate_handle_notify (db : Db) (r : Nat) (size : Option Nat) (null : Bool) :
    let a := locateHandle db (.notify (some r)) size null
    a.2.2.2 = (db.nextFresh r).2 ∧
    ((db.nextFresh r).1 = none → a.1 = .notFound) ∧
    ∀ h, (db.nextFresh r).1 = some h →
      (a.1 = .success ↔ null = false ∧ ∃ n, size = some n ∧ 8 ≤ n) ∧ (a.1 = .success → a.2.1 = some 8 ∧ a.2.2.1 = some [h]) ∧
      (a.1 = .bufferTooSmall ↔ ∃ n, size = some n ∧ n < 8) := by
  simp only
  unfold locateHandle
  cases hd : db.nextFresh r with
  | mk o db' =>
    cases o with
    | none =>
      rw [show search db (.notify (some r)) = (.err .notFound, db') by simp only [search]; rw [hd]]
      exact ⟨rfl, fun _ => rfl, fun h e => by cases e⟩
    | some h =>
      rw [show search db (.notify (some r)) = (.ok [h], db') by simp only [search]; rw [hd]]
      simp only [List.cons_ne_nil, if_false, Option.some.injEq]
      cases size with
      | none => simp
      | some n =>
        simp only [List.length_cons, List.length_nil]
        by_cases hn : n < 8
        · simp [hn]
        · cases null <;> simp [hn] <;> omega

/-- LocateHandleBuffer: exactly what was found, in a buffer of its own, if memory is to be had. -/
theorem locate_handle_buffer_exact {w : World α} {s : St α} (hr : Reachable s.db) {q : Search} (hq : Plain q) :
    (found s.db q = [] → locateHandleBuffer w s q = (.notFound, 0, 0, [], s)) ∧
    (found s.db q ≠ [] → (w.pool s.rest (8 * (found s.db q).length)).1 = none →
      ∃ r, locateHandleBuffer w s q = (.outOfResources, 0, 0, [], ⟨s.db, r⟩)) ∧
    ∀ a, found s.db q ≠ [] → (w.pool s.rest (8 * (found s.db q).length)).1 = some a →
      ∃ r, locateHandleBuffer w s q = (.success, (found s.db q).length, a, found s.db q, ⟨s.db, r⟩) := by
  unfold locateHandleBuffer
  rw [search_plain hr hq]
  refine ⟨fun h => by rw [if_pos h]; rfl, fun h hp => ?_, fun a h hp => ?_⟩
  · rw [if_neg h]
    simp only [if_neg h]
    rw [Nat.mul_comm]
    cases hw : w.pool s.rest (8 * (found s.db q).length) with
    | mk o r => rw [hw] at hp; simp only at hp; subst hp; exact ⟨r, rfl⟩
  · rw [if_neg h]
    simp only [if_neg h]
    rw [Nat.mul_comm]
    cases hw : w.pool s.rest (8 * (found s.db q).length) with
    | mk o r => rw [hw] at hp; simp only at hp; subst hp; exact ⟨r, rfl⟩

/-- LocateProtocol without a registration: an interface of that protocol, or NOT_FOUND and null if nobody has one. It changes nothing. -/
theorem locate_protocol_answers {db : Db} (hr : Reachable db) (g : Nat) :
    (∃ h i, lookup db h g = some i ∧ locateProtocol db g none = (.success, some i, db)) ∨
    ((∀ h, lookup db h g = none) ∧ locateProtocol db g none = (.notFound, some 0, db)) := by
  unfold locateProtocol
  rcases locate_protocol_exact hr g with ⟨a, b⟩ | ⟨h, i, a, b, _⟩
  · exact Or.inr ⟨b, by simp [a, Status.of]⟩
  · exact Or.inl ⟨h, i, a, by simp [b]⟩

/-- LocateProtocol with a registration: the interface on the handle the registration is owed. It panics exactly if that handle does not have the protocol (any
more). -/
theorem locate_protocol_notify (db : Db) (g r : Nat) :
    ((db.nextFresh r).1 = none → locateProtocol db g (some r) = (.notFound, none, (db.nextFresh r).2)) ∧
    ∀ h, (db.nextFresh r).1 = some h →
      (∀ i, lookup (db.nextFresh r).2 h g = some i → locateProtocol db g (some r) = (.success, some i, (db.nextFresh r).2)) ∧
      (lookup (db.nextFresh r).2 h g = none → (locateProtocol db g (some r)).1 = .panics) := by
  unfold locateProtocol
  simp only
  cases hd : db.nextFresh r with
  | mk o db' =>
    cases o with
    | none => exact ⟨fun _ => rfl, fun h e => by cases e⟩
    | some h =>
      refine ⟨(fun e => by cases e), fun h' e => ?_⟩
      simp only [Option.some.injEq] at e
      subst e
      simp only
      rw [getInterface_eq]
      refine ⟨fun i hi => by rw [valid_of_lookup hi, hi]; rfl, fun hn => ?_⟩
      rw [hn]
      cases db'.valid h <;> rfl

/-- ProtocolsPerHandle: exactly the protocols of the handle, each once. -/
theorem protocols_per_handle_exact {w : World α} {s : St α} (hr : Reachable s.db) (h : Nat) :
    (s.db.valid h = false → protocolsPerHandle w s h = (.invalidParameter, 0, [], s)) ∧
    (s.db.valid h = true → ∃ l : List Nat, l.Nodup ∧ (∀ g, g ∈ l ↔ (lookup s.db h g).isSome = true) ∧
      ((w.pool s.rest (24 * l.length)).1 = none → ∃ r, protocolsPerHandle w s h = (.outOfResources, 0, [], ⟨s.db, r⟩)) ∧
      ∀ a, (w.pool s.rest (24 * l.length)).1 = some a → ∃ r, protocolsPerHandle w s h = (.success, a, l, ⟨s.db, r⟩)) := by
  unfold protocolsPerHandle
  refine ⟨fun hv => by rw [hv]; rfl, fun hv => ?_⟩
  rcases protocols_on_handle hr h with ⟨_, b⟩ | ⟨l, a, _, c, d⟩
  · rw [hv] at b; cases b
  refine ⟨l, c, d, ?_⟩
  rw [hv, a]
  simp only [Bool.not_true, Bool.false_eq_true, if_false]
  rw [show l.length * 8 + l.length * 16 = 24 * l.length by omega]
  cases hw : w.pool s.rest (24 * l.length) with
  | mk o r =>
    cases o with
    | none => exact ⟨fun _ => ⟨r, rfl⟩, fun a e => by cases e⟩
    | some b =>
      refine ⟨fun e => (by cases e), fun a e => ?_⟩
      simp only [Option.some.injEq] at e
      subst e
      exact ⟨r, rfl⟩

/-- OpenProtocolInformation: exactly the recorded users. -/
theorem open_information_exact {w : World α} {s : St α} (h g : Nat) :
    (s.db.valid h = false → openInformation w s h g = (.invalidParameter, 0, [], s)) ∧
    (s.db.valid h = true → lookup s.db h g = none → openInformation w s h g = (.notFound, 0, [], s)) ∧
    (∀ i, lookup s.db h g = some i →
      ((w.pool s.rest (24 * (users s.db h g).length)).1 = none → ∃ r, openInformation w s h g = (.outOfResources, 0, [], ⟨s.db, r⟩)) ∧
      ∀ a, (w.pool s.rest (24 * (users s.db h g).length)).1 = some a → ∃ r, openInformation w s h g = (.success, a, users s.db h g, ⟨s.db, r⟩)) := by
  have hu : ∀ i, lookup s.db h g = some i → s.db.usages h g = .ok (users s.db h g) := fun i hi => by
    have hv := valid_of_lookup hi
    unfold lookup at hi
    unfold users
    unfold Db.usages
    rw [hv]
    simp only [Bool.not_true, Bool.false_eq_true, if_false]
    cases hgi : s.db.getInst h g with
    | some x => rfl
    | none =>
      exfalso
      have hgn := getInterface_eq s.db h g
      unfold Db.getInterface at hi
      unfold Db.getInst at hgi
      cases hh : s.db.handles.get h with
      | none => rw [hh] at hi; cases hi
      | some hd =>
        rw [hh] at hi hgi
        simp_all
  unfold openInformation
  refine ⟨fun hv => ?_, fun hv hn => ?_, fun i hi => ?_⟩
  · unfold Db.usages; rw [hv]; rfl
  · have : s.db.usages h g = .err .notFound := by
      unfold Db.usages
      rw [hv]
      simp only [Bool.not_true, Bool.false_eq_true, if_false]
      cases hgi : s.db.getInst h g with
      | none => rfl
      | some x =>
        exfalso
        unfold lookup Db.getInterface at hn
        unfold Db.getInst at hgi
        cases hh : s.db.handles.get h with
        | none => rw [hh] at hgi; cases hgi
        | some hd =>
          rw [hh] at hn hgi
          simp_all
    rw [this]; rfl
  · rw [hu i hi]
    simp only
    rw [Nat.mul_comm (users s.db h g).length 24]
    cases hw : w.pool s.rest (24 * (users s.db h g).length) with
    | mk o r =>
      cases o with
      | none => exact ⟨fun _ => ⟨r, rfl⟩, fun a e => by cases e⟩
      | some b =>
        refine ⟨fun e => (by cases e), fun a e => ?_⟩
        simp only [Option.some.injEq] at e
        subst e
        exact ⟨r, rfl⟩

end Verif.Services
