import Verif.Protocol.Props
/-! C16: protocol notifications. -/
namespace Verif.Protocol
open Verif

/-! ### Specification -/

/-- What a history shows about a registration. -/
inductive Ev where
  | installed (h g : Nat)
  | reported (reg h : Nat)
deriving DecidableEq, Repr

/-- The observable outcome of one call. -/
def Db.events (hash : Nat → Nat → Nat) (lim : Nat) (db : Db) : Op → List Ev
  | .install handle g i =>
    match (db.install hash lim handle g i).1 with
    | .ok (h, _) => [.installed h g]
    | _ => []
  | .nextFresh r =>
    match (db.nextFresh r).1 with
    | some h => [.reported r h]
    | none => []
  | _ => []

/-- The observable outcomes of a history. -/
def Db.log (hash : Nat → Nat → Nat) (lim : Nat) : Db → List Op → List Ev
  | _, [] => []
  | db, op :: ops => db.events hash lim op ++ (db.step hash lim op).log hash lim ops

/-- Is `h` owed to registration `r` for `g`: was `g` installed on it since it was last reported? -/
def owed (r g h : Nat) (log : List Ev) : Bool :=
  log.foldl (fun b ev =>
    match ev with
    | .installed h' g' => b || (h' == h && g' == g)
    | .reported r' h' => b && !(r' == r && h' == h)) false

/-- The registrations a history leaves: number, GUID and event; numbers count up from 1. -/
def regsAfter (ops : List Op) : Nat × List (Nat × Nat × Nat) :=
  ops.foldl (fun (n, l) op =>
    match op with
    | .register g e => (n + 1, l ++ [(n, g, e)])
    | .unregister e => (n, l.filter fun x => !(x.2.2 == e))
    | _ => (n, l)) (1, [])

/-! ### Proofs -/

/-- Registration `r` stands for `g` and `e` and its fresh set is `f`. -/
def Tracks (db : Db) (r g e : Nat) (f : Nat → Bool) : Prop :=
  ∃ l n, db.notifications.get g = some l ∧ n ∈ l ∧ n.registration = r ∧ n.event = e ∧ ∀ h, n.fresh.has h = f h

theorem tracks_install {hash : Nat → Nat → Nat} {lim : Nat} {db : Db} (hv : Inv db) {r g e : Nat} {f : Nat → Bool}
    (ht : Tracks db r g e f) {handle : Option Nat} {g0 i0 h0 : Nat} {ns : List Notify}
    (ho : (db.install hash lim handle g0 i0).1 = .ok (h0, ns)) :
    Tracks (db.install hash lim handle g0 i0).2 r g e (fun h => f h || (h0 == h && g0 == g)) := by
  obtain ⟨o, ps, nh, h1, _, _, _⟩ := install_ok hv ho
  obtain ⟨l, n, a, b, c, d, k⟩ := ht
  rw [h1]
  unfold Tracks putInst
  simp only [BMap.get_modify]
  by_cases eg : g = g0
  · subst eg
    rw [if_pos rfl, a]
    refine ⟨_, { n with fresh := n.fresh.insert h0 () }, rfl, List.mem_map.2 ⟨n, b, rfl⟩, c, d, ?_⟩
    intro h
    show (BMap.insert n.fresh h0 ()).has h = _
    rw [BMap.has_insert, k]
    by_cases e1 : h = h0
    · subst e1; simp
    · have : h0 ≠ h := fun x => e1 x.symm
      rw [beq_eq_false_iff_ne.2 e1, beq_eq_false_iff_ne.2 this]; simp
  · rw [if_neg eg]
    refine ⟨l, n, a, b, c, d, ?_⟩
    intro h
    have : (g0 == g) = false := by simpa using fun x => eg x.symm
    rw [k, this]; simp

theorem fresh_pop {h : Nat} {u : Unit} {rest : BMap Unit} (hs : BMap.Sorted ((h, u) :: rest)) (k : Nat) :
    BMap.has rest k = (BMap.has ((h, u) :: rest) k && !(h == k)) := by
  obtain ⟨h1, _⟩ := List.pairwise_cons.1 hs
  unfold BMap.has
  rw [BMap.get_cons]
  by_cases e : h = k
  · subst e
    have : BMap.get rest h = none := BMap.get_none_of (fun x hx => by have := h1 x hx; simp only at this; omega)
    simp [this]
  · simp [e]

/-- The registration a number stands for is unique. -/
theorem tracked_unique {db : Db} (hv : Inv db) {g l n g' l' n'} (a : db.notifications.get g = some l) (b : n ∈ l)
    (a' : db.notifications.get g' = some l') (b' : n' ∈ l') (hr : n.registration = n'.registration) : g = g' ∧ n = n' := by
  have hg := hv.regOne g g' l l' n n' a a' b b' hr
  subst hg
  rw [a] at a'; cases a'
  refine ⟨rfl, ?_⟩
  have hp := hv.regs g l a
  have : ∀ (l : List Notify), l.Pairwise (fun a b => a.registration < b.registration) → n ∈ l → n' ∈ l → n = n' := by
    intro l hp hn hn'
    induction l with
    | nil => cases hn
    | cons x l ih =>
      obtain ⟨h1, h2⟩ := List.pairwise_cons.1 hp
      rcases List.mem_cons.1 hn with e | e <;> rcases List.mem_cons.1 hn' with e' | e'
      · rw [e, e']
      · subst e; have := h1 n' e'; omega
      · subst e'; have := h1 n e; omega
      · exact ih h2 e e'
  exact this l hp b b'

theorem tracks_nextFresh {db : Db} (hv : Inv db) {r g e : Nat} {f : Nat → Bool} (ht : Tracks db r g e f) (r0 : Nat) :
    Tracks (db.nextFresh r0).2 r g e (fun h => f h && !((db.nextFresh r0).1 == some h && r0 == r)) ∧
    (r0 = r → ∀ h, (db.nextFresh r0).1 = some h → f h = true ∧ ∀ h', f h' = true → h ≤ h') ∧
    (r0 = r → (db.nextFresh r0).1 = none → ∀ h, f h = false) := by
  obtain ⟨l, n, a, b, c, d, k⟩ := ht
  rcases nextFresh_cases hv r0 with ⟨h1, h2⟩ | ⟨g1, l1, pre, n1, post, h1, u, rest, m, e1, e2, e3, e4, e5, e6, e7⟩
  · rw [h1]
    refine ⟨⟨l, n, a, b, c, d, ?_⟩, ?_, ?_⟩
    · intro h; rw [k]; simp
    · intro _ h hx; cases hx
    · intro hr _ h
      have := h2 g l n a b (by rw [c, hr])
      rw [← k, this]; rfl
  · rw [e1]
    have hn1 : n1 ∈ l1 := by rw [e3]; simp
    have hsf := hv.fresh g1 l1 n1 e2 hn1
    rw [e5] at hsf
    by_cases hr : r0 = r
    · obtain ⟨rfl, rfl⟩ := tracked_unique hv a b e2 hn1 (by rw [c, e4, hr])
      refine ⟨⟨_, { n with fresh := rest }, (by show BMap.get m g = _; rw [e7, if_pos rfl]), by simp, c, d, ?_⟩, ?_, ?_⟩
      · intro h
        show BMap.has rest h = _
        rw [fresh_pop hsf, ← e5, k, hr]
        simp
      · intro _ h hx
        cases hx
        refine ⟨?_, ?_⟩
        · rw [← k, e5]; unfold BMap.has; rw [BMap.get_cons, if_pos rfl]; rfl
        · intro h' hh'
          rw [← k, e5] at hh'
          obtain ⟨v, hv'⟩ := BMap.has_iff.1 hh'
          rcases List.mem_cons.1 (BMap.get_some_mem hv') with e | e
          · cases e; exact Nat.le_refl _
          · exact Nat.le_of_lt ((List.pairwise_cons.1 hsf).1 _ e)
      · intro _ hx; cases hx
    · refine ⟨?_, fun x => absurd x hr, fun x => absurd x hr⟩
      have hf : ∀ h, (f h && !((some h1 : Option Nat) == some h && r0 == r)) = f h := by
        intro h
        have : (r0 == r) = false := by simpa using hr
        rw [this]; simp
      unfold Tracks
      simp only [hf]
      show ∃ l n, BMap.get m g = some l ∧ _
      rw [e7]
      by_cases eg : g = g1
      · subst eg
        rw [if_pos rfl]
        rw [a] at e2; cases e2
        refine ⟨_, n, rfl, ?_, c, d, k⟩
        rw [e3] at b
        simp only [List.mem_append, List.mem_cons] at b ⊢
        rcases b with b | b | b
        · exact Or.inl b
        · subst b; exact absurd (e4.symm.trans c) hr
        · exact Or.inr (Or.inr b)
      · rw [if_neg eg]
        exact ⟨l, n, a, b, c, d, k⟩

theorem tracks_step {hash : Nat → Nat → Nat} {lim : Nat} {db : Db} (hv : Inv db) {r g e : Nat} {f : Nat → Bool}
    (ht : Tracks db r g e f) (op : Op) (hu : op ≠ .unregister e) :
    Tracks (db.step hash lim op) r g e (fun h => (db.events hash lim op).foldl (fun b ev =>
      match ev with
      | .installed h' g' => b || (h' == h && g' == g)
      | .reported r' h' => b && !(r' == r && h' == h)) (f h)) := by
  cases op with
  | install handle g0 i0 =>
    unfold Db.step Db.events
    simp only
    cases ho : (db.install hash lim handle g0 i0).1 with
    | ok p => obtain ⟨h0, ns⟩ := p; exact tracks_install hv ht ho
    | err x =>
      rw [install_fail hv (fun r hr => by rw [ho] at hr; cases hr)]; exact ht
    | panic =>
      rw [install_fail hv (fun r hr => by rw [ho] at hr; cases hr)]; exact ht
  | uninstall h0 g0 i0 =>
    show Tracks (db.uninstall h0 g0 i0).2 r g e f
    have : (db.uninstall h0 g0 i0).2.notifications = db.notifications := by
      rcases uninstall_cases db h0 g0 i0 with ⟨h1, _⟩ | ⟨hd, i, _, _, _, _, he⟩
      · rw [h1]
      · rw [he]; rfl
    unfold Tracks; rw [this]; exact ht
  | addUsage h0 g0 a c at_ =>
    show Tracks (db.addUsage h0 g0 a c at_).2 r g e f
    have : (db.addUsage h0 g0 a c at_).2.notifications = db.notifications := by
      unfold Db.addUsage
      split
      · rfl
      · split
        · rfl
        · split <;> rfl
    unfold Tracks; rw [this]; exact ht
  | removeUsage h0 g0 a c at_ =>
    show Tracks (db.removeUsage h0 g0 a c at_).2 r g e f
    have : (db.removeUsage h0 g0 a c at_).2.notifications = db.notifications := by
      unfold Db.removeUsage
      split
      · rfl
      · split
        · rfl
        · rfl
    unfold Tracks; rw [this]; exact ht
  | register g0 e0 =>
    show Tracks (db.register g0 e0).2 r g e f
    obtain ⟨l, n, a, b, c, d, k⟩ := ht
    unfold Db.register Tracks
    simp only [BMap.get_insert]
    by_cases eg : g = g0
    · subst eg
      rw [if_pos rfl, a]
      exact ⟨_, n, rfl, by simp [b], c, d, k⟩
    · rw [if_neg eg]; exact ⟨l, n, a, b, c, d, k⟩
  | unregister e0 =>
    show Tracks (db.unregister e0) r g e f
    obtain ⟨l, n, a, b, c, d, k⟩ := ht
    have hne : e ≠ e0 := fun x => hu (by rw [x])
    refine ⟨l.filter (fun n => !(n.event == e0)), n, ?_, List.mem_filter.2 ⟨b, by rw [d]; simpa using hne⟩, c, d, k⟩
    show BMap.get (db.notifications.map fun (g, l) => (g, l.filter fun n => !(n.event == e0))) g = _
    rw [get_mapVal db.notifications (fun l => l.filter fun n => !(n.event == e0)), a]; rfl
  | nextFresh r0 =>
    have := (tracks_nextFresh hv ht r0).1
    show Tracks (db.nextFresh r0).2 r g e _
    cases hx : (db.nextFresh r0).1 with
    | none =>
      have hev : db.events hash lim (.nextFresh r0) = [] := by unfold Db.events; simp only [hx]
      rw [hx] at this
      rw [hev]
      simpa using this
    | some h0 =>
      have hev : db.events hash lim (.nextFresh r0) = [.reported r0 h0] := by unfold Db.events; simp only [hx]
      rw [hx] at this
      rw [hev]
      have hc : (fun h => f h && !((some h0 : Option Nat) == some h && r0 == r)) = (fun h => f h && !(r0 == r && h0 == h)) := by
        funext h
        have : ((some h0 : Option Nat) == some h) = (h0 == h) := by
          by_cases e : h0 = h
          · subst e; simp
          · simp [e]
        rw [this, Bool.and_comm (h0 == h)]
      rw [hc] at this
      exact this
  | enableHashing => exact ht

theorem tracks_run {hash : Nat → Nat → Nat} {lim : Nat} {r g e : Nat} : ∀ (ops : List Op) {db : Db} {f : Nat → Bool}, Inv db →
    Tracks db r g e f → (∀ op ∈ ops, op ≠ .unregister e) →
    Tracks (db.run hash lim ops) r g e (fun h => (db.log hash lim ops).foldl (fun b ev =>
      match ev with
      | .installed h' g' => b || (h' == h && g' == g)
      | .reported r' h' => b && !(r' == r && h' == h)) (f h)) := by
  intro ops
  induction ops with
  | nil => intro db f _ ht _; exact ht
  | cons op ops ih =>
    intro db f hv ht hu
    have h1 := tracks_step (hash := hash) (lim := lim) hv ht op (hu op (by simp))
    have h2 := ih (inv_step hv op) h1 (fun o ho => hu o (by simp [ho]))
    unfold Db.log
    simp only [List.foldl_append]
    exact h2

theorem tracks_register {db : Db} (g e : Nat) :
    Tracks (db.register g e).2 (db.register g e).1 g e (fun _ => false) := by
  unfold Tracks Db.register
  simp only [BMap.get_insert, if_true]
  exact ⟨_, ⟨e, db.nextRegistration, []⟩, rfl, by simp, rfl, rfl, fun h => rfl⟩

/-- Registrations and their numbers follow the history. -/
def RegRel (db : Db) (s : Nat × List (Nat × Nat × Nat)) : Prop :=
  db.nextRegistration = s.1 ∧
  ∀ g, ((db.notifications.get g).getD []).map (fun n => (n.registration, n.event)) =
      (s.2.filter fun x => x.2.1 == g).map (fun x => (x.1, x.2.2))

/-- One step of `regsAfter`. -/
def regStep (s : Nat × List (Nat × Nat × Nat)) (op : Op) : Nat × List (Nat × Nat × Nat) :=
  match op with
  | .register g e => (s.1 + 1, s.2 ++ [(s.1, g, e)])
  | .unregister e => (s.1, s.2.filter fun x => !(x.2.2 == e))
  | _ => s

theorem regRel_step {hash : Nat → Nat → Nat} {lim : Nat} {db : Db} (hv : Inv db) {s : Nat × List (Nat × Nat × Nat)}
    (hs : RegRel db s) (op : Op) : RegRel (db.step hash lim op) (regStep s op) := by
  have keep : ∀ db' : Db, db'.nextRegistration = db.nextRegistration → db'.notifications = db.notifications → RegRel db' s := by
    intro db' h1 h2
    unfold RegRel; rw [h1, h2]; exact hs
  cases op with
  | install handle g0 i0 =>
    show RegRel (db.install hash lim handle g0 i0).2 s
    by_cases ho : ∃ p, (db.install hash lim handle g0 i0).1 = .ok p
    · obtain ⟨⟨h0, ns⟩, ho⟩ := ho
      obtain ⟨o, ps, nh, h1, _, _, _⟩ := install_ok hv ho
      rw [h1]
      refine ⟨hs.1, ?_⟩
      intro g
      rw [← hs.2 g]
      unfold putInst
      simp only [BMap.get_modify]
      split
      · rename_i e
        cases db.notifications.get g with
        | none => rfl
        | some l => simp [Function.comp_def]
      · rfl
    · rw [install_fail hv (fun r hr => ho ⟨r, hr⟩)]; exact hs
  | uninstall h0 g0 i0 =>
    show RegRel (db.uninstall h0 g0 i0).2 s
    rcases uninstall_cases db h0 g0 i0 with ⟨h1, _⟩ | ⟨hd, i, _, _, _, _, he⟩
    · rw [h1]; exact hs
    · rw [he]; exact keep _ rfl rfl
  | addUsage h0 g0 a c at_ =>
    show RegRel (db.addUsage h0 g0 a c at_).2 s
    unfold Db.addUsage
    split
    · exact hs
    · split
      · exact hs
      · split
        · exact keep _ rfl rfl
        · exact hs
        · exact hs
  | removeUsage h0 g0 a c at_ =>
    show RegRel (db.removeUsage h0 g0 a c at_).2 s
    unfold Db.removeUsage
    split
    · exact hs
    · split
      · exact hs
      · exact keep _ rfl rfl
  | register g0 e0 =>
    refine ⟨by show db.nextRegistration + 1 = s.1 + 1; rw [hs.1], ?_⟩
    intro g
    show ((BMap.get (db.notifications.insert g0 ((db.notifications.get g0).getD [] ++ [⟨e0, db.nextRegistration, []⟩])) g).getD []).map _ = _
    rw [BMap.get_insert]
    unfold regStep
    simp only [List.filter_append, List.map_append, ← hs.2 g]
    by_cases e : g = g0
    · subst e
      simp [hs.1]
    · have : (g0 == g) = false := by simpa using fun x => e x.symm
      simp [e, this]
  | unregister e0 =>
    refine ⟨hs.1, ?_⟩
    intro g
    show ((BMap.get (db.notifications.map fun (g, l) => (g, l.filter fun n => !(n.event == e0))) g).getD []).map _ = _
    rw [get_mapVal db.notifications (fun l => l.filter fun n => !(n.event == e0))]
    have h1 : (Option.map (fun l : List Notify => l.filter fun n => !(n.event == e0)) (db.notifications.get g)).getD [] =
        ((db.notifications.get g).getD []).filter fun n => !(n.event == e0) := by
      cases db.notifications.get g <;> rfl
    rw [h1]
    have h2 := congrArg (fun l => l.filter fun x : Nat × Nat => !(x.2 == e0)) (hs.2 g)
    simp only [List.filter_map] at h2
    have h3 : (((db.notifications.get g).getD []).filter fun n => !(n.event == e0)).map (fun n => (n.registration, n.event)) =
        ((s.2.filter fun x => x.2.1 == g).filter fun x => !(x.2.2 == e0)).map (fun x => (x.1, x.2.2)) := h2
    rw [h3]
    unfold regStep
    simp only [List.filter_filter]
    congr 1
    refine List.filter_congr ?_
    intro x _
    rw [Bool.and_comm]
  | nextFresh r0 =>
    show RegRel (db.nextFresh r0).2 s
    rcases nextFresh_cases hv r0 with ⟨h1, h2⟩ | ⟨g1, l1, pre, n1, post, h1, u, rest, m, e1, e2, e3, e4, e5, e6, e7⟩
    · rw [h1]; exact hs
    · rw [e1]
      refine ⟨hs.1, ?_⟩
      intro g
      rw [← hs.2 g]
      show ((BMap.get m g).getD []).map _ = _
      rw [e7]
      split
      · rename_i e
        rw [e, e2, e3]; simp
      · rfl
  | enableHashing => exact hs

theorem regRel_run {hash : Nat → Nat → Nat} {lim : Nat} : ∀ (ops : List Op) {db : Db} {s}, Inv db → RegRel db s →
    RegRel (db.run hash lim ops) (ops.foldl regStep s) := by
  intro ops
  induction ops with
  | nil => intro db s _ hs; exact hs
  | cons op ops ih => intro db s hv hs; exact ih (inv_step hv op) (regRel_step hv hs op)

theorem regsAfter_eq (ops : List Op) : regsAfter ops = ops.foldl regStep (1, []) := by
  unfold regsAfter
  congr 1

/-! ### The property -/

/-- After `register_protocol_notify(g, e)` answered `r`, and any further calls that do not unregister `e`: asking for the next
handle of `r` answers the lowest handle owed to `r`, and answers nothing exactly when none is owed. -/
theorem notify_exactly_owed {db : Db} (hr : Reachable db) (hash : Nat → Nat → Nat) (lim g e : Nat) (ops : List Op)
    (hu : ∀ op ∈ ops, op ≠ .unregister e) :
    let r := (db.register g e).1
    let db1 := (db.register g e).2
    let log := db1.log hash lim ops
    match ((db1.run hash lim ops).nextFresh r).1 with
    | some h => owed r g h log = true ∧ ∀ h', owed r g h' log = true → h ≤ h'
    | none => ∀ h, owed r g h log = false := by
  simp only
  have hv := inv_reachable hr
  have ht := tracks_run (hash := hash) (lim := lim) ops (inv_register hv g e) (tracks_register g e) hu
  have hv1 := inv_run (hash := hash) (lim := lim) ops (inv_register hv g e)
  obtain ⟨_, h2, h3⟩ := tracks_nextFresh hv1 ht (db.register g e).1
  split
  · rename_i h hx; exact h2 rfl h hx
  · rename_i hx; exact h3 rfl hx

/-- A successful install hands back exactly the live registrations of its GUID, in the order they were made, each with the
handle among its fresh ones. -/
theorem install_notifies (hash : Nat → Nat → Nat) (lim : Nat) (ops : List Op) (handle : Option Nat) (g i h : Nat) (ns : List Notify)
    (ho : ((Db.new.run hash lim ops).install hash lim handle g i).1 = .ok (h, ns)) :
    ns.map (fun n => (n.registration, n.event)) =
      ((regsAfter ops).2.filter fun x => x.2.1 == g).map (fun x => (x.1, x.2.2)) ∧
    ∀ n ∈ ns, n.fresh.has h = true := by
  have hv := inv_run (hash := hash) (lim := lim) ops inv_new
  have hrel := regRel_run (hash := hash) (lim := lim) ops inv_new (s := (1, [])) ⟨rfl, fun g => rfl⟩
  rw [← regsAfter_eq] at hrel
  obtain ⟨o, ps, nh, h1, h2, _, _⟩ := install_ok hv ho
  have hget : (putInst (Db.new.run hash lim ops) h o g i ps nh).notifications.get g =
      ((Db.new.run hash lim ops).notifications.get g).map (·.map fun n => { n with fresh := n.fresh.insert h () }) := by
    unfold putInst
    simp only [BMap.get_modify, if_true]
  rw [h2, hget]
  cases hn : (Db.new.run hash lim ops).notifications.get g with
  | none =>
    have := hrel.2 g
    rw [hn] at this
    exact ⟨this, fun n hn => by cases hn⟩
  | some l =>
    have := hrel.2 g
    rw [hn] at this
    refine ⟨?_, ?_⟩
    · rw [← this]; simp [Function.comp_def]
    · intro n hn
      obtain ⟨n0, _, rfl⟩ := List.mem_map.1 hn
      show (BMap.insert n0.fresh h ()).has h = true
      rw [BMap.has_insert]; simp

/-- Registration numbers are never used twice. -/
theorem register_number (hash : Nat → Nat → Nat) (lim : Nat) (ops : List Op) (g e : Nat) :
    ((Db.new.run hash lim ops).register g e).1 = 1 + (ops.filter fun | .register .. => true | _ => false).length := by
  have hrel := regRel_run (hash := hash) (lim := lim) ops inv_new (s := (1, [])) ⟨rfl, fun g => rfl⟩
  show (Db.new.run hash lim ops).nextRegistration = _
  rw [hrel.1]
  have gen : ∀ (ops : List Op) s, (ops.foldl regStep s).1 = s.1 + (ops.filter fun | .register .. => true | _ => false).length := by
    intro ops
    induction ops with
    | nil => intro s; rfl
    | cons op ops ih =>
      intro s
      rw [List.foldl_cons, ih]
      cases op <;> simp [regStep] <;> omega
  exact gen ops (1, [])

/-! ### Examples: the hypotheses are met, and limits -/

/-- A history used below: a registration for GUID 7, two installs of it, one of another GUID, an open and a close. -/
def sample : List Op :=
  [.register 7 100, .install none 7 1000, .install none 7 2000, .install (some 1) 8 3000,
   .addUsage 1 7 (some 2) (some 1) BY_DRIVER]

def idHash : Nat → Nat → Nat := fun n i => n + i

def sampleDb : Db := Db.new.run idHash 10 sample

theorem sample_reachable : Reachable sampleDb := ⟨idHash, 10, sample, rfl⟩

example : lookup sampleDb 1 7 = some 1000 ∧ lookup sampleDb 1 8 = some 3000 ∧ lookup sampleDb 2 7 = some 2000 ∧
    lookup sampleDb 2 8 = none ∧ allHandles sampleDb = [1, 2] ∧ (users sampleDb 1 7).length = 1 := by decide
example : (sampleDb.install idHash 10 (some 2) 8 5).1 = .ok (2, []) ∧ (sampleDb.install idHash 10 (some 1) 8 5).1 = .err .invalidParameter ∧
    (sampleDb.install idHash 10 none 8 5).1 = .ok (3, []) := by decide
example : (sampleDb.uninstall 1 7 1000).1 = .err .accessDenied ∧ (sampleDb.uninstall 2 7 2000).1 = .ok () := by decide
example : (sampleDb.addUsage 1 7 (some 1) (some 2) EXCLUSIVE).1 = .err .accessDenied ∧
    (sampleDb.addUsage 1 7 (some 2) (some 1) BY_DRIVER).1 = .err .alreadyStarted ∧
    (sampleDb.addUsage 2 7 (some 2) (some 1) BY_DRIVER_EXCLUSIVE).1 = .ok () ∧
    (sampleDb.removeUsage 1 7 (some 2) (some 1) none).1 = .ok () := by decide
example : sampleDb.locateHandles (some 7) = .ok [1, 2] ∧ sampleDb.locateHandles (some 8) = .ok [1] ∧ sampleDb.locateProtocol 7 = .ok 1000 := by
  decide
/-- Handles come back lowest first, each once. -/
example : (sampleDb.nextFresh 1).1 = some 1 ∧ ((sampleDb.nextFresh 1).2.nextFresh 1).1 = some 2 ∧
    (((sampleDb.nextFresh 1).2.nextFresh 1).2.nextFresh 1).1 = none := by decide
/-- A child. -/
example : (sampleDb.addUsage 2 7 (some 1) (some 1) BY_CHILD_CONTROLLER).2.children 2 = .ok [1] := by decide

/-- Finding: a handle can be reported after it is gone (`fresh_handles` is not pruned by uninstall). -/
theorem reports_gone_handle : ∃ db, Reachable db ∧ ∃ h, (db.nextFresh 1).1 = some h ∧ db.valid h = false :=
  ⟨Db.new.run idHash 10 [.register 7 100, .install none 7 1000, .uninstall 1 7 1000], ⟨_, _, _, rfl⟩, 1, by decide⟩

/-- Finding: two installs of the protocol on one handle before it is asked for are reported once. -/
theorem reinstall_reported_once : ∃ ops, (Db.new.log idHash 10 ops).count (.installed 1 7) = 2 ∧
    ((Db.new.run idHash 10 ops).nextFresh 1).1 = some 1 ∧ (((Db.new.run idHash 10 ops).nextFresh 1).2.nextFresh 1).1 = none :=
  ⟨[.register 7 100, .install none 7 1000, .install (some 1) 8 3000, .uninstall 1 7 1000, .install (some 1) 7 1000], by decide⟩

/-- Finding: once an agent's handle is gone, its open can no longer be closed, so the protocol can never be uninstalled: the
close fails for every argument that would match. -/
theorem open_of_gone_agent_stays : ∃ db, Reachable db ∧ ∃ u ∈ users db 1 7, (db.uninstall 1 7 1000).1 = .err .accessDenied ∧
    ∀ at_, (db.removeUsage 1 7 u.agent u.controller at_).1 = .err .invalidParameter :=
  ⟨Db.new.run idHash 10 [.install none 7 1000, .install none 8 2000, .addUsage 1 7 (some 2) (some 1) GET_PROTOCOL, .uninstall 2 8 2000],
    ⟨_, _, _, rfl⟩, ⟨some 2, some 1, 2, 1⟩, by decide, by decide, fun at_ => rfl⟩

/-- Finding: `ALREADY_STARTED` is answered for repeated opens of any kind while some driver has the protocol open. -/
theorem already_started_for_any_repeat : ∃ db, Reachable db ∧ (db.addUsage 1 7 (some 1) (some 1) GET_PROTOCOL).1 = .err .alreadyStarted :=
  ⟨Db.new.run idHash 10 [.install none 7 1000, .addUsage 1 7 (some 1) (some 1) GET_PROTOCOL, .addUsage 1 7 (some 1) (some 1) BY_DRIVER],
    ⟨_, _, _, rfl⟩, by decide⟩

end Verif.Protocol
