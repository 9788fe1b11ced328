import Verif.Dispatcher.Closed
import Verif.Dispatcher.DepexLemmas
/-!
The invariant behind the history properties of the dispatcher.
-/
namespace Verif.Dispatcher
open Verif.Depex (Guid Opcode Expr)
variable {W α : Type}

/-- The driver an event is about. -/
def Ev.uid : Ev → Option Nat
  | .found u _ _ _ => some u
  | .judged u _ _ => some u
  | .requested u => some u
  | .trusted u => some u
  | .loaded u _ => some u
  | .handled u _ => some u
  | _ => none

/-- The drivers the context knows. -/
def Ctx.known (c : Ctx) : List Drv := c.pending ++ (c.before.map (·.2) ++ c.after.map (·.2))

def cnt (u : Nat) (l : List Drv) : Nat := l.countP (fun d => d.uid == u)

@[simp] theorem cnt_append (u : Nat) (l l' : List Drv) : cnt u (l ++ l') = cnt u l + cnt u l' := List.countP_append
@[simp] theorem cnt_nil (u : Nat) : cnt u [] = 0 := rfl
theorem cnt_cons (u : Nat) (d : Drv) (l : List Drv) : cnt u (d :: l) = cnt u l + if d.uid = u then 1 else 0 := by
  simp [cnt, List.countP_cons]
theorem cnt_pos {u : Nat} {d : Drv} {l : List Drv} (h : d ∈ l) (e : d.uid = u) : 0 < cnt u l :=
  List.countP_pos_iff.2 ⟨d, h, by simp [e]⟩

/-- What is known about one driver after the history `l`. -/
structure Fact (dbg : Bool) (l : List Ev) (d : Drv) : Prop where
  found : ∃ dx, .found d.uid d.fv d.name dx ∈ l ∧
    d.depex = dx.map (fun b => replay dbg d.uid (Depex.parse b) l)
  fresh : d.uid ∉ startedIn l
  unloaded : d.image = none → d.uid ∉ loadedIn l
  cleared : d.image ≠ none → d.sec = none → Cleared l d.uid
  objected : ∀ e, d.image ≠ none → d.sec = some e → .loaded d.uid (some e) ∈ l

/-- The verdict on `u` is the right one. -/
def Truth (dbg : Bool) (l : List Ev) (u : Nat) (p : List Guid) (v : Bool) : Option (List UInt8) → Prop
  | none => v = true ↔ ArchSeen l
  | some b => (Depex.eval dbg p (replay dbg u (Depex.parse b) l)).1 = .ok v

/-- The event `e` was justified after the history `l`. -/
def Justified (dbg : Bool) (l : List Ev) : Ev → Prop
  | .handled u .started => u ∉ startedIn l ∧ Cleared l u ∧ Eligible l u
  | .judged u p v => ∃ fv name dx, .found u fv name dx ∈ l ∧ Truth dbg l u p v dx
  | .loaded u _ => u ∉ loadedIn l
  | .scanned h => h ∉ scannedIn l
  | .found u _ _ _ => ∀ e ∈ l, e.uid ≠ some u
  | _ => True

/-- Every event was justified when it happened. -/
def History (dbg : Bool) (l : List Ev) : Prop := ∀ a e b, l = a ++ e :: b → Justified dbg a e

theorem History.snoc {dbg : Bool} {l : List Ev} {e : Ev} (h : History dbg l) (he : Justified dbg l e) :
    History dbg (l ++ [e]) := by
  intro a x b hab
  rcases List.eq_nil_or_concat b with rfl | ⟨b', y, rfl⟩
  · obtain ⟨h1, h2⟩ := List.append_inj' hab rfl
    injection h2 with h2
    subst h1 h2
    exact he
  · have : l ++ [e] = (a ++ x :: b') ++ [y] := by simp [hab]
    obtain ⟨h1, h2⟩ := List.append_inj' this rfl
    exact h a x b' h1

theorem startedIn_append (l l' : List Ev) : startedIn (l ++ l') = startedIn l ++ startedIn l' := by
  induction l with
  | nil => rfl
  | cons e l ih =>
    cases e with
    | handled u v => cases v <;> simp [startedIn, ih]
    | _ => simp [startedIn, ih]

theorem loadedIn_append (l l' : List Ev) : loadedIn (l ++ l') = loadedIn l ++ loadedIn l' := by
  induction l with
  | nil => rfl
  | cons e l ih => cases e <;> simp [loadedIn, ih]

theorem scannedIn_append (l l' : List Ev) : scannedIn (l ++ l') = scannedIn l ++ scannedIn l' := by
  induction l with
  | nil => rfl
  | cons e l ih => cases e <;> simp [scannedIn, ih]

theorem mem_startedIn {u : Nat} {l : List Ev} : u ∈ startedIn l ↔ .handled u .started ∈ l := by
  induction l with
  | nil => simp [startedIn]
  | cons e l ih =>
    cases e with
    | handled u v => cases v <;> simp [startedIn, ih]
    | _ => simp [startedIn, ih]

theorem mem_loadedIn {u : Nat} {l : List Ev} : u ∈ loadedIn l ↔ ∃ sec, .loaded u sec ∈ l := by
  induction l with
  | nil => simp [loadedIn]
  | cons e l ih =>
    cases e with
    | loaded v sec =>
      simp only [loadedIn, List.mem_cons, ih]
      constructor
      · rintro (rfl | ⟨s, h⟩)
        · exact ⟨sec, .inl rfl⟩
        · exact ⟨s, .inr h⟩
      · rintro ⟨s, h | h⟩
        · cases h; exact .inl rfl
        · exact .inr ⟨s, h⟩
    | _ => simp [loadedIn, ih]

theorem mem_scannedIn {u : Nat} {l : List Ev} : u ∈ scannedIn l ↔ .scanned u ∈ l := by
  induction l with
  | nil => simp [scannedIn]
  | cons e l ih => cases e <;> simp [scannedIn, ih]

theorem mem_foundIn {u : Nat} {l : List Ev} : u ∈ foundIn l ↔ ∃ fv n dx, .found u fv n dx ∈ l := by
  induction l with
  | nil => simp [foundIn]
  | cons e l ih =>
    cases e with
    | found v a b c =>
      simp only [foundIn, List.mem_cons, ih]
      constructor
      · rintro (rfl | ⟨x, y, z, h⟩)
        · exact ⟨a, b, c, .inl rfl⟩
        · exact ⟨x, y, z, .inr h⟩
      · rintro ⟨x, y, z, h | h⟩
        · cases h; exact .inl rfl
        · exact .inr ⟨x, y, z, h⟩
    | _ => simp [foundIn, ih]

theorem Cleared.append {l : List Ev} {u : Nat} (h : Cleared l u) (l' : List Ev) : Cleared (l ++ l') u := by
  obtain ⟨a, sec, b, rfl, hs⟩ := h
  refine ⟨a, sec, b ++ l', by simp, ?_⟩
  rcases hs with h | ⟨h, ht⟩
  · exact .inl h
  · exact .inr ⟨h, by simp [ht]⟩

theorem Eligible.append {l : List Ev} {u : Nat} (h : Eligible l u) (l' : List Ev) : Eligible (l ++ l') u := by
  rcases h with ⟨p, h⟩ | ⟨fv, n, dx, g, t, fv', dx', p, h1, h2, h3, h4⟩
  · exact .inl ⟨p, by simp [h]⟩
  · exact .inr ⟨fv, n, dx, g, t, fv', dx', p, by simp [h1], h2, by simp [h3], by simp [h4]⟩

theorem evolve_other {dbg : Bool} {u : Nat} {ops : List Opcode} {e : Ev} (h : e.uid ≠ some u) :
    evolve dbg u ops e = ops := by
  cases e with
  | judged v p b => simp only [Ev.uid, ne_eq, Option.some.injEq] at h; simp [evolve, h]
  | requested v => simp only [Ev.uid, ne_eq, Option.some.injEq] at h; simp [evolve, h]
  | _ => rfl

theorem not_started_snoc {l : List Ev} {u : Nat} {e : Ev} (h : u ∉ startedIn l)
    (he : e ≠ .handled u .started) : u ∉ startedIn (l ++ [e]) := by
  rw [mem_startedIn] at h ⊢
  simp only [List.mem_append, List.mem_singleton, not_or]
  exact ⟨h, fun h' => he h'.symm⟩

theorem not_loaded_snoc {l : List Ev} {u : Nat} {e : Ev} (h : u ∉ loadedIn l)
    (he : ∀ sec, e ≠ .loaded u sec) : u ∉ loadedIn (l ++ [e]) := by
  rw [mem_loadedIn] at h ⊢
  simp only [List.mem_append, List.mem_singleton, not_exists, not_or] at h ⊢
  exact fun s => ⟨h s, fun h' => he s h'.symm⟩

/-- An event that neither starts, loads nor changes the expression of `d`. -/
theorem Fact.snoc {dbg : Bool} {l : List Ev} {d : Drv} {e : Ev} (f : Fact dbg l d)
    (h1 : ∀ ops, evolve dbg d.uid ops e = ops) (h2 : e ≠ .handled d.uid .started)
    (h3 : ∀ sec, e ≠ .loaded d.uid sec) : Fact dbg (l ++ [e]) d := by
  obtain ⟨dx, hf, hd⟩ := f.found
  refine ⟨⟨dx, by simp [hf], ?_⟩, not_started_snoc f.fresh h2, fun hi => not_loaded_snoc (f.unloaded hi) h3,
    fun hi hs => (f.cleared hi hs).append _, fun e hi hs => by simp [f.objected e hi hs]⟩
  rw [hd]
  congr 1
  funext b
  rw [replay_snoc, h1]

theorem Fact.other {dbg : Bool} {l : List Ev} {d : Drv} {e : Ev} (f : Fact dbg l d)
    (h : e.uid ≠ some d.uid) : Fact dbg (l ++ [e]) d := by
  refine f.snoc (fun ops => evolve_other h) ?_ ?_
  · rintro rfl; exact h rfl
  · rintro s rfl; exact h rfl

/-- The part of the invariant that does not depend on why drivers are in flight. `X`: the drivers outside
the context. -/
structure Base (dbg : Bool) (X : List Drv) (s : St W) : Prop where
  once : ∀ u, cnt u (s.ctx.known ++ X) ≤ 1
  facts : ∀ d ∈ s.ctx.known ++ X, Fact dbg s.log d
  waiting : ∀ d ∈ s.ctx.known, d.image ≠ none → d.sec = none ∨ d.sec = some .securityViolation
  before : ∀ p ∈ s.ctx.before, p.2.depex.bind Depex.isAssociated = some (.before p.1)
  after : ∀ p ∈ s.ctx.after, p.2.depex.bind Depex.isAssociated = some (.after p.1)
  arch : s.ctx.arch = true ↔ ArchSeen s.log
  bound : ∀ e ∈ s.log, ∀ u, e.uid = some u → u < s.ctx.next
  processed : ∀ h, h ∈ s.ctx.processed ↔ h ∈ scannedIn s.log
  history : History dbg s.log

/-- The invariant: drivers in flight are there for a reason. -/
def Inv (dbg : Bool) (F : List Drv) (s : St W) : Prop :=
  Base dbg F s ∧ ∀ d ∈ F, Eligible s.log d.uid

theorem Base.weaken {dbg : Bool} {X Y : List Drv} {s : St W} (b : Base dbg X s)
    (hm : ∀ d ∈ Y, d ∈ X) (hc : ∀ u, cnt u Y ≤ cnt u X) : Base dbg Y s := by
  refine { b with once := ?_, facts := ?_ }
  · intro u
    have h1 := b.once u
    have h2 := hc u
    simp only [cnt_append] at h1 ⊢
    omega
  · intro d hd
    apply b.facts
    simp only [List.mem_append] at hd ⊢
    exact hd.imp id (hm d)

theorem Base.ne {dbg : Bool} {d : Drv} {X : List Drv} {s : St W} (b : Base dbg (d :: X) s) :
    ∀ d' ∈ s.ctx.known ++ X, d'.uid ≠ d.uid := by
  intro d' h e
  have h1 := b.once d.uid
  have h2 := cnt_pos h e
  simp only [cnt_append, cnt_cons] at h1 h2
  simp at h1
  omega

theorem Base.lt {dbg : Bool} {X : List Drv} {s : St W} (b : Base dbg X s) {d : Drv}
    (h : d ∈ s.ctx.known ++ X) : d.uid < s.ctx.next := by
  obtain ⟨dx, hf, _⟩ := (b.facts d h).found
  exact b.bound _ hf _ rfl

theorem archSeen_snoc {l : List Ev} {e : Ev} (h : ∀ p, e ≠ .pass p) : ArchSeen (l ++ [e]) ↔ ArchSeen l := by
  constructor
  · rintro ⟨p, hp, ha⟩
    simp only [List.mem_append, List.mem_singleton] at hp
    rcases hp with hp | hp
    · exact ⟨p, hp, ha⟩
    · exact absurd hp.symm (h p)
  · rintro ⟨p, hp, ha⟩
    exact ⟨p, by simp [hp], ha⟩

theorem bound_snoc {l : List Ev} {e : Ev} {n m : Nat} (h : ∀ e ∈ l, ∀ u, e.uid = some u → u < n) (hn : n ≤ m)
    (he : ∀ u, e.uid = some u → u < m) : ∀ x ∈ l ++ [e], ∀ u, x.uid = some u → u < m := by
  intro x hx u hu
  simp only [List.mem_append, List.mem_singleton] at hx
  rcases hx with hx | rfl
  · exact Nat.lt_of_lt_of_le (h x hx u hu) hn
  · exact he u hu

theorem processed_snoc {l : List Ev} {e : Ev} {P : List Nat} (h : ∀ x, x ∈ P ↔ x ∈ scannedIn l)
    (he : ∀ x, e ≠ .scanned x) : ∀ x, x ∈ P ↔ x ∈ scannedIn (l ++ [e]) := by
  intro x
  rw [h, mem_scannedIn, mem_scannedIn]
  simp only [List.mem_append, List.mem_singleton]
  exact ⟨.inl, fun h => h.elim id (fun h => absurd h.symm (he x))⟩

/-- Appending an event that is justified and does not touch the drivers of the context. -/
theorem Base.note {dbg : Bool} {X Y : List Drv} {s : St W} {e : Ev} (b : Base dbg X s)
    (hY : ∀ d ∈ Y, Fact dbg (s.log ++ [e]) d) (hc : ∀ u, cnt u Y ≤ cnt u X)
    (ho : ∀ d ∈ s.ctx.known, e.uid ≠ some d.uid) (hj : Justified dbg s.log e)
    (hp : ∀ p, e ≠ .pass p) (hsc : ∀ x, e ≠ .scanned x) (hu : ∀ u, e.uid = some u → u < s.ctx.next) :
    Base dbg Y (s.note e) := by
  refine ⟨?_, ?_, b.waiting, b.before, b.after, ?_, ?_, ?_, b.history.snoc hj⟩
  · intro u
    have h1 := b.once u
    have h2 := hc u
    simp only [cnt_append, St.note] at h1 ⊢
    omega
  · intro d hd
    simp only [List.mem_append, St.note] at hd
    rcases hd with hd | hd
    · exact (b.facts d (by simp [hd])).other (ho d hd)
    · exact hY d hd
  · exact b.arch.trans (archSeen_snoc hp).symm
  · exact bound_snoc b.bound (Nat.le_refl _) hu
  · exact processed_snoc b.processed hsc

end Verif.Dispatcher
