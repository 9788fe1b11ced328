import Verif.Events.TplProps
import Verif.SdkBoot.Guard
/-!
C130: guards that raise the TPL.
-/
namespace Verif.SdkBoot.Guard
open Verif.Events

/-! ### Specification -/

/-- Does the action change the TPL by itself? -/
def changesTpl : Act → Bool
  | .raise _ => true
  | .restore _ => true
  | _ => false

/-- The TPL is changed by guards only. -/
def Prog.Scoped : Prog → Prop
  | .done => True
  | .call a rest => changesTpl a = false ∧ rest.Scoped
  | .guarded _ body rest => body.Scoped ∧ rest.Scoped

/-- Started at level `p`: no guard asks for less than the level it is made at, or for more than TPL_HIGH_LEVEL. -/
def Prog.Rising : Nat → Prog → Prop
  | _, .done => True
  | p, .call _ rest => rest.Rising p
  | p, .guarded t body rest => p ≤ t ∧ t ≤ 31 ∧ body.Rising t ∧ rest.Rising p

/-- A notify function does not go below level `t`. -/
def StaysAbove (beh : Nat → List Act) (t : Nat) : Prop := ∀ k u, Act.restore u ∈ beh k → t ≤ u

/-- The notify functions leave the TPL alone. -/
def Calm (beh : Nat → List Act) : Prop := ∀ k, ∀ a ∈ beh k, changesTpl a = false

/-! ### What is called meanwhile -/

/-- The TPL is not below `t` and only notifications above `t` were delivered. -/
def Kept (t : Nat) (s s' : Sys) : Prop := t ≤ s'.tpl ∧ ∃ l, s'.log = s.log ++ l ∧ ∀ c ∈ l, t < c.note.tpl

theorem Kept.refl {t : Nat} {s : Sys} (h : t ≤ s.tpl) : Kept t s s := ⟨h, [], by simp, by simp⟩

theorem Kept.trans {t : Nat} {a b c : Sys} (h1 : Kept t a b) (h2 : Kept t b c) : Kept t a c := by
  obtain ⟨_, l1, e1, p1⟩ := h1
  obtain ⟨k2, l2, e2, p2⟩ := h2
  refine ⟨k2, l1 ++ l2, by rw [e2, e1, List.append_assoc], ?_⟩
  intro x hx
  rcases List.mem_append.1 hx with hx | hx
  · exact p1 x hx
  · exact p2 x hx

theorem Kept.ofLog {t : Nat} {s s' : Sys} (h : t ≤ s'.tpl) (hl : s'.log = s.log) : Kept t s s' := ⟨h, [], by simp [hl], by simp⟩

def ActOk (strict : Bool) (t : Nat) : Act → Prop
  | .raise _ => strict = false
  | .restore u => strict = false ∧ t ≤ u
  | _ => True

def CmdOk (strict : Bool) (t : Nat) : Cmd → Prop
  | .restore u => t ≤ u
  | .loop u => t ≤ u
  | .acts l => ∀ a ∈ l, ActOk strict t a
  | .act a => ActOk strict t a
  | _ => True

def Q (strict : Bool) (c : Cause) : Prop := strict = true → c ≠ .misuse

variable {beh : Nat → List Act} {irq : Nat → List Nat} {strict : Bool} {t f : Nat}

def SpecK (beh : Nat → List Act) (irq : Nat → List Nat) (strict : Bool) (t f : Nat) : Prop :=
  ∀ c s, t ≤ s.tpl → CmdOk strict t c → Post (Kept t s) (Q strict) (exec beh irq f c s)

theorem raise_post {s : Sys} {u : Nat} {c : Cause} {β : Type} {P : β → Prop} {k : Nat × Sys → Res β} (hc : Q strict c) (ht : t ≤ s.tpl)
    (h : ∀ s', t ≤ s'.tpl → s'.log = s.log → s'.tpl = u → s.tpl ≤ u → u ≤ 31 → Post P (Q strict) (k (s.tpl, s'))) : Post P (Q strict) ((s.raise c u).bind k) := by
  unfold Sys.raise
  split
  · exact hc
  · split
    · exact hc
    · next h1 h2 =>
      exact h { s with tpl := u, ints := if u = TPL_HIGH_LEVEL ∧ s.tpl < TPL_HIGH_LEVEL then false else s.ints } (by show t ≤ u; omega) rfl rfl (by omega) (by unfold TPL_HIGH_LEVEL at h1; omega)

theorem core_q : Q strict .coreTpl := fun _ h => by cases h

theorem db_post {α : Type} {g : HState → α × HState} {s : Sys} (ih : SpecK beh irq strict t f) (ht : t ≤ s.tpl) :
    Post (fun r => r.1 = (g s.h).1 ∧ Kept t s r.2) (Q strict) (withDb (fun u => exec beh irq f (.restore u)) g s) := by
  unfold withDb
  unfold Sys.raise
  split
  · exact core_q
  · split
    · exact core_q
    · next h1 h2 =>
      show Post _ _ (if s.locked then _ else _)
      split
      · exact fun _ h => by cases h
      · refine (ih (.restore s.tpl) { s with h := (g s.h).2, locked := false, tpl := 31, ints := _ } (by show t ≤ 31; unfold TPL_HIGH_LEVEL at h2; omega) ht).bind ?_
        intro s1 k1
        exact ⟨rfl, (Kept.ofLog (s := s) (s' := { s with h := (g s.h).2, locked := false, tpl := 31, ints := _ }) (by show t ≤ 31; unfold TPL_HIGH_LEVEL at h2; omega) rfl).trans k1⟩

theorem specK (hb : ∀ k, ∀ a ∈ beh k, ActOk strict t a) : ∀ f, SpecK beh irq strict t f := by
  intro f
  induction f with
  | zero => intro c s _ _; unfold exec; trivial
  | succ f ih =>
    have poll : ∀ s, t ≤ s.tpl → Post (Kept t s) (Q strict) (exec beh irq f .poll s) := fun s h => ih .poll s h trivial
    intro c s ht hc
    cases c with
    | poll =>
      unfold exec
      dsimp only
      have k0 : Kept t s { s with polls := s.polls + 1 } := .ofLog ht rfl
      split
      · exact (ih (.ticks (irq s.polls)) _ k0.1 trivial).mono (fun _ h => k0.trans h) (fun _ h => h)
      · exact k0
    | ticks l =>
      cases l with
      | nil => unfold exec; exact .refl ht
      | cons dt l =>
        unfold exec
        have k0 : Kept t s { s with ints := false } := .ofLog ht rfl
        refine (ih (.tick dt) _ k0.1 trivial).bind ?_
        intro s1 k1
        have k2 : Kept t s1 { s1 with ints := true } := .ofLog k1.1 rfl
        exact (ih (.ticks l) _ k2.1 trivial).mono (fun _ h => k0.trans (k1.trans (k2.trans h))) (fun _ h => h)
    | tick dt =>
      unfold exec
      refine raise_post core_q ht ?_
      intro s0 t0 l0 _ _ _
      dsimp only
      have k0 : Kept t s { s0 with now := s0.now + dt } := .ofLog t0 l0
      refine (db_post ih k0.1).bind ?_
      rintro ⟨_, s1⟩ ⟨_, k1⟩
      exact (ih (.restore s.tpl) s1 k1.1 ht).mono (fun _ h => k0.trans (k1.trans h)) (fun _ h => h)
    | restore u =>
      have hc : t ≤ u := hc
      unfold exec
      split
      · exact core_q
      dsimp only
      have k0 : Kept t s { s with tpl := u } := .ofLog hc rfl
      refine (poll _ k0.1).bind ?_
      intro s1 k1
      have hmid : Post (Kept t s1) (Q strict) (if u < s.tpl then exec beh irq f (.loop u) s1 else .ok s1) := by
        split
        · exact ih (.loop u) s1 k1.1 hc
        · exact Kept.refl k1.1
      refine hmid.bind ?_
      intro s2 k2
      have k3 : Kept t s2 (if u < TPL_HIGH_LEVEL then { s2 with ints := true } else s2) := by
        split
        · exact .ofLog k2.1 rfl
        · exact .refl k2.1
      refine (poll _ k3.1).bind ?_
      intro s3 k4
      have k5 : Kept t s3 { s3 with tpl := u } := .ofLog hc rfl
      refine (poll _ k5.1).mono ?_ (fun _ h => h)
      intro s4 k6
      exact k0.trans (k1.trans (k2.trans (k3.trans (k4.trans (k5.trans k6)))))
    | loop u =>
      have hc : t ≤ u := hc
      unfold exec
      split
      · exact .refl ht
      dsimp only
      have k0 : Kept t s { s with busy := true } := .ofLog ht rfl
      refine (poll _ k0.1).bind ?_
      intro s1 k1
      refine (db_post ih k1.1).bind ?_
      rintro ⟨ev, s2⟩ ⟨hev, k2⟩
      dsimp only at hev k2 ⊢
      refine (poll _ k2.1).bind ?_
      intro s3 k3
      have k4 : Kept t s3 { s3 with busy := false } := .ofLog k3.1 rfl
      refine (poll _ k4.1).bind ?_
      intro s4 k5
      have k' := k0.trans (k1.trans (k2.trans (k3.trans (k4.trans k5))))
      cases ev with
      | none => exact k'
      | some n =>
        have hn : u < n.tpl := by
          obtain ⟨dead, rest, _, _, h | ⟨m, tl, _, _, h | h⟩⟩ := consume_cases s1.h.db u
          · have : (some n : Option Note) = (s1.h.db.consume u).1 := hev
            rw [h.2] at this; cases this
          · have : (some n : Option Note) = (s1.h.db.consume u).1 := hev
            rw [h.2] at this; cases this
          · have : (some n : Option Note) = (s1.h.db.consume u).1 := hev
            rw [h.2] at this; cases this; exact h.1
        dsimp only
        have k6 : Kept t s4 { s4 with ints := decide (n.tpl < TPL_HIGH_LEVEL) } := .ofLog k5.1 rfl
        refine (poll _ k6.1).bind ?_
        intro s5 k7
        have k8 : Kept t s5 { s5 with tpl := n.tpl } := .ofLog (by show t ≤ n.tpl; omega) rfl
        refine (poll _ k8.1).bind ?_
        intro s6 k9
        have k'' := k'.trans (k6.trans (k7.trans (k8.trans k9)))
        refine (db_post ih k9.1).bind ?_
        rintro ⟨ty, s7⟩ ⟨_, k10⟩
        cases ty with
        | err e => exact fun _ h => by cases h
        | panic => exact fun _ h => by cases h
        | ok ty =>
          dsimp only at k10 ⊢
          refine (poll _ k10.1).bind ?_
          intro s8 k11
          have hclear : Post (fun r : Unit × Sys => Kept t s8 r.2) (Q strict)
              (if isNotifySignal ty then withDb (fun t => exec beh irq f (.restore t)) (clearNote n.event) s8
                else .ok ((), { s8 with h := ⟨s8.h.db, s8.h.inflight.erase n.event⟩ })) := by
            split
            · exact (db_post ih k11.1).mono (fun _ h => h.2) (fun _ h => h)
            · exact Kept.ofLog k11.1 rfl
          refine hclear.bind ?_
          rintro ⟨_, s9⟩ k12
          dsimp only at k12 ⊢
          refine (poll _ k12.1).bind ?_
          intro s10 k13
          have hcall : Post (Kept t s10) (Q strict)
              (if n.fn.isSome then
                exec beh irq f (.acts (beh s10.calls))
                  { s10 with calls := s10.calls + 1, log := s10.log ++ [⟨n, s10.tpl, s10.h.db.isValid n.event⟩] }
                else .ok s10) := by
            split
            · refine (ih (.acts (beh s10.calls)) { s10 with calls := s10.calls + 1, log := s10.log ++ [⟨n, s10.tpl, s10.h.db.isValid n.event⟩] } k13.1 (hb _)).mono ?_ (fun _ h => h)
              rintro s11 ⟨h1, l, h2, h3⟩
              refine ⟨h1, ⟨n, s10.tpl, s10.h.db.isValid n.event⟩ :: l, by rw [h2]; simp, ?_⟩
              intro c hc'
              rcases List.mem_cons.1 hc' with rfl | hc'
              · show t < n.tpl; omega
              · exact h3 c hc'
            · exact Kept.refl k13.1
          refine hcall.bind ?_
          intro s11 k14
          exact (ih (.loop u) s11 k14.1 hc).mono (fun _ h => k''.trans (k10.trans (k11.trans (k12.trans (k13.trans (k14.trans h)))))) (fun _ h => h)
    | acts l =>
      cases l with
      | nil => unfold exec; exact .refl ht
      | cons a l =>
        unfold exec
        refine (ih (.act a) s ht (hc a List.mem_cons_self)).bind ?_
        intro s1 k1
        refine (poll _ k1.1).bind ?_
        intro s2 k2
        exact (ih (.acts l) s2 k2.1 (fun b hb => hc b (List.mem_cons_of_mem _ hb))).mono (fun _ h => k1.trans (k2.trans h)) (fun _ h => h)
    | act a =>
      have dbk : ∀ (op : Op) (s : Sys), t ≤ s.tpl → Post (Kept t s) (Q strict)
          ((withDb (fun t => exec beh irq f (.restore t)) (fun h => ((), h.step op)) s).bind fun (_, s) => .ok s) := by
        intro op s hs
        refine (db_post ih hs).bind ?_
        rintro ⟨_, s1⟩ ⟨_, k⟩
        exact k
      cases a with
      | raise u =>
        have hc : strict = false := hc
        unfold exec
        refine raise_post (fun h => by rw [hc] at h; cases h) ht ?_
        intro s0 t0 l0 _ _ _
        exact Kept.ofLog t0 l0
      | restore u =>
        have hc : strict = false ∧ t ≤ u := hc
        unfold exec
        split
        · exact fun h => by rw [hc.1] at h; cases h
        · exact ih (.restore u) s ht hc.2
      | signal id =>
        unfold exec
        refine (db_post ih ht).bind ?_
        rintro ⟨_, s1⟩ ⟨_, k1⟩
        dsimp only at k1 ⊢
        refine (poll _ k1.1).bind ?_
        intro s2 k2
        refine raise_post core_q k2.1 ?_
        intro s3 t3 l3 _ _ _
        have k3 : Kept t s2 s3 := .ofLog t3 l3
        exact (ih (.restore s2.tpl) s3 t3 k2.1).mono (fun _ h => k1.trans (k2.trans (k3.trans h))) (fun _ h => h)
      | check id =>
        unfold exec
        refine (db_post ih ht).bind ?_
        rintro ⟨ty, s1⟩ ⟨_, k1⟩
        dsimp only at k1 ⊢
        cases ty with
        | err e => exact k1
        | panic => exact k1
        | ok ty =>
          dsimp only
          split
          · exact k1
          refine (poll _ k1.1).bind ?_
          intro s2 k2
          refine (db_post ih k2.1).bind ?_
          rintro ⟨r, s3⟩ ⟨_, k3⟩
          dsimp only at k3 ⊢
          have k3' := k1.trans (k2.trans k3)
          split
          · refine (poll _ k3.1).bind ?_
            intro s4 k4
            refine (db_post ih k4.1).bind ?_
            rintro ⟨r, s5⟩ ⟨_, k5⟩
            dsimp only at k5 ⊢
            have k5' := k3'.trans (k4.trans k5)
            split
            · refine (poll _ k5.1).bind ?_
              intro s6 k6
              refine raise_post core_q k6.1 ?_
              intro s7 t7 l7 _ _ _
              have k7 : Kept t s6 s7 := .ofLog t7 l7
              refine (ih (.restore s6.tpl) s7 t7 k6.1).bind ?_
              intro s8 k8
              refine (db_post ih k8.1).bind ?_
              rintro ⟨r, s9⟩ ⟨_, k9⟩
              exact k5'.trans (k6.trans (k7.trans (k8.trans k9)))
            · exact k5'
          · exact k3'
      | create ty tpl fn ctx g => unfold exec; exact dbk _ s ht
      | close id => unfold exec; exact dbk _ s ht
      | setTimer id d time => unfold exec; exact dbk _ s ht
      | signalGroup g => unfold exec; exact dbk _ s ht
      | tick dt => unfold exec; exact ih (.tick dt) s ht trivial

/-! ### Programs -/

theorem calm_ok (h : Calm beh) (k : Nat) : ∀ a ∈ beh k, ActOk true t a := by
  intro a ha
  have := h k a ha
  cases a <;> first | trivial | cases this

theorem above_ok (h : StaysAbove beh t) (k : Nat) : ∀ a ∈ beh k, ActOk false t a := by
  intro a ha
  cases a with
  | raise u => exact rfl
  | restore u => exact ⟨rfl, h k u ha⟩
  | _ => trivial

theorem scoped_ok {a : Act} (h : changesTpl a = false) : ActOk strict t a := by
  cases a <;> first | trivial | cases h

theorem run_good (p : Prog) : ∀ s, Good s → p.Scoped → Post (fun s' => RA s s' ∧ s'.tpl = s.tpl) CoreOk (run beh irq f p s) := by
  induction p with
  | done => intro s hg _; exact ⟨RA.refl hg, rfl⟩
  | call a rest ih =>
    intro s hg hp
    unfold run
    have ha := hp.1
    refine (specA beh irq f (.act a) s hg trivial).bind ?_
    rintro s1 ⟨a1, t1⟩
    have t1 : s1.tpl = s.tpl := by
      cases a <;> first | exact t1 | cases ha
    refine ((specA beh irq f).poll a1.good).bind ?_
    rintro s2 ⟨a2, t2⟩
    refine (ih s2 a2.good hp.2).mono ?_ (fun _ h => h)
    rintro s3 ⟨a3, t3⟩
    exact ⟨a1.trans (a2.trans a3), t3.trans (t2.trans t1)⟩
  | guarded u body rest ihb ihr =>
    intro s hg hp
    unfold run Sys.raise
    split
    · exact ⟨by simp, by simp⟩
    split
    · exact ⟨by simp, by simp⟩
    next h1 h2 =>
    simp only [TPL_HIGH_LEVEL] at h1
    show Post _ _ ((exec beh irq f .poll { s with tpl := u, ints := _ }).bind _)
    have a0 : RA s { s with tpl := u, ints := if u = TPL_HIGH_LEVEL ∧ s.tpl < TPL_HIGH_LEVEL then false else s.ints } := RA.ofEq hg rfl rfl (by simpa using h1) rfl rfl
    refine ((specA beh irq f).poll a0.good).bind ?_
    rintro s1 ⟨a1, t1⟩
    refine (ihb s1 a1.good hp.1).bind ?_
    rintro s2 ⟨a2, t2⟩
    refine (specA beh irq f (.act (.restore s.tpl)) s2 a2.good trivial).bind ?_
    rintro s3 ⟨a3, t3, _⟩
    refine ((specA beh irq f).poll a3.good).bind ?_
    rintro s4 ⟨a4, t4⟩
    refine (ihr s4 a4.good hp.2).mono ?_ (fun _ h => h)
    rintro s5 ⟨a5, t5⟩
    exact ⟨a0.trans (a1.trans (a2.trans (a3.trans (a4.trans a5)))), t5.trans (t4.trans t3)⟩

theorem run_kept (hb : StaysAbove beh t) (p : Prog) : ∀ s, t ≤ s.tpl → p.Scoped → Post (Kept t s) (fun _ => True) (run beh irq f p s) := by
  have sk := specK (irq := irq) (strict := false) (above_ok hb) f
  have w : ∀ {c s}, t ≤ s.tpl → CmdOk false t c → Post (Kept t s) (fun _ => True) (exec beh irq f c s) := fun h1 h2 => (sk _ _ h1 h2).mono (fun _ h => h) (fun _ _ => trivial)
  induction p with
  | done => intro s hs _; exact Kept.refl hs
  | call a rest ih =>
    intro s hs hp
    unfold run
    refine (w (c := .act a) hs (scoped_ok hp.1)).bind ?_
    intro s1 k1
    refine (w (c := .poll) k1.1 trivial).bind ?_
    intro s2 k2
    exact (ih s2 k2.1 hp.2).mono (fun _ h => k1.trans (k2.trans h)) (fun _ h => h)
  | guarded u body rest ihb ihr =>
    intro s hs hp
    unfold run Sys.raise
    split
    · trivial
    split
    · trivial
    next h1 h2 =>
    show Post _ _ ((exec beh irq f .poll { s with tpl := u, ints := _ }).bind _)
    have k0 : Kept t s { s with tpl := u, ints := if u = TPL_HIGH_LEVEL ∧ s.tpl < TPL_HIGH_LEVEL then false else s.ints } := .ofLog (by show t ≤ u; omega) rfl
    refine (w (c := .poll) k0.1 trivial).bind ?_
    intro s1 k1
    refine (ihb s1 k1.1 hp.1).bind ?_
    intro s2 k2
    refine (w (c := .act (.restore s.tpl)) k2.1 ⟨rfl, hs⟩).bind ?_
    intro s3 k3
    refine (w (c := .poll) k3.1 trivial).bind ?_
    intro s4 k4
    exact (ihr s4 k4.1 hp.2).mono (fun _ h => k0.trans (k1.trans (k2.trans (k3.trans (k4.trans h))))) (fun _ h => h)

theorem run_calm (hb : Calm beh) (p : Prog) : ∀ s, Good s → p.Scoped → p.Rising s.tpl → Post (fun _ => True) (fun c => c ≠ .misuse) (run beh irq f p s) := by
  have w : ∀ {c s}, CmdOk true s.tpl c → Post (fun _ => True) (fun c => c ≠ .misuse) (exec beh irq f c s) := fun {c s} h2 =>
    (specK (irq := irq) (strict := true) (t := s.tpl) (calm_ok hb) f c s (Nat.le_refl _) h2).mono (fun _ _ => trivial) (fun _ h => h rfl)
  have both : ∀ {c s}, Good s → Cmd.Pre s c → CmdOk true s.tpl c → Post (fun s' => RA s s' ∧ Cmd.Tpl s s' c) (fun c => c ≠ .misuse) (exec beh irq f c s) := fun {c s} hg hp h2 =>
    ((specA beh irq f c s hg hp).and (w h2)).mono (fun _ h => h.1) (fun _ h => h.2)
  induction p with
  | done => intro s _ _ _; trivial
  | call a rest ih =>
    intro s hg hp hr
    unfold run
    have ha := hp.1
    refine (both (c := .act a) hg trivial (scoped_ok ha)).bind ?_
    rintro s1 ⟨a1, t1⟩
    have t1 : s1.tpl = s.tpl := by
      cases a <;> first | exact t1 | cases ha
    refine (both (c := .poll) a1.good trivial trivial).bind ?_
    rintro s2 ⟨a2, t2⟩
    have t2 : s2.tpl = s1.tpl := t2
    exact ih s2 a2.good hp.2 (by rw [t2, t1]; exact hr)
  | guarded u body rest ihb ihr =>
    intro s hg hp hr
    obtain ⟨r1, r2, r3, r4⟩ := hr
    unfold run Sys.raise
    rw [if_neg (by unfold TPL_HIGH_LEVEL; omega), if_neg (by omega)]
    show Post _ _ ((exec beh irq f .poll { s with tpl := u, ints := _ }).bind _)
    have a0 : RA s { s with tpl := u, ints := if u = TPL_HIGH_LEVEL ∧ s.tpl < TPL_HIGH_LEVEL then false else s.ints } := RA.ofEq hg rfl rfl r2 rfl rfl
    refine (both (c := .poll) a0.good trivial trivial).bind ?_
    rintro s1 ⟨a1, t1⟩
    have t1 : s1.tpl = u := t1
    refine (((run_good body s1 a1.good hp.1).and (ihb s1 a1.good hp.1 (by rw [t1]; exact r3))).mono (fun _ h => h.1) (fun _ h => h.2)).bind ?_
    rintro s2 ⟨a2, t2⟩
    have hres : Post (fun s' => RA s2 s' ∧ s'.tpl = s.tpl) (fun c => c ≠ .misuse) (exec beh irq f (.act (.restore s.tpl)) s2) := by
      refine Post.mono (Post.and ((specA beh irq f (.act (.restore s.tpl)) s2 a2.good trivial).mono (fun _ h => (⟨h.1, h.2.1⟩ : RA s2 _ ∧ _ = s.tpl)) (fun _ h => h)) (?_ : Post (fun _ => True) (fun c => c ≠ .misuse) _)) (fun _ h => h.1) (fun _ h => h.2)
      cases f with
      | zero => unfold exec; trivial
      | succ f =>
        unfold exec
        rw [if_neg (by rw [t2, t1]; omega)]
        exact (specK (irq := irq) (strict := true) (t := s.tpl) (calm_ok hb) f (.restore s.tpl) s2 (by rw [t2, t1]; omega) (Nat.le_refl s.tpl)).mono (fun _ _ => trivial) (fun _ h => h rfl)
    refine hres.bind ?_
    rintro s3 ⟨a3, t3⟩
    refine (both (c := .poll) a3.good trivial trivial).bind ?_
    rintro s4 ⟨a4, t4⟩
    have t4 : s4.tpl = s3.tpl := t4
    exact ihr s4 a4.good hp.2 (by rw [t4, t3]; exact r4)

/-! ### Theorems -/

/-- When a program whose guards live for a scope is through, the TPL is what it was, with any notify functions and interrupts. -/
theorem restored {p : Prog} {s s' : Sys} (h : Reached beh irq s) (hp : p.Scoped) (he : run beh irq f p s = .ok s') : s'.tpl = s.tpl := by
  have := run_good (beh := beh) (irq := irq) (f := f) p s h.good.1 hp
  rw [he] at this
  exact this.2

/-- While such a program runs, only notify functions above the level it was started at are called; each at its own level. -/
theorem held {p : Prog} {s s' : Sys} (h : Reached beh irq s) (hp : p.Scoped) (hb : StaysAbove beh s.tpl) (he : run beh irq f p s = .ok s') :
    ∃ l, s'.log = s.log ++ l ∧ ∀ c ∈ l, s.tpl < c.note.tpl ∧ c.tpl = c.note.tpl := by
  have h1 := run_good (beh := beh) (irq := irq) (f := f) p s h.good.1 hp
  have h2 := run_kept (irq := irq) (f := f) hb p s (Nat.le_refl _) hp
  rw [he] at h1 h2
  obtain ⟨l, e1, p1⟩ := h1.1.log
  obtain ⟨-, l', e2, p2⟩ := h2
  have : l' = l := List.append_cancel_left (e2.symm.trans e1)
  subst this
  exact ⟨l', e1, fun c hc => ⟨p2 c hc, p1 c hc⟩⟩

/-- While a guard at level `u` is held, nothing at or below `u` is called, and the level is `u` whenever its scope does something. -/
theorem guard_holds {u : Nat} {body rest : Prog} {s s' : Sys} (h : Reached beh irq s) (hp : (Prog.guarded u body rest).Scoped) (hb : StaysAbove beh u)
    (he : run beh irq f (.guarded u body rest) s = .ok s') : ∃ s1 s2, s1.tpl = u ∧ run beh irq f body s1 = .ok s2 ∧ s2.tpl = u ∧
      ∃ l, s2.log = s1.log ++ l ∧ ∀ c ∈ l, u < c.note.tpl ∧ c.tpl = c.note.tpl := by
  have hg := h.good.1
  unfold run Sys.raise at he
  split at he
  · cases he
  split at he
  · cases he
  next h1 h2 =>
  simp only [TPL_HIGH_LEVEL] at h1
  have a0 : RA s { s with tpl := u, ints := if u = TPL_HIGH_LEVEL ∧ s.tpl < TPL_HIGH_LEVEL then false else s.ints } := RA.ofEq hg rfl rfl (by simpa using h1) rfl rfl
  change (exec beh irq f .poll { s with tpl := u, ints := if u = TPL_HIGH_LEVEL ∧ s.tpl < TPL_HIGH_LEVEL then false else s.ints }).bind _ = _ at he
  have hpoll := (specA beh irq f).poll a0.good
  cases h3 : exec beh irq f .poll { s with tpl := u, ints := if u = TPL_HIGH_LEVEL ∧ s.tpl < TPL_HIGH_LEVEL then false else s.ints } with
  | fuel => rw [h3] at he; cases he
  | panic c => rw [h3] at he; cases he
  | ok s1 =>
    rw [h3] at he hpoll
    have t1 : s1.tpl = u := hpoll.2
    change (run beh irq f body s1).bind _ = _ at he
    cases h4 : run beh irq f body s1 with
    | fuel => rw [h4] at he; cases he
    | panic c => rw [h4] at he; cases he
    | ok s2 =>
      have k1 := run_good (beh := beh) (irq := irq) (f := f) body s1 hpoll.1.good hp.1
      have k2 := run_kept (irq := irq) (f := f) hb body s1 (by omega) hp.1
      rw [h4] at k1 k2
      obtain ⟨l, e1, p1⟩ := k1.1.log
      obtain ⟨-, l', e2, p2⟩ := k2
      have : l' = l := List.append_cancel_left (e2.symm.trans e1)
      subst this
      exact ⟨s1, s2, t1, h4, k1.2.trans t1, l', e1, fun c hc => ⟨p2 c hc, p1 c hc⟩⟩

/-- Guards with levels that do not fall never make the services panic: what remains is the panic of the core that interrupts can cause (C46). -/
theorem never_misused {p : Prog} {s : Sys} {c : Cause} (h : Reached beh irq s) (hb : Calm beh) (hp : p.Scoped) (hr : p.Rising s.tpl) (he : run beh irq f p s = .panic c) :
    c = .unwrapType := by
  have h1 := run_good (beh := beh) (irq := irq) (f := f) p s h.good.1 hp
  have h2 := run_calm (irq := irq) (f := f) hb p s h.good.1 hp hr
  rw [he] at h1 h2
  cases c with
  | misuse => exact absurd rfl h2
  | coreTpl => exact absurd rfl h1.2
  | reentrantLock => exact absurd rfl h1.1
  | unwrapType => rfl

/-- A guard for a level below the current one, or above TPL_HIGH_LEVEL, panics. -/
theorem lower_panics {u : Nat} {body rest : Prog} {s : Sys} (h : u < s.tpl ∨ 31 < u) : run beh irq f (.guarded u body rest) s = .panic .misuse := by
  unfold run
  rw [raise_panics s .misuse u h]
  rfl

/-- Two guards that are dropped in the order they were made never get through: dropping the second one asks for a higher level than the one in force. -/
theorem crossed_fails {t1 t2 : Nat} {s s' : Sys} (h : Reached beh irq s) (h1 : s.tpl < t1) : crossed beh irq f t1 t2 s ≠ .ok s' := by
  intro he
  have hg := h.good.1
  unfold crossed at he
  have hp : Post (fun _ => False) (fun _ => True) (crossed beh irq f t1 t2 s) := by
    unfold crossed Sys.raise
    split
    · trivial
    split
    · trivial
    next g1 g2 =>
    simp only [TPL_HIGH_LEVEL] at g1
    show Post _ _ ((exec beh irq f .poll { s with tpl := t1, ints := _ }).bind _)
    have w : ∀ {c s}, Good s → Cmd.Pre s c → Post (fun s' => RA s s' ∧ Cmd.Tpl s s' c) (fun _ => True) (exec beh irq f c s) := fun hg hp => (specA beh irq f _ _ hg hp).mono (fun _ h => h) (fun _ _ => trivial)
    have a0 : RA s { s with tpl := t1, ints := if t1 = TPL_HIGH_LEVEL ∧ s.tpl < TPL_HIGH_LEVEL then false else s.ints } := RA.ofEq hg rfl rfl (by simpa using g1) rfl rfl
    refine (w (c := .poll) a0.good trivial).bind ?_
    rintro s1 ⟨a1, e1⟩
    have e1 : s1.tpl = t1 := e1
    split
    · trivial
    split
    · trivial
    next g3 g4 =>
    simp only [TPL_HIGH_LEVEL] at g3
    show Post _ _ ((exec beh irq f .poll { s1 with tpl := t2, ints := _ }).bind _)
    have a2 : RA s1 { s1 with tpl := t2, ints := if t2 = TPL_HIGH_LEVEL ∧ s1.tpl < TPL_HIGH_LEVEL then false else s1.ints } := RA.ofEq a1.good rfl rfl (by simpa using g3) rfl rfl
    refine (w (c := .poll) a2.good trivial).bind ?_
    rintro s2 ⟨a3, -⟩
    refine (w (c := .act (.restore s.tpl)) a3.good trivial).bind ?_
    rintro s3 ⟨a4, e4, -⟩
    refine (w (c := .poll) a4.good trivial).bind ?_
    rintro s4 ⟨a5, e5⟩
    have e5 : s4.tpl = s3.tpl := e5
    cases f with
    | zero => unfold exec; trivial
    | succ f =>
      unfold exec
      rw [if_pos (by omega)]
      trivial
  unfold crossed at hp
  rw [he] at hp
  exact hp

/-! ### Concrete cases -/

/-- The outcome of a run, for examples. -/
def show' : Res Sys → Option (Nat × List Nat)
  | .ok s => some (s.tpl, s.log.map (·.note.tpl))
  | _ => none

/-- An event with notify level 8 is signalled in the scope of a guard at 16 that is in the scope of one at 8: its notify function is called when the outer guard is dropped. -/
def nested : Prog :=
  .call (.create 0x200 8 (some 7) none none) (.guarded 8 (.guarded 16 (.call (.signal 1) .done) .done) .done)

example : nested.Scoped ∧ nested.Rising 4 := ⟨⟨rfl, ⟨⟨rfl, trivial⟩, trivial⟩, trivial⟩, by decide, by decide, ⟨by decide, by decide, trivial, trivial⟩, trivial⟩

example : show' (run (fun _ => []) (fun _ => []) 40 nested (Sys.init fun _ => false)) = some (4, [8]) := by decide +kernel

/-- The same event signalled in the scope of a guard at 4 is called at once. -/
example : show' (run (fun _ => []) (fun _ => []) 40 (.call (.create 0x200 8 (some 7) none none) (.guarded 4 (.call (.signal 1) (.call (.close 1) .done)) .done)) (Sys.init fun _ => false)) = some (4, [8]) := by decide +kernel

/-- Dropped in the wrong order the second guard panics. -/
example : (match crossed (fun _ => []) (fun _ => []) 40 8 16 (Sys.init fun _ => false) with | .panic .misuse => true | _ => false) = true := by decide +kernel

example : Reached (fun _ => []) (fun _ => []) (Sys.init fun _ => false) := ⟨fun _ => false, 1, [], rfl⟩

end Verif.SdkBoot.Guard
