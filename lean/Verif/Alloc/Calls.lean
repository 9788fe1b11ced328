import Verif.Alloc.Props
import Verif.Base.Props
/-!
`allocate`, `allocate_pages` and `free_pages` are made of the steps of `Spec.lean`: so what holds in every possible state holds
after them, and their results are the blocks and ranges those steps give out.
-/
namespace Verif.Alloc
open Verif.Gcd
open Verif.Hob (Mem)

variable {E : Env} {w w' : World E.H} {h h' : History}

/-- What a call on allocator `i` works on, and the world after it. -/
def World.machine {H : Heap} (w : World H) (f : Fsb H) : Machine H := ⟨w.gcd, w.mem, f⟩
def World.put {H : Heap} (w : World H) (i : Nat) (s : Machine H) : World H := ⟨s.gcd, s.mem, w.fsbs.set i s.fsb⟩

/-- Granularities: powers of two from a page up. -/
def GranOk (g : Nat) : Prop := ∃ k, 12 ≤ k ∧ k ≤ 32 ∧ g = 2 ^ k

theorem Steps.trans {x y z : World E.H × History} (h1 : Steps E x y) (h2 : Steps E y z) : Steps E x z := by
  induction h2 with
  | refl => exact h1
  | step _ hs ih => exact .step ih hs

theorem Steps.one {x y : World E.H × History} (hs : Step E x y) : Steps E x y := .step .refl hs

theorem Possible.steps {x y : World E.H × History} (hp : Possible E x) (hs : Steps E x y) : Possible E y := by
  obtain ⟨x0, h0, h1⟩ := hp
  exact ⟨x0, h0, h1.trans hs⟩

/-- A step that takes no block back and is not just somebody writing to memory: what a call that allocates is made of. -/
def Own (E : Env) (x y : World E.H × History) : Prop :=
  Step E x y ∧ (∀ g ∈ x.2.grants, g ∈ y.2.grants) ∧ (y.1.gcd = x.1.gcd → y.1.fsbs = x.1.fsbs → y.2 = x.2 → y.1.mem = x.1.mem)

inductive Owns (E : Env) : World E.H × History → World E.H × History → Prop where
  | refl {x : World E.H × History} : Owns E x x
  | step {x y z : World E.H × History} : Owns E x y → Own E y z → Owns E x z

theorem Owns.trans {x y z : World E.H × History} (h1 : Owns E x y) (h2 : Owns E y z) : Owns E x z := by
  induction h2 with
  | refl => exact h1
  | step _ hs ih => exact .step ih hs

theorem Owns.one {x y : World E.H × History} (hs : Own E x y) : Owns E x y := .step .refl hs

theorem Owns.steps {x y : World E.H × History} (h : Owns E x y) : Steps E x y := by
  induction h with
  | refl => exact .refl
  | step _ hs ih => exact .step ih hs.1

theorem fallbackAlloc_stats {f f' : Fsb E.H} {m m' : Mem} {lay : Layout} {r : AllocRes} (hx : f.fallbackAlloc E m lay = (r, f', m')) :
    f'.stats = f.stats := by
  unfold Fsb.fallbackAlloc at hx
  split at hx <;> simp only [Prod.mk.injEq] at hx <;> obtain ⟨_, rfl, _⟩ := hx <;> rfl

theorem alloc_calls {f f' : Fsb E.H} {m m' : Mem} {lay : Layout} {r : AllocRes} (hx : f.alloc E m lay = (r, f', m')) :
    f'.stats.allocCalls = f.stats.allocCalls + 1 := by
  unfold Fsb.alloc at hx
  simp only at hx
  split at hx
  · split at hx
    · simp only [Prod.mk.injEq] at hx
      obtain ⟨_, rfl, _⟩ := hx
      rfl
    · rw [fallbackAlloc_stats hx]
  · rw [fallbackAlloc_stats hx]

theorem set_ne {α : Type} {l : List α} {i : Nat} {a b : α} (h : l[i]? = some a) (he : l.set i b = l) : b = a := by
  have hi := (List.getElem?_eq_some_iff.1 h).1
  have h1 : (l.set i b)[i]? = some b := List.getElem?_set_self hi
  rw [he, h] at h1
  exact (Option.some.inj h1).symm

theorem own_alloc {i : Nat} {f f' : Fsb E.H} {lay : Layout} {r : AllocRes} {m' : Mem} (hf : w.fsbs[i]? = some f) (hv : lay.Valid)
    (hx : f.alloc E w.mem lay = (r, f', m')) :
    Own E (w, h) ({ w with mem := m', fsbs := w.fsbs.set i f' }, { h with grants := grant h.grants i lay r }) := by
  refine ⟨.alloc hf hv hx, fun g hg => ?_, fun _ h2 _ => ?_⟩
  · cases r with
    | ok p => exact List.mem_cons_of_mem _ hg
    | outOfMemory n => exact hg
  · have := alloc_calls hx
    rw [set_ne hf h2] at this
    omega

theorem own_expand {i : Nat} {f f' : Fsb E.H} {dbg : Bool} {s : Span} {m' : Mem} (hf : w.fsbs[i]? = some f) (hs : s ∈ h.spans)
    (h1 : s.handle = f.handle) (h2 : s.base % UEFI_PAGE_SIZE = 0) (h3 : s.base ≠ 0) (h4 : s.len % UEFI_PAGE_SIZE = 0)
    (hx : f.expand E dbg w.mem s.base s.len = (.ok f', m')) :
    Own E (w, h) ({ w with mem := m', fsbs := w.fsbs.set i f' }, { h with spans := h.spans.erase s }) := by
  refine ⟨.expand hf hs h1 h2 h3 h4 hx, fun _ hg => hg, fun _ _ he => ?_⟩
  have := congrArg (fun x => x.spans.length) he
  simp only [List.length_erase_of_mem hs] at this
  have := List.length_pos_of_mem hs
  omega

/-! ### The GCD -/

theorem spansAfter_sub (g : Gcd) (l : List Span) {op : Op} (hf : Op.isFree op = false) : ∀ s ∈ l, s ∈ spansAfter g l op := by
  intro s hs
  cases op with
  | free => cases hf
  | allocate at_ ty shift len image device =>
    unfold spansAfter
    simp only
    split
    · exact List.mem_cons_of_mem _ hs
    · exact hs
  | _ => exact hs

theorem run_steps : ∀ {ops : List Op} {w : World E.H} {h : History}, (∀ op ∈ ops, op.InRange ∧ Op.isFree op = false) →
    ∃ sp, Owns E (w, h) ({ w with gcd := w.gcd.run E.gcdNode ops }, { h with spans := sp }) ∧ ∀ s ∈ h.spans, s ∈ sp
  | [], w, h, _ => ⟨h.spans, .refl, fun _ h => h⟩
  | op :: ops, w, h, ho => by
    have h1 := ho op (by simp)
    have hs : Own E (w, h) ({ w with gcd := w.gcd.step E.gcdNode op }, { h with spans := spansAfter w.gcd h.spans op }) :=
      ⟨.gcd h1.1 (fun b n p he => by rw [he] at h1; cases h1.2), fun _ hg => hg, fun _ _ _ => rfl⟩
    obtain ⟨sp, h2, h3⟩ := run_steps (ops := ops) (w := { w with gcd := w.gcd.step E.gcdNode op })
      (h := { h with spans := spansAfter w.gcd h.spans op }) fun o ho' => ho o (by simp [ho'])
    exact ⟨sp, (Owns.one hs).trans h2, fun s hs => h3 s (spansAfter_sub _ _ h1.2 s hs)⟩

theorem gcdAllocate_steps (hE : EnvOk E) {at_ : AllocType} {shift len handle : Nat} {r : Outcome EfiError Nat} {g' : Gcd}
    (hq : ReqOk at_ shift len) (hx : gcdAllocate E w.gcd at_ shift len handle = (r, g')) :
    ∃ sp, Owns E (w, h) ({ w with gcd := g' }, { h with spans := sp }) ∧ (∀ s ∈ h.spans, s ∈ sp) ∧
      ∀ a, r = .ok a → (⟨handle, a, len⟩ : Span) ∈ sp := by
  have hs : Own E (w, h) ({ w with gcd := w.gcd.step E.gcdNode (.allocate at_ .systemMemory shift len handle none) },
      { h with spans := spansAfter w.gcd h.spans (.allocate at_ .systemMemory shift len handle none) }) :=
    ⟨.gcd hq (fun b n p he => by cases he), fun _ hg => hg, fun _ _ _ => rfl⟩
  have hsub := spansAfter_sub w.gcd h.spans (op := .allocate at_ .systemMemory shift len handle none) rfl
  have hg : w.gcd.step E.gcdNode (.allocate at_ .systemMemory shift len handle none) =
    (w.gcd.allocate at_ .systemMemory shift len handle none).2 := rfl
  unfold gcdAllocate at hx
  rcases hy : w.gcd.allocate at_ .systemMemory shift len handle none with ⟨r1, g1⟩
  rw [hg, hy] at hs
  rw [hy] at hx
  cases r1 with
  | ok a =>
    simp only [Prod.mk.injEq] at hx
    obtain ⟨rfl, rfl⟩ := hx
    obtain ⟨ops, ho, he⟩ := hE.protect g1 a len
    obtain ⟨sp, h1, h2⟩ := run_steps (w := { w with gcd := g1 })
      (h := { h with spans := spansAfter w.gcd h.spans (.allocate at_ .systemMemory shift len handle none) })
      fun op hop => ⟨(ho op hop).1, (ho op hop).2.1⟩
    rw [he]
    refine ⟨sp, (Owns.one hs).trans h1, fun s hs => h2 s (hsub s hs), ?_⟩
    intro b hb
    injection hb with hb; subst hb
    refine h2 _ ?_
    simp only [spansAfter, hy]
    exact List.mem_cons_self
  | err e =>
    simp only [Prod.mk.injEq] at hx
    obtain ⟨rfl, rfl⟩ := hx
    exact ⟨_, Owns.one hs, hsub, fun a ha => by cases ha⟩
  | panic =>
    simp only [Prod.mk.injEq] at hx
    obtain ⟨rfl, rfl⟩ := hx
    exact ⟨_, Owns.one hs, hsub, fun a ha => by cases ha⟩

theorem gcdAllocate_facts {at_ : AllocType} {shift len handle a : Nat} {g' : Gcd} (hr : Reachable E.gcdNode w.gcd) (hq : ReqOk at_ shift len)
    (hx : gcdAllocate E w.gcd at_ shift len handle = (.ok a, g')) : a % 2 ^ shift = 0 ∧ at_.Admits a len ∧ (at_.chooses = true → a ≠ 0) := by
  unfold gcdAllocate at hx
  rcases hy : w.gcd.allocate at_ .systemMemory shift len handle none with ⟨r1, g1⟩
  rw [hy] at hx
  cases r1 with
  | ok b =>
    simp only [Prod.mk.injEq] at hx
    obtain ⟨hb, rfl⟩ := hx
    injection hb with hb; subst hb
    obtain ⟨h1, h2, h3, _⟩ := allocate_ok hr hq hy
    exact ⟨h1, h2, h3⟩
  | err e => simp only [Prod.mk.injEq] at hx; cases hx.1
  | panic => simp only [Prod.mk.injEq] at hx; cases hx.1

/-! ### Sizes -/

theorem trailingZeros_pow : ∀ {n k : Nat}, k < n → trailingZeros n (2 ^ k) = k
  | n + 1, 0, _ => by simp [trailingZeros]
  | n + 1, k + 1, h => by
    rw [trailingZeros, if_neg (by rw [Nat.pow_succ]; omega), Nat.pow_succ, Nat.mul_div_cancel _ (by omega), trailingZeros_pow (by omega)]
    omega

theorem pageShift_ok {g : Nat} (hg : GranOk g) : ∃ k, pageShift g = .ok k ∧ 12 ≤ k ∧ k ≤ 32 ∧ g = 2 ^ k := by
  obtain ⟨k, h1, h2, rfl⟩ := hg
  refine ⟨k, ?_, h1, h2, rfl⟩
  unfold pageShift
  simp only
  rw [trailingZeros_pow (by omega), if_neg]
  rw [(Base.isPowerOfTwo_iff _).2 ⟨k, rfl⟩]
  unfold UEFI_PAGE_SHIFT
  simp only [not_true_eq_false, false_or]; omega

theorem sizeToPages_gran {k : Nat} (h : 12 ≤ k) : sizeToPages (2 ^ k) = 2 ^ (k - 12) := by
  unfold sizeToPages UEFI_PAGE_MASK UEFI_PAGE_SIZE
  have e : 2 ^ k = 2 ^ (k - 12) * 4096 := by
    rw [show (4096 : Nat) = 2 ^ 12 from rfl, ← Nat.pow_add]; congr 1; omega
  rw [e]; omega

/-- How much memory is asked for: a multiple of the granularity, at least as much as is needed. -/
theorem growth_ok {g req : Nat} (hg : GranOk g) (hr : req ≤ 2 ^ 63 + 2 ^ 13) :
    ∃ len, growth E g req = .ok len ∧ req ≤ len ∧ MIN_EXPANSION ≤ len ∧ g ∣ len ∧ len < W ∧ len % UEFI_PAGE_SIZE = 0 ∧
      Base.IsRoundUp (max req MIN_EXPANSION) g len := by
  obtain ⟨k, h1, h2, rfl⟩ := hg
  unfold growth
  rw [sizeToPages_gran h1]
  have hm : max req MIN_EXPANSION ≤ 2 ^ 63 + 2 ^ 13 := by unfold MIN_EXPANSION; omega
  have hp : sizeToPages (max req MIN_EXPANSION) ≤ 2 ^ 51 + 3 := by unfold sizeToPages UEFI_PAGE_MASK UEFI_PAGE_SIZE; omega
  have hge : max req MIN_EXPANSION ≤ sizeToPages (max req MIN_EXPANSION) * 4096 := by
    unfold sizeToPages UEFI_PAGE_MASK UEFI_PAGE_SIZE; omega
  obtain ⟨r, ⟨hr1, hr2, hr3⟩, he⟩ := (Base.alignUp_spec 64 (sizeToPages (max req MIN_EXPANSION)) (2 ^ (k - 12)) (by omega)).1 ⟨_, rfl⟩
  have hpk : 2 ^ (k - 12) ≤ 2 ^ 20 := Nat.pow_le_pow_right (by omega) (by omega)
  have hpos : 0 < 2 ^ (k - 12) := Nat.two_pow_pos _
  have hrle : r ≤ sizeToPages (max req MIN_EXPANSION) + 2 ^ (k - 12) := by
    generalize sizeToPages (max req MIN_EXPANSION) = v at *
    have := hr3 ((v / 2 ^ (k - 12) + 1) * 2 ^ (k - 12)) (Nat.dvd_mul_left _ _) (by
      have := Nat.div_add_mod v (2 ^ (k - 12))
      have := Nat.mod_lt v hpos
      rw [Nat.add_mul, Nat.mul_comm (v / _)]; omega)
    have h5 := Nat.div_mul_le_self v (2 ^ (k - 12))
    rw [Nat.add_mul] at this
    omega
  rw [he, if_pos (by omega)]
  refine ⟨pagesToSize r, rfl, ?_⟩
  have e : pagesToSize r = r * 4096 := by unfold pagesToSize UEFI_PAGE_SIZE W; omega
  rw [e]
  have e2 : 2 ^ k = 2 ^ (k - 12) * 4096 := by
    rw [show (4096 : Nat) = 2 ^ 12 from rfl, ← Nat.pow_add]; congr 1; omega
  have hd : 2 ^ k ∣ r * 4096 := by rw [e2]; exact Nat.mul_dvd_mul_right hr1 4096
  refine ⟨by omega, by omega, hd, by unfold W; omega, by unfold UEFI_PAGE_SIZE; omega, ?_⟩
  unfold Base.IsRoundUp
  refine ⟨hd, Nat.le_trans hge (Nat.mul_le_mul_right _ hr2), ?_⟩
  rintro _ ⟨c, rfl⟩ hle
  have := hr3 (2 ^ (k - 12) * c) (Nat.dvd_mul_right _ _) (by
    unfold sizeToPages UEFI_PAGE_MASK UEFI_PAGE_SIZE
    rw [e2, Nat.mul_right_comm] at hle
    omega)
  rw [e2, Nat.mul_right_comm]
  omega

theorem required_le (hE : EnvOk E) {lay : Layout} (hv : lay.Valid) : required E (heapLayout lay) ≤ 2 ^ 63 + 2 ^ 13 := by
  have hv' := heapLayout_valid hv
  have h1 := padded_le hv'
  have h2 := hv'.2
  have h3 := hE.nodeSmall
  unfold required; omega

/-! ### `allocate` -/

theorem set_set_self {α : Type} (l : List α) (i : Nat) (a b : α) : (l.set i a).set i b = l.set i b := by
  rw [List.set_set]

/-- What a finished call of `allocate` has done: steps that give out the block of the result, if there is one, and no other. -/
theorem retry_steps {i : Nat} {f : Fsb E.H} {dbg : Bool} {lay : Layout} {r : Outcome EfiError Nat} {s' : Machine E.H}
    (hf : w.fsbs[i]? = some f) (hv : lay.Valid) (hx : Machine.retry E dbg (w.machine f) lay = (r, s')) :
    ∃ gs, Owns E (w, h) (w.put i s', { h with grants := gs }) ∧
      ((∃ p, r = .ok p ∧ gs = ⟨i, p, lay⟩ :: h.grants) ∨ ((∀ p, r ≠ .ok p) ∧ gs = h.grants)) := by
  unfold Machine.retry at hx
  rcases hy : f.alloc E w.mem lay with ⟨r1, f1, m1⟩
  have hs := own_alloc (h := h) hf hv hy
  simp only [World.machine, hy] at hx
  cases r1 with
  | ok p =>
    simp only [Prod.mk.injEq] at hx
    obtain ⟨rfl, rfl⟩ := hx
    exact ⟨_, Owns.one hs, .inl ⟨p, rfl, rfl⟩⟩
  | outOfMemory n =>
    simp only [Prod.mk.injEq] at hx
    obtain ⟨rfl, rfl⟩ := hx
    refine ⟨_, Owns.one hs, .inr ⟨?_, rfl⟩⟩
    intro p; cases dbg <;> simp

theorem put_self {i : Nat} {f : Fsb E.H} (hf : w.fsbs[i]? = some f) : w.put i (w.machine f) = w := by
  obtain ⟨hi, he⟩ := List.getElem?_eq_some_iff.1 hf
  unfold World.put World.machine
  simp only
  rw [← he, List.set_getElem_self]

/-- A call that has changed nothing. -/
theorem same_steps {i : Nat} {f : Fsb E.H} (hf : w.fsbs[i]? = some f) : Owns E (w, h) (w.put i (w.machine f), h) := by
  rw [put_self hf]; exact .refl

theorem grow_steps {i : Nat} {f : Fsb E.H} {dbg : Bool} {lay : Layout} {base len : Nat} {r : Outcome EfiError Nat} {s' : Machine E.H}
    (hf : w.fsbs[i]? = some f) (hv : lay.Valid) (hsp : (⟨f.handle, base, len⟩ : Span) ∈ h.spans) (hb : base % UEFI_PAGE_SIZE = 0)
    (hl : len % UEFI_PAGE_SIZE = 0) (hnp : r ≠ .panic) (hx : Machine.grow E dbg (w.machine f) lay base len = (r, s')) :
    ∃ gs sp, Owns E (w, h) (w.put i s', ⟨gs, sp⟩) ∧ (∀ s ∈ h.spans, s ≠ ⟨f.handle, base, len⟩ → s ∈ sp) ∧
      ((∃ p, r = .ok p ∧ gs = ⟨i, p, lay⟩ :: h.grants) ∨ ((∀ p, r ≠ .ok p) ∧ gs = h.grants)) := by
  have hi : i < w.fsbs.length := (List.getElem?_eq_some_iff.1 hf).1
  unfold Machine.grow at hx
  by_cases h0 : base = 0
  · rw [if_pos h0] at hx
    simp only [Prod.mk.injEq] at hx
    obtain ⟨rfl, rfl⟩ := hx
    refine ⟨h.grants, h.spans, same_steps hf, fun s hs _ => hs, .inr ⟨?_, rfl⟩⟩
    intro p; cases dbg <;> simp
  · rw [if_neg h0] at hx
    rcases hy : f.expand E dbg w.mem base len with ⟨r1, m1⟩
    simp only [World.machine, hy] at hx
    cases r1 with
    | ok f1 =>
      have hs := own_expand (h := h) hf hsp rfl hb h0 hl hy
      have hf1 : (World.fsbs { w with mem := m1, fsbs := w.fsbs.set i f1 })[i]? = some f1 := List.getElem?_set_self hi
      obtain ⟨gs, h1, h2⟩ := retry_steps (h := { h with spans := h.spans.erase ⟨f.handle, base, len⟩ }) hf1 hv hx
      refine ⟨gs, h.spans.erase ⟨f.handle, base, len⟩, ?_, fun s hs hne => (List.mem_erase_of_ne hne).2 hs, h2⟩
      have e : World.put { w with mem := m1, fsbs := w.fsbs.set i f1 } i s' = w.put i s' := by
        simp only [World.put, List.set_set]
      rw [e] at h1
      exact (Owns.one hs).trans h1
    | err e =>
      simp only [Prod.mk.injEq] at hx
      obtain ⟨rfl, rfl⟩ := hx
      have hm : m1 = w.mem := by
        unfold Fsb.expand at hy
        split at hy
        · simp only [Prod.mk.injEq] at hy; exact hy.2.symm
        · simp only [Prod.mk.injEq] at hy
          have := hy.1
          unfold Fsb.updateInfo at this
          simp only at this
          split at this <;> cases this
      subst hm
      refine ⟨h.grants, h.spans, same_steps hf, fun s hs _ => hs, .inr ⟨?_, rfl⟩⟩
      intro p; cases dbg <;> simp
    | panic =>
      simp only [Prod.mk.injEq] at hx
      exact absurd hx.1.symm hnp

theorem needMore_steps (hE : EnvOk E) (hp : Possible E (w, h)) {i : Nat} {f : Fsb E.H} {dbg : Bool} {lay : Layout} {req : Nat}
    {r : Outcome EfiError Nat} {s' : Machine E.H} (hf : w.fsbs[i]? = some f) (hv : lay.Valid) (hg : GranOk f.gran)
    (hreq : req ≤ 2 ^ 63 + 2 ^ 13) (hnp : r ≠ .panic) (hx : Machine.needMore E dbg (w.machine f) lay req = (r, s')) :
    ∃ gs sp, Owns E (w, h) (w.put i s', ⟨gs, sp⟩) ∧ (∀ s ∈ h.spans, s ∈ sp) ∧
      ((∃ p, r = .ok p ∧ gs = ⟨i, p, lay⟩ :: h.grants) ∨ ((∀ p, r ≠ .ok p) ∧ gs = h.grants)) := by
  obtain ⟨F, (ok : WorldOk hE w h F)⟩ := possible_world (hE := hE) hp
  obtain ⟨len, hl0, hl1, hl2, hl3, hl4, hl5, _⟩ := growth_ok (E := E) hg hreq
  obtain ⟨k, hk0, hk1, hk2, hk3⟩ := pageShift_ok hg
  have hq : ReqOk (.topDown none) k len := ⟨hl4, by omega, trivial⟩
  unfold Machine.needMore at hx
  simp only [World.machine, hl0, hk0] at hx
  rcases hy : gcdAllocate E w.gcd (.topDown none) k len f.handle with ⟨r1, g1⟩
  rw [hy] at hx
  obtain ⟨sp, h1, h2, h3⟩ := gcdAllocate_steps (h := h) hE hq hy
  have hf1 : (World.fsbs { w with gcd := g1 })[i]? = some f := hf
  cases r1 with
  | ok a =>
    obtain ⟨ha, _, ha0⟩ := gcdAllocate_facts ok.reach hq hy
    have ha' : a % UEFI_PAGE_SIZE = 0 := by
      have : 2 ^ 12 ∣ 2 ^ k := Nat.pow_dvd_pow 2 hk1
      exact Nat.mod_eq_zero_of_dvd (Nat.dvd_trans this (Nat.dvd_of_mod_eq_zero ha))
    obtain ⟨gs, sp', e1, e2, e3⟩ := grow_steps (w := { w with gcd := g1 }) (h := { h with spans := sp }) hf1 hv (h3 a rfl) ha' hl5 hnp hx
    have e : World.put { w with gcd := g1 } i s' = w.put i s' := rfl
    rw [e] at e1
    refine ⟨gs, sp', h1.trans e1, fun s hs => e2 s (h2 s hs) ?_, e3⟩
    rintro rfl
    -- the range was not given out before, since it was free
    obtain ⟨hpos, hl⟩ := ok.live _ (List.mem_append_right _ hs)
    unfold gcdAllocate at hy
    rcases hz : w.gcd.allocate (.topDown none) .systemMemory k len f.handle none with ⟨r2, g2⟩
    rw [hz] at hy
    cases r2 with
    | ok b =>
      simp only [Prod.mk.injEq] at hy
      obtain ⟨hb, _⟩ := hy
      injection hb with hb; subst hb
      obtain ⟨_, _, _, _, _, c, hu, hc, _⟩ := allocate_ok ok.reach hq hz
      obtain ⟨x, hx1, hx2, _⟩ := hl b (Nat.le_refl _) (by simp only at hpos ⊢; omega)
      have := hu.2 b (Nat.le_refl _) (by have := hu.1; omega)
      rw [hx1] at this
      injection this with this
      rw [this, hc] at hx2; cases hx2
    | err e => simp only [Prod.mk.injEq] at hy; cases hy.1
    | panic => simp only [Prod.mk.injEq] at hy; cases hy.1
  | err e =>
    simp only [Prod.mk.injEq] at hx
    obtain ⟨rfl, rfl⟩ := hx
    refine ⟨h.grants, sp, ?_, h2, .inr ⟨fun p => (by simp), rfl⟩⟩
    have := same_steps (w := { w with gcd := g1 }) (h := { h with spans := sp }) (E := E) hf1
    exact h1.trans this
  | panic =>
    simp only [Prod.mk.injEq] at hx
    exact absurd hx.1.symm hnp

theorem allocate_owns (hE : EnvOk E) (hp : Possible E (w, h)) {i : Nat} {f : Fsb E.H} {dbg : Bool} {lay : Layout}
    {r : Outcome EfiError Nat} {s' : Machine E.H} (hf : w.fsbs[i]? = some f) (hv : lay.Valid) (hg : GranOk f.gran)
    (hnp : r ≠ .panic) (hx : Machine.allocate E dbg (w.machine f) lay = (r, s')) :
    ∃ gs sp, Owns E (w, h) (w.put i s', ⟨gs, sp⟩) ∧ (∀ s ∈ h.spans, s ∈ sp) ∧
      ((∃ p, r = .ok p ∧ gs = ⟨i, p, lay⟩ :: h.grants) ∨ ((∀ p, r ≠ .ok p) ∧ gs = h.grants)) := by
  have hi : i < w.fsbs.length := (List.getElem?_eq_some_iff.1 hf).1
  unfold Machine.allocate at hx
  rcases hy : f.alloc E w.mem lay with ⟨r1, f1, m1⟩
  have hs := own_alloc (h := h) hf hv hy
  simp only [World.machine, hy] at hx
  cases r1 with
  | ok p =>
    simp only [Prod.mk.injEq] at hx
    obtain ⟨rfl, rfl⟩ := hx
    exact ⟨_, _, Owns.one hs, fun s hs => hs, .inl ⟨p, rfl, rfl⟩⟩
  | outOfMemory n =>
    obtain ⟨hf1, rfl, rfl, _⟩ := alloc_none hy
    have hg1 : GranOk f1.gran := by rw [hf1]; exact hg
    have hfi : (World.fsbs { w with mem := w.mem, fsbs := w.fsbs.set i f1 })[i]? = some f1 := List.getElem?_set_self hi
    obtain ⟨gs, sp, e1, e2, e3⟩ := needMore_steps hE (hp.steps (Owns.one hs).steps) hfi hv hg1 (required_le hE hv) hnp hx
    have e : World.put { w with mem := w.mem, fsbs := w.fsbs.set i f1 } i s' = w.put i s' := by
      simp only [World.put, List.set_set]
    rw [e] at e1
    exact ⟨gs, sp, (Owns.one hs).trans e1, e2, e3⟩

/-- C27: `allocate`, with all its steps: the state after it is possible again; it has given out the block it returns, and
nothing else, and has taken nothing back. -/
theorem allocate_steps (hE : EnvOk E) (hp : Possible E (w, h)) {i : Nat} {f : Fsb E.H} {dbg : Bool} {lay : Layout}
    {r : Outcome EfiError Nat} {s' : Machine E.H} (hf : w.fsbs[i]? = some f) (hv : lay.Valid) (hg : GranOk f.gran)
    (hnp : r ≠ .panic) (hx : Machine.allocate E dbg (w.machine f) lay = (r, s')) :
    ∃ gs sp, Steps E (w, h) (w.put i s', ⟨gs, sp⟩) ∧ (∀ s ∈ h.spans, s ∈ sp) ∧
      ((∃ p, r = .ok p ∧ gs = ⟨i, p, lay⟩ :: h.grants) ∨ ((∀ p, r ≠ .ok p) ∧ gs = h.grants)) := by
  obtain ⟨gs, sp, h1, h2, h3⟩ := allocate_owns hE hp hf hv hg hnp hx
  exact ⟨gs, sp, h1.steps, h2, h3⟩

end Verif.Alloc
