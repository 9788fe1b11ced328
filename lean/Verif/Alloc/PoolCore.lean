import Verif.Alloc.Pool
/-!
C28: the pool services of the core, over all the allocators.
-/
namespace Verif.Alloc
open Verif.Gcd
open Verif.Hob (Mem)

variable {E : Env} {I : InfoLayout} {w w' : World E.H} {h h' : History} {bs bs' : List Buf}

/-! ### Freeing -/

theorem freeAny_ok {b : Buf} {dbg : Bool} {f : Fsb E.H} {s' : Machine E.H} (hf : w.fsbs[b.owner]? = some f)
    (hok : Machine.freePool E I dbg (w.machine f) b.addr = (.ok (), s'))
    (hno : ∀ (i : Nat) g, w.fsbs[i]? = some g → i ≠ b.owner → Machine.freePool E I dbg (w.machine g) b.addr = (.err .notFound, w.machine g)) :
    ∀ {is : List Nat}, b.owner ∈ is → freeAny E I dbg b.addr is w = (.ok (), w.put b.owner s')
  | [], hm => (List.not_mem_nil hm).elim
  | i :: is, hm => by
    by_cases hi : i = b.owner
    · subst hi
      have hok' : Machine.freePool E I dbg ⟨w.gcd, w.mem, f⟩ b.addr = (.ok (), s') := hok
      simp only [freeAny, hf, hok']
    · have hm' : b.owner ∈ is := by
        rcases List.mem_cons.1 hm with h | h
        · exact absurd h.symm hi
        · exact h
      cases hg : w.fsbs[i]? with
      | none => simp only [freeAny, hg]; exact freeAny_ok hf hok hno hm'
      | some g =>
        have hno' : Machine.freePool E I dbg ⟨w.gcd, w.mem, g⟩ b.addr = (.err .notFound, w.machine g) := hno i g hg hi
        simp only [freeAny, hg, hno', put_self hg]
        exact freeAny_ok hf hok hno hm'

theorem freeAny_err {a : Nat} (hno : ∀ g : Fsb E.H, Machine.freePool E I false (w.machine g) a = (.err .invalidParameter, w.machine g)) :
    ∀ {is : List Nat}, freeAny E I false a is w = (.err .invalidParameter, w)
  | [] => rfl
  | i :: is => by
    cases hg : w.fsbs[i]? with
    | none => simp only [freeAny, hg]; exact freeAny_err hno
    | some g =>
      have hno' : Machine.freePool E I false ⟨w.gcd, w.mem, g⟩ a = (.err .invalidParameter, w.machine g) := hno g
      simp only [freeAny, hg, hno', put_self hg]
      exact freeAny_err hno

theorem coreFreePool_eq (hE : EnvOk E) (hI : I.Ok) (hp : PoolPossible E I (w, h, bs)) (hd : w.Distinct) {b : Buf} (hb : b ∈ bs) {f : Fsb E.H}
    {dbg : Bool} {s' : Machine E.H} (hf : w.fsbs[b.owner]? = some f) (hx : Machine.freePool E I dbg (w.machine f) b.addr = (.ok (), s')) :
    coreFreePool E I dbg w b.addr = (.ok (), w.put b.owner s') := by
  have h0 := (pool_placed hE hI hp hb).2.1
  unfold coreFreePool
  rw [if_neg h0]
  refine freeAny_ok hf hx (fun i g hg hi => freePool_foreign hE hI hp hb dbg hf fun he => hi (hd i b.owner g f hg hf he)) ?_
  exact List.mem_range.2 (List.getElem?_eq_some_iff.1 hf).1

/-- C28: freeing a pool buffer that is in use succeeds, whichever memory type it is of and whichever other allocators there are: the
buffer's block is given back to the allocator it came from, and nothing else is. -/
theorem coreFreePool_ok (hE : EnvOk E) (hI : I.Ok) (hp : PoolPossible E I (w, h, bs)) (hd : w.Distinct) {b : Buf} (hb : b ∈ bs) (dbg : Bool) :
    ∃ w1, coreFreePool E I dbg w b.addr = (.ok (), w1) ∧
      PoolSteps E I (w, h, bs) (w1, { h with grants := h.grants.erase b.grant }, bs.erase b) := by
  obtain ⟨_, _, _, f, hf, _⟩ := pool_placed hE hI hp hb
  obtain ⟨s', h1, _, h3⟩ := freePool_ok hE hI hp hb dbg hf
  exact ⟨_, coreFreePool_eq hE hI hp hd hb hf h1, h3⟩

/-- C28: freeing a pool buffer twice in a release build, with anything at all in between but its memory being given out again, is
reported as an invalid parameter and changes nothing. -/
theorem coreFreePool_twice (hE : EnvOk E) (hI : I.Ok) (hsig : 8 ≤ I.sig) (hp : PoolPossible E I (w, h, bs)) (hd : w.Distinct) {b : Buf}
    (hb : b ∈ bs) (hsmall : INFO + b.size ≤ 4096) {w1 w2 : World E.H} {h2 : History} {dbg : Bool}
    (hx : coreFreePool E I dbg w b.addr = (.ok (), w1))
    (hw : Without E b.block (w1, { h with grants := h.grants.erase b.grant }) (w2, h2)) :
    coreFreePool E I false w2 b.addr = (.err .invalidParameter, w2) := by
  have h0 := (pool_placed hE hI hp hb).2.1
  obtain ⟨_, _, _, f, hf, _⟩ := pool_placed hE hI hp hb
  obtain ⟨s', h1, _, _⟩ := freePool_ok hE hI hp hb dbg hf
  rw [coreFreePool_eq hE hI hp hd hb hf h1] at hx
  simp only [Prod.mk.injEq, true_and] at hx
  subst hx
  unfold coreFreePool
  rw [if_neg h0]
  exact freeAny_err fun g => freed_twice hE hI hsig hp hb hf h1 hsmall hw g false

/-- C28: freeing a pool buffer of any size twice in a row. -/
theorem coreFreePool_twice_at_once (hE : EnvOk E) (hI : I.Ok) (hsig : 16 ≤ I.sig) (hp : PoolPossible E I (w, h, bs)) (hd : w.Distinct) {b : Buf}
    (hb : b ∈ bs) {w1 : World E.H} {dbg : Bool} (hx : coreFreePool E I dbg w b.addr = (.ok (), w1)) :
    coreFreePool E I false w1 b.addr = (.err .invalidParameter, w1) := by
  have h0 := (pool_placed hE hI hp hb).2.1
  obtain ⟨_, _, _, f, hf, _⟩ := pool_placed hE hI hp hb
  obtain ⟨s', h1, _, _⟩ := freePool_ok hE hI hp hb dbg hf
  rw [coreFreePool_eq hE hI hp hd hb hf h1] at hx
  simp only [Prod.mk.injEq, true_and] at hx
  subst hx
  unfold coreFreePool
  rw [if_neg h0]
  exact freeAny_err fun g => freed_twice_at_once hE hI hsig hp hb hf h1 g false

/-! ### Allocating -/

theorem getOrCreate_spec {rtGran type handle : Nat} {i : Nat} (hg : w.getOrCreate E rtGran type handle = (i, w')) :
    (w' = w ∧ ∃ f, w.fsbs[i]? = some f ∧ f.memType = type) ∨
      ((∀ f ∈ w.fsbs, f.memType ≠ type) ∧ i = w.fsbs.length ∧
        w' = { w with fsbs := w.fsbs ++ [Fsb.new E.H type (typeGran rtGran type) handle] }) := by
  unfold World.getOrCreate at hg
  cases hi : w.fsbs.findIdx? (fun f => decide (f.memType = type)) with
  | some j =>
    simp only [hi, Prod.mk.injEq] at hg
    obtain ⟨rfl, rfl⟩ := hg
    obtain ⟨hj, h1, _⟩ := List.findIdx?_eq_some_iff_getElem.1 hi
    exact .inl ⟨rfl, _, List.getElem?_eq_getElem hj, of_decide_eq_true h1⟩
  | none =>
    simp only [hi, Prod.mk.injEq] at hg
    obtain ⟨rfl, rfl⟩ := hg
    rw [List.findIdx?_eq_none_iff] at hi
    exact .inr ⟨fun f hf => of_decide_eq_false (hi f hf), rfl, rfl⟩

theorem getOrCreate_distinct {rtGran type handle : Nat} {i : Nat} (hd : w.Distinct) (hg : w.getOrCreate E rtGran type handle = (i, w')) :
    w'.Distinct := by
  rcases getOrCreate_spec hg with ⟨rfl, _⟩ | ⟨hn, _, rfl⟩
  · exact hd
  · intro a b f g hf hg' ht
    simp only [List.getElem?_append] at hf hg'
    split at hf <;> split at hg'
    · exact hd a b f g hf hg' ht
    · exfalso
      have e : Fsb.new E.H type (typeGran rtGran type) handle = g := by
        have := List.mem_of_getElem? hg'
        exact (List.mem_singleton.1 this).symm
      exact hn f (List.mem_of_getElem? hf) (by rw [ht, ← e]; rfl)
    · exfalso
      have e : Fsb.new E.H type (typeGran rtGran type) handle = f := by
        have := List.mem_of_getElem? hf
        exact (List.mem_singleton.1 this).symm
      exact hn g (List.mem_of_getElem? hg') (by rw [← ht, ← e]; rfl)
    · have h1 := (List.getElem?_eq_some_iff.1 hf).1
      have h2 := (List.getElem?_eq_some_iff.1 hg').1
      simp only [List.length_cons, List.length_nil] at h1 h2
      omega

theorem put_distinct {i : Nat} {f : Fsb E.H} {s : Machine E.H} (hd : w.Distinct) (hf : w.fsbs[i]? = some f) (ht : s.fsb.memType = f.memType) :
    (w.put i s).Distinct := by
  have key : ∀ (a : Nat) g, (w.put i s).fsbs[a]? = some g → ∃ g', w.fsbs[a]? = some g' ∧ g'.memType = g.memType := by
    intro a g hg
    simp only [World.put] at hg
    by_cases ha : i = a
    · subst ha
      rw [List.getElem?_set_self (List.getElem?_eq_some_iff.1 hf).1] at hg
      injection hg with hg
      exact ⟨f, hf, by rw [← hg, ht]⟩
    · rw [List.getElem?_set_ne ha] at hg
      exact ⟨g, hg, rfl⟩
  intro a b f1 g1 h1 h2 h3
  obtain ⟨f2, e1, e2⟩ := key a f1 h1
  obtain ⟨g2, e3, e4⟩ := key b g1 h2
  exact hd a b f2 g2 e1 e3 (by rw [e2, e4, h3])

theorem getOrCreate_steps {rtGran type handle : Nat} {i : Nat} (hg : w.getOrCreate E rtGran type handle = (i, w'))
    (hb : ∀ b ∈ bs, b.grant ∈ h.grants) (hgr : ∀ f ∈ w.fsbs, GranOk f.gran) (hrt : GranOk rtGran) :
    PoolSteps E I (w, h, bs) (w', h, bs) ∧ ∃ f, w'.fsbs[i]? = some f ∧ f.memType = type ∧ GranOk f.gran ∧ w'.gcd = w.gcd ∧ w'.mem = w.mem := by
  rcases getOrCreate_spec hg with ⟨rfl, f, h1, h2⟩ | ⟨_, rfl, rfl⟩
  · exact ⟨.refl, f, h1, h2, hgr f (List.mem_of_getElem? h1), rfl, rfl⟩
  · refine ⟨.step .refl (.other .create hb fun _ _ _ _ _ _ _ _ => rfl), Fsb.new E.H type (typeGran rtGran type) handle, ?_, rfl, ?_, rfl, rfl⟩
    · simp
    · simp only [Fsb.new]
      unfold typeGran
      split
      · exact hrt
      · exact ⟨12, by omega, by omega, rfl⟩

/-- C28: a successful pool allocation of the core gives out one new buffer, of the size asked for, from an allocator for the memory
type asked for; the memory types of the allocators stay distinct. -/
theorem coreAllocatePool_ok (hE : EnvOk E) (hI : I.Ok) (hp : PoolPossible E I (w, h, bs)) (hd : w.Distinct) (hgr : ∀ f ∈ w.fsbs, GranOk f.gran)
    {rtGran : Nat} (hrt : GranOk rtGran) {type handle size a : Nat} (ht : type < 2 ^ 32) {dbg : Bool} {w1 : World E.H}
    (hx : coreAllocatePool E I dbg rtGran w type handle size = (.ok a, w1)) :
    ∃ b sp f, b.size = size ∧ b.addr = a ∧ b ∉ bs ∧ w1.fsbs[b.owner]? = some f ∧ f.memType = type ∧ (∀ s ∈ h.spans, s ∈ sp) ∧
      PoolSteps E I (w, h, bs) (w1, ⟨b.grant :: h.grants, sp⟩, b :: bs) ∧ w1.Distinct := by
  obtain ⟨_, ok⟩ := pool_possible hE hI hp
  unfold coreAllocatePool at hx
  split at hx
  · rcases hg : w.getOrCreate E rtGran type handle with ⟨i, w'⟩
    simp only [hg] at hx
    obtain ⟨h1, f, h2, h3, h4, _, _⟩ := getOrCreate_steps (I := I) hg ok.given hgr hrt
    simp only [h2] at hx
    rcases hy : Machine.allocatePool E I dbg (w'.machine f) size with ⟨r, s'⟩
    have hy' : Machine.allocatePool E I dbg ⟨w'.gcd, w'.mem, f⟩ size = (r, s') := hy
    simp only [hy', Prod.mk.injEq] at hx
    obtain ⟨rfl, rfl⟩ := hx
    obtain ⟨b, sp, e1, e2, e3, e4, e5, e6⟩ := allocatePool_ok hE hI (hp.steps h1) h2 h4 (by rw [h3]; exact ht) hy
    subst e1
    have hlen := (List.getElem?_eq_some_iff.1 h2).1
    have e7 : (w'.put b.owner s').fsbs[b.owner]? = some s'.fsb := List.getElem?_set_self hlen
    have e8 : s'.fsb.memType = f.memType := by
      obtain ⟨hp1, ok1⟩ := pool_possible hE hI (hp.steps h1)
      have key : ∀ {x y : PoolState E}, PoolSteps E I x y → Possible E (x.1, x.2.1) → PoolOk I x.1 x.2.1 x.2.2 → Steps E (x.1, x.2.1) (y.1, y.2.1) := by
        intro x y hs hp ok
        induction hs with
        | refl => exact .refl
        | step hss hs ih =>
          obtain ⟨k1, k2⟩ := pool_steps hE hI hss hp ok
          exact .step ih (pool_step hE hI hs k1 k2).1
      obtain ⟨f', k1, k2⟩ := steps_type (key e6 hp1 ok1) h2
      simp only at k1
      rw [e7] at k1
      injection k1 with k1
      rw [k1]; exact k2
    exact ⟨b, sp, s'.fsb, e2, e3, e4, e7, e8.trans h3, e5, h1.trans e6, put_distinct (getOrCreate_distinct hd hg) h2 e8⟩
  · simp only [Prod.mk.injEq] at hx
    cases hx.1

/-- C28: conventional, persistent and unaccepted memory, and the types reserved by the specification, cannot be allocated: the
caller is told so and nothing changes. -/
theorem coreAllocatePool_invalid {rtGran type handle size : Nat} {dbg : Bool} (ht : type = 7 ∨ 14 ≤ type ∧ type ≤ 0x6FFFFFFF) :
    coreAllocatePool E I dbg rtGran w type handle size = (.err .invalidParameter, w) := by
  have : typeOk type = false := by
    unfold typeOk
    rcases ht with rfl | ht
    · rfl
    · simp only [ht, and_self, decide_true, Bool.or_true, Bool.not_true]
  unfold coreAllocatePool
  rw [this]; rfl

/-- C28: a failing pool allocation of a type that can be allocated reports that there is no memory, and gives out nothing. -/
theorem coreAllocatePool_err (hE : EnvOk E) (hI : I.Ok) (hp : PoolPossible E I (w, h, bs)) (hgr : ∀ f ∈ w.fsbs, GranOk f.gran)
    {rtGran : Nat} (hrt : GranOk rtGran) {type handle size : Nat} {e : EfiError} {dbg : Bool} {w1 : World E.H}
    (ht : ¬ (type = 7 ∨ 14 ≤ type ∧ type ≤ 0x6FFFFFFF))
    (hx : coreAllocatePool E I dbg rtGran w type handle size = (.err e, w1)) :
    e = .outOfResources ∧ ∃ sp, (∀ s ∈ h.spans, s ∈ sp) ∧ PoolSteps E I (w, h, bs) (w1, ⟨h.grants, sp⟩, bs) := by
  have hok : typeOk type = true := by
    unfold typeOk
    simp only [Bool.not_eq_true', Bool.or_eq_false_iff, beq_eq_false_iff_ne, decide_eq_false_iff_not]
    omega
  obtain ⟨_, ok⟩ := pool_possible hE hI hp
  unfold coreAllocatePool at hx
  rw [if_pos hok] at hx
  rcases hg : w.getOrCreate E rtGran type handle with ⟨i, w'⟩
  simp only [hg] at hx
  obtain ⟨h1, f, h2, h3, h4, _, _⟩ := getOrCreate_steps (I := I) hg ok.given hgr hrt
  simp only [h2] at hx
  rcases hy : Machine.allocatePool E I dbg (w'.machine f) size with ⟨r, s'⟩
  have hy' : Machine.allocatePool E I dbg ⟨w'.gcd, w'.mem, f⟩ size = (r, s') := hy
  simp only [hy', Prod.mk.injEq] at hx
  obtain ⟨rfl, rfl⟩ := hx
  obtain ⟨e1, sp, e2, e3⟩ := allocatePool_err hE hI (hp.steps h1) h2 h4 hy
  exact ⟨e1, sp, e2, h1.trans e3⟩

/-- Finding: a pool request so large that there is no layout for it (from 2^63 - 31 bytes on) is not reported as an error: the core
panics. `AllocatePool` takes the size from its caller as it is. -/
theorem huge_pool_panics {rtGran type handle size : Nat} {dbg : Bool} (hs : 2 ^ 63 - 31 ≤ size) (ht : typeOk type = true) :
    (coreAllocatePool E I dbg rtGran w type handle size).1 = .panic := by
  have hl : poolLayout size = none := by
    unfold poolLayout INFO UEFI_POOL_ALIGN
    split
    · rfl
    · rw [if_pos (by omega)]
  unfold coreAllocatePool
  rw [if_pos ht]
  simp only
  split
  · unfold Machine.allocatePool; rw [hl]
  · rfl

end Verif.Alloc
