import Verif.Alloc.HobAllocs
import Verif.Alloc.Reserve
/-!
Model of the second half of `init_memory_support` (patina_dxe_core/src/allocator.rs lines 1015-1064): the buckets of memory that the platform asks for in
the memory type information HOB are reserved, so that the memory map of one boot resembles that of the next (C133).

* The allocators are those of `Verif.Alloc`; `hdl` gives the handle that `handle_for_memory_type` gives for a memory type. That it can fail for want of memory is left out.
* The assertion that the data of the HOB is aligned (line 1026) is left out; so are the log messages.
-/
namespace Verif.Alloc
open Verif.Gcd

/-! ### The model -/

/-- `EFiMemoryTypeInformation`: two 32-bit numbers. -/
structure Bucket where
  type : Nat
  pages : Nat
deriving DecidableEq, Repr

/-- The entries in the data of the HOB, lines 1020-1027: eight bytes each; a rest is left out. -/
def bucketsOf : List UInt8 → List Bucket
  | a0 :: a1 :: a2 :: a3 :: b0 :: b1 :: b2 :: b3 :: rest =>
    ⟨a0.toNat + a1.toNat * 256 + a2.toNat * 65536 + a3.toNat * 16777216, b0.toNat + b1.toNat * 256 + b2.toNat * 65536 + b3.toNat * 16777216⟩ :: bucketsOf rest
  | _ => []

/-- The HOBs: GUID extensions with their name and data. -/
inductive InfoHob where
  | guid (name : Nat) (data : List UInt8)
  | other
deriving DecidableEq, Repr

/-- Lines 1017-1033: the first HOB with the name. -/
def findInfo (name : Nat) : List InfoHob → Option (List Bucket)
  | [] => none
  | .guid n d :: rest => if n = name then some (bucketsOf d) else findInfo name rest
  | .other :: rest => findInfo name rest

/-- Lines 1035-1062: one entry. The result is `none` for a panic. The types refused by `handle_for_memory_type` are those of its line 357. -/
def reserveBucket (E : Env) (dbg : Bool) (rtGran : Nat) (hdl : Nat → Nat) (w : World E.H) (b : Bucket) : Option (World E.H) :=
  if b.pages = 0 then some w
  else if 14 ≤ b.type ∧ b.type ≤ 0x6FFFFFFF then some w
  else
    let x := w.getOrCreate E rtGran b.type (hdl b.type)
    match x.2.fsbs[x.1]? with
    | some f =>
      let y := Machine.reserve E dbg (x.2.machine f) b.pages
      goOn (y.1, x.2.put x.1 y.2)
    | none => none

/-- The loop over the entries, line 1034. -/
def reserveBuckets (E : Env) (dbg : Bool) (rtGran : Nat) (hdl : Nat → Nat) : List Bucket → World E.H → Option (World E.H)
  | [], w => some w
  | b :: bs, w => (reserveBucket E dbg rtGran hdl w b).bind (reserveBuckets E dbg rtGran hdl bs)

/-- Lines 1017-1064 -/
def initBuckets (E : Env) (dbg : Bool) (rtGran : Nat) (hdl : Nat → Nat) (name : Nat) (hobs : List InfoHob) (w : World E.H) : Option (World E.H) :=
  match findInfo name hobs with
  | some bs => reserveBuckets E dbg rtGran hdl bs w
  | none => some w

/-! ### One call -/

variable {E : Env} {w w' : World E.H} {h : History}

theorem reserve_fits {gran pages : Nat} (hg : GranOk gran) (hpg : pages < 2 ^ 32) : ∀ n, Base.IsRoundUp pages (gran / 4096) n → n * 4096 < W := by
  intro n hn
  obtain ⟨k, k1, k2, rfl⟩ := hg
  have hq : 0 < 2 ^ k / 4096 := by
    have : 2 ^ 12 ≤ 2 ^ k := Nat.pow_le_pow_right (by omega) k1
    omega
  have := roundUp_le hq hn
  have hk : 2 ^ k ≤ 2 ^ 32 := Nat.pow_le_pow_right (by omega) k2
  unfold W
  omega

/-- Reserving, short of a panic: what was given out still is, and the allocator is the one it was. -/
theorem reserve_steps (hE : EnvOk E) (hp : Possible E (w, h)) {i : Nat} {f : Fsb E.H} (hf : w.fsbs[i]? = some f) (hg : GranOk f.gran) {dbg : Bool}
    {pages : Nat} (hpg : pages < 2 ^ 32) {r : Outcome EfiError Unit} {s' : Machine E.H}
    (hx : Machine.reserve E dbg (w.machine f) pages = (r, s')) (hnp : r ≠ .panic) :
    (∃ sp, Steps E (w, h) (w.put i s', ⟨h.grants, sp⟩) ∧ ∀ s ∈ h.spans, s ∈ sp) ∧ s'.mem = w.mem ∧ (r ≠ .ok () → s'.fsb = f) := by
  have hW : pages < W := by unfold W; omega
  have hfit := reserve_fits hg hpg
  cases r with
  | panic => exact absurd rfl hnp
  | ok u =>
    obtain ⟨_, hm, a, n, sp, _, _, _, _, _, _, _, _, _, h1, h2⟩ := reserve_ok hE hp hf hg hW hfit hx
    exact ⟨⟨sp, h1, h2⟩, hm, fun h => absurd rfl h⟩
  | err e =>
    obtain ⟨F, (ok : WorldOk hE w h F)⟩ := possible_world (hE := hE) hp
    obtain ⟨k, k1, k2, k3, k4⟩ := gran_align hg
    have acc : ∀ (g : Gcd) (sp : List Span), Step E (({ w with gcd := g } : World E.H), (⟨h.grants, sp⟩ : History)) (w.put i ⟨g, w.mem, f⟩, ⟨h.grants, sp⟩) :=
      fun g sp => Step.account (w := { w with gcd := g }) hf rfl rfl rfl rfl rfl
    have same : s' = w.machine f → (∃ sp, Steps E (w, h) (w.put i s', ⟨h.grants, sp⟩) ∧ ∀ s ∈ h.spans, s ∈ sp) ∧ s'.mem = w.mem ∧
        ((.err e : Outcome EfiError Unit) ≠ .ok () → s'.fsb = f) := by
      rintro rfl
      exact ⟨⟨h.spans, Steps.one (acc w.gcd h.spans), fun _ h => h⟩, rfl, fun _ => rfl⟩
    unfold Machine.reserve at hx
    have e1 : (w.machine f).fsb = f := rfl
    have e2 : (w.machine f).gcd = w.gcd := rfl
    rw [e1, e2] at hx
    by_cases hres : f.reserved.isSome
    · rw [if_pos hres] at hx; simp only [Prod.mk.injEq] at hx; exact same hx.2.symm
    rw [if_neg hres] at hx
    rcases hr : Base.alignUp 64 pages (sizeToPages f.gran) with n | e | _
    · simp only [hr, k4] at hx
      have hn := pages_rounded hg hW hr
      have hnW := hfit n hn
      by_cases hd : (dbg && decide (W ≤ n * UEFI_PAGE_SIZE)) = true
      · rw [if_pos hd] at hx; simp only [Prod.mk.injEq] at hx; cases hx.1
      rw [if_neg hd] at hx
      have hpz : pagesToSize n = n * 4096 := by unfold pagesToSize UEFI_PAGE_SIZE; exact Nat.mod_eq_of_lt hnW
      rw [hpz] at hx
      have hq : ReqOk (.topDown none) k (n * 4096) := ⟨hnW, k1, trivial⟩
      rcases hy : gcdAllocate E w.gcd (.topDown none) k (n * 4096) f.handle with ⟨r1, g1⟩
      rw [hy] at hx
      obtain ⟨sp, h1, h2, h3⟩ := gcdAllocate_steps (h := h) hE hq hy
      cases r1 with
      | ok a =>
        simp only at hx
        obtain ⟨d1, d2⟩ := gcdAllocate_fresh ok hq hy
        obtain ⟨c1, c2, c3, c4⟩ := gcdAllocate_cells hE ok.reach hq hy
        have hn0 : 0 < n * 4096 := d1
        have haW : a < W := by
          obtain ⟨c, hc, _⟩ := c4 a (Nat.le_refl _) (by omega)
          have hu : Uniform g1.blocks a 1 c := ⟨by omega, fun b b1 b2 => by rw [show b = a by omega]; exact hc⟩
          have := uniform_lt (reachable_inv c1).inv hu
          omega
        unfold Machine.noteReserved at hx
        simp only at hx
        have hgr := (Steps.one (Step.gcd (E := E) (w := { w with gcd := g1 }) (h := { h with spans := sp })
            (op := .free a (n * 4096) true) ⟨haW, hnW⟩ (by
              intro b l p he s hs'
              injection he with q1 q2
              subst q1; subst q2
              have := d2 s (List.mem_append_left _ hs')
              unfold Span.touches
              rw [decide_eq_false_iff_not]
              rintro ⟨t1, t2⟩
              obtain ⟨u1, _⟩ := ok.live s (List.mem_append_left _ hs')
              refine this ⟨max s.base a, by omega, by omega, by omega, by omega⟩)))
        have hkeep : ∀ s ∈ h.spans, s ∈ spansAfter g1 sp (.free a (n * 4096) true) := by
          intro s hs
          refine List.mem_filter.2 ⟨h2 s hs, ?_⟩
          have := d2 s (List.mem_append_right _ hs)
          obtain ⟨u1, _⟩ := ok.live s (List.mem_append_right _ hs)
          have : s.touches a (n * 4096) = false := by
            unfold Span.touches
            rw [decide_eq_false_iff_not]
            rintro ⟨t1, t2⟩
            exact this ⟨max s.base a, by omega, by omega, by omega, by omega⟩
          rw [this]; rfl
        rcases hz : g1.freeSpace a (n * 4096) true with ⟨r2, g2⟩
        rw [hz] at hx
        have hge : Gcd.step E.gcdNode g1 (.free a (n * 4096) true) = g2 := by
          show (g1.freeSpace a (n * 4096) true).2 = g2
          rw [hz]
        simp only [hge] at hgr
        have done : s' = ⟨g2, w.mem, f⟩ → (∃ sp, Steps E (w, h) (w.put i s', ⟨h.grants, sp⟩) ∧ ∀ s ∈ h.spans, s ∈ sp) ∧ s'.mem = w.mem ∧
            ((.err e : Outcome EfiError Unit) ≠ .ok () → s'.fsb = f) := by
          rintro rfl
          exact ⟨⟨_, (h1.steps.trans hgr).trans (Steps.one (acc g2 _)), hkeep⟩, rfl, fun _ => rfl⟩
        cases r2 with
        | ok u =>
          simp only at hx
          split at hx
          · simp only [Prod.mk.injEq] at hx; cases hx.1
          · split at hx
            · simp only [Prod.mk.injEq] at hx; cases hx.1
            · simp only [Prod.mk.injEq] at hx; exact done hx.2.symm
            · simp only [Prod.mk.injEq] at hx; cases hx.1
        | err e' => simp only [Prod.mk.injEq] at hx; exact done hx.2.symm
        | panic => simp only [Prod.mk.injEq] at hx; cases hx.1
      | err e' =>
        simp only [Prod.mk.injEq] at hx
        obtain ⟨_, rfl⟩ := hx
        exact ⟨⟨sp, h1.steps.trans (Steps.one (acc g1 sp)), h2⟩, rfl, fun _ => rfl⟩
      | panic => simp only [Prod.mk.injEq] at hx; cases hx.1
    · simp only [hr, Prod.mk.injEq] at hx; exact same hx.2.symm
    · simp only [hr, Prod.mk.injEq] at hx; cases hx.1

/-! ### One entry -/

/-- The memory types that can have an allocator. -/
def Permitted (type : Nat) : Prop := ¬ (14 ≤ type ∧ type ≤ 0x6FFFFFFF)


/-- The ranges reserved by now are those that entries asked for: for the memory type, as many pages as asked for, rounded up to the granularity of the type,
and kept for the type. -/
def Reserved {H : Heap} (A : Bucket → Prop) (w : World H) : Prop :=
  ∀ (j : Nat) f, w.fsbs[j]? = some f → ∀ a e, f.reserved = some (a, e) → ∃ b n, A b ∧ b.type = f.memType ∧ b.pages ≠ 0 ∧ Permitted b.type ∧
    Base.IsRoundUp b.pages (f.gran / 4096) n ∧ e = a + n * 4096 ∧ a % f.gran = 0 ∧ a ≠ 0 ∧ Gcd.Kept w.gcd a (n * 4096) f.handle

/-- A range that is reserved stays. -/
def Stays {H : Heap} (w w' : World H) : Prop :=
  ∀ (j : Nat) f, w.fsbs[j]? = some f → f.reserved ≠ none → ∃ f', w'.fsbs[j]? = some f' ∧ f'.memType = f.memType ∧ f'.reserved = f.reserved

theorem Stays.trans {H : Heap} {a b c : World H} (h1 : Stays a b) (h2 : Stays b c) : Stays a c := by
  intro j f hf hr
  obtain ⟨f1, k1, k2, k3⟩ := h1 j f hf hr
  obtain ⟨f2, l1, l2, l3⟩ := h2 j f1 k1 (by rw [k3]; exact hr)
  exact ⟨f2, l1, l2.trans k2, l3.trans k3⟩

theorem bucket_step (hE : EnvOk E) (hp : Possible E (w, h)) {rtGran : Nat} (hrt : GranOk rtGran) {hdl : Nat → Nat} (ha : Allocators rtGran hdl w) {dbg : Bool}
    {b : Bucket} (hb : b.pages < 2 ^ 32) {A : Bucket → Prop} (hA : A b) (hR : Reserved A w) (hx : reserveBucket E dbg rtGran hdl w b = some w') :
    (∃ sp, Steps E (w, h) (w', ⟨h.grants, sp⟩) ∧ ∀ s ∈ h.spans, s ∈ sp) ∧ w'.mem = w.mem ∧ Allocators rtGran hdl w' ∧ Reserved A w' ∧ Stays w w' := by
  have same : w' = w → (∃ sp, Steps E (w, h) (w', ⟨h.grants, sp⟩) ∧ ∀ s ∈ h.spans, s ∈ sp) ∧ w'.mem = w.mem ∧ Allocators rtGran hdl w' ∧ Reserved A w' ∧ Stays w w' := by
    rintro rfl
    exact ⟨⟨h.spans, .refl, fun _ h => h⟩, rfl, ha, hR, fun j f hf _ => ⟨f, hf, rfl, rfl⟩⟩
  unfold reserveBucket at hx
  split at hx
  · injection hx with hx; exact same hx.symm
  next hp0 =>
  split at hx
  · injection hx with hx; exact same hx.symm
  next hty =>
  rcases hg : w.getOrCreate E rtGran b.type (hdl b.type) with ⟨i, w1⟩
  simp only [hg] at hx
  obtain ⟨h1, f, h2, h3, h4, h5⟩ := getOrCreate_found (h := h) hg
  have a1 := getOrCreate_allocators ha hg
  have hgf := grained_gran hrt a1.grained f (List.mem_of_getElem? h2)
  have hp1 := hp.steps h1
  have hR1 : Reserved A w1 := by
    rcases getOrCreate_spec hg with ⟨rfl, _⟩ | ⟨_, _, rfl⟩
    · exact hR
    · intro j g hj a e hr
      simp only [List.getElem?_append] at hj
      split at hj
      · exact hR j g hj a e hr
      · have e := List.mem_singleton.1 (List.mem_of_getElem? hj)
        rw [e] at hr; cases hr
  have hS1 : Stays w w1 := by
    rcases getOrCreate_spec hg with ⟨rfl, _⟩ | ⟨_, _, rfl⟩
    · exact fun j f hf _ => ⟨f, hf, rfl, rfl⟩
    · intro j g hj _
      refine ⟨g, ?_, rfl, rfl⟩
      have := (List.getElem?_eq_some_iff.1 hj).1
      simp only [List.getElem?_append_left this]
      exact hj
  simp only [h2] at hx
  rcases hy : Machine.reserve E dbg (w1.machine f) b.pages with ⟨r, s'⟩
  simp only [hy] at hx
  obtain ⟨hnp, rfl⟩ := goOn_some hx
  simp only at hnp
  obtain ⟨⟨sp, q1, q2⟩, q3, q4⟩ := reserve_steps (h := h) hE hp1 h2 hgf hb hy hnp
  obtain ⟨f', c1, c2, c3, c4⟩ := steps_ident q1 h2
  simp only at c1
  have hput : (w1.put i s').fsbs[i]? = some s'.fsb := List.getElem?_set_self (List.getElem?_eq_some_iff.1 h2).1
  rw [hput] at c1
  injection c1 with c1
  subst c1
  have hkeep : ∀ lo sz im, im ≠ 0 → Gcd.Kept w1.gcd lo sz im → Gcd.Kept (w1.put i s').gcd lo sz im := by
    intro lo sz im him hk
    have := reserve_keeps (dbg := dbg) (s := w1.machine f) (pages := b.pages) hE him hgf ⟨reachable_of hE hp1, hk⟩
    rw [hy] at this
    exact this.2
  have hnz : ∀ (j : Nat) g, w1.fsbs[j]? = some g → g.handle ≠ 0 := by
    intro j g hj
    rw [a1.handles.given g (List.mem_of_getElem? hj)]; exact a1.handles.nonzero _
  have hold : ∀ (j : Nat) g, w1.fsbs[j]? = some g → ∀ a e, g.reserved = some (a, e) → ∃ b n, A b ∧ b.type = g.memType ∧ b.pages ≠ 0 ∧ Permitted b.type ∧
      Base.IsRoundUp b.pages (g.gran / 4096) n ∧ e = a + n * 4096 ∧ a % g.gran = 0 ∧ a ≠ 0 ∧ Gcd.Kept (w1.put i s').gcd a (n * 4096) g.handle := by
    intro j g hj a e hr
    obtain ⟨b', n, r1, r2, r3, r4, r5, r6, r7, r8, r9⟩ := hR1 j g hj a e hr
    exact ⟨b', n, r1, r2, r3, r4, r5, r6, r7, r8, hkeep _ _ _ (hnz j g hj) r9⟩
  refine ⟨⟨sp, h1.trans q1, q2⟩, q3.trans h5, put_allocators a1 h2 c2 c3 c4, ?_, hS1.trans ?_⟩
  · intro j g hj a e hr
    by_cases hij : i = j
    · subst hij
      rw [hput] at hj
      injection hj with hj
      subst hj
      by_cases hok : r = .ok ()
      · subst hok
        obtain ⟨_, _, a', n, _, n1, n2, n3, n4, n5, n6, _⟩ := reserve_ok hE hp1 h2 hgf (by unfold W; omega) (reserve_fits hgf hb) hy
        rw [n5] at hr
        injection hr with hr
        obtain ⟨rfl, rfl⟩ := Prod.mk.inj hr
        refine ⟨b, n, hA, ?_, hp0, hty, ?_, rfl, ?_, n4, ?_⟩
        · rw [c2, h3]
        · rw [c4]; exact n1
        · rw [c4]; exact n3
        · rw [c3]; exact n6
      · rw [q4 hok] at hr ⊢
        exact hold i f h2 a e hr
    · have : w1.fsbs[j]? = some g := by
        simp only [World.put] at hj
        rwa [List.getElem?_set_ne hij] at hj
      exact hold j g this a e hr
  · intro j g hj hr
    by_cases hij : i = j
    · subst hij
      rw [h2] at hj
      injection hj with hj
      subst hj
      refine ⟨s'.fsb, hput, c2, ?_⟩
      have := reserve_once (E := E) (s := w1.machine f) (dbg := dbg) (pages := b.pages) hr
      rw [hy] at this
      rw [(Prod.mk.inj this).2]
      rfl
    · refine ⟨g, ?_, rfl, rfl⟩
      simp only [World.put]
      rw [List.getElem?_set_ne hij]; exact hj

theorem buckets_steps (hE : EnvOk E) {rtGran : Nat} (hrt : GranOk rtGran) {hdl : Nat → Nat} {dbg : Bool} {A : Bucket → Prop} : ∀ {bs : List Bucket} {w w' : World E.H} {h : History},
    Possible E (w, h) → Allocators rtGran hdl w → (∀ b ∈ bs, b.pages < 2 ^ 32 ∧ A b) → Reserved A w → reserveBuckets E dbg rtGran hdl bs w = some w' →
    (∃ sp, Steps E (w, h) (w', ⟨h.grants, sp⟩) ∧ ∀ s ∈ h.spans, s ∈ sp) ∧ w'.mem = w.mem ∧ Allocators rtGran hdl w' ∧ Reserved A w' ∧ Stays w w'
  | [], w, w', h, hp, ha, _, hR, hx => by
    injection hx with hx
    subst hx
    exact ⟨⟨h.spans, .refl, fun _ h => h⟩, rfl, ha, hR, fun j f hf _ => ⟨f, hf, rfl, rfl⟩⟩
  | b :: bs, w, w', h, hp, ha, hb, hR, hx => by
    unfold reserveBuckets at hx
    obtain ⟨w1, hx1, hx2⟩ := Option.bind_eq_some_iff.1 hx
    obtain ⟨⟨sp, s1, s2⟩, m1, a1, r1, t1⟩ := bucket_step hE hp hrt ha (hb b (by simp)).1 (hb b (by simp)).2 hR hx1
    obtain ⟨⟨sp', s3, s4⟩, m2, a2, r2, t2⟩ := buckets_steps hE hrt (hp.steps s1) a1 (fun c hc => hb c (by simp [hc])) r1 hx2
    exact ⟨⟨sp', s1.trans s3, fun s hs => s4 s (s2 s hs)⟩, m2.trans m1, a2, r2, t1.trans t2⟩

theorem buckets_split {dbg : Bool} {rtGran : Nat} {hdl : Nat → Nat} : ∀ {pre bs : List Bucket} {w w' : World E.H},
    reserveBuckets E dbg rtGran hdl (pre ++ bs) w = some w' → ∃ w1, reserveBuckets E dbg rtGran hdl pre w = some w1 ∧ reserveBuckets E dbg rtGran hdl bs w1 = some w'
  | [], bs, w, w', hx => ⟨w, rfl, hx⟩
  | b :: pre, bs, w, w', hx => by
    simp only [List.cons_append, reserveBuckets] at hx
    obtain ⟨w1, h1, h2⟩ := Option.bind_eq_some_iff.1 hx
    obtain ⟨w2, h3, h4⟩ := buckets_split h2
    refine ⟨w2, ?_, h4⟩
    simp only [reserveBuckets]
    rw [h1]; exact h3

end Verif.Alloc
