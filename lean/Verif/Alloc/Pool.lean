import Verif.Alloc.PoolModel
/-!
C28: pool buffers, in every state any history can produce.
-/
namespace Verif.Alloc
open Verif.Gcd
open Verif.Hob (Mem)

variable {E : Env} {I : InfoLayout} {w w' : World E.H} {h h' : History} {bs bs' : List Buf}

/-! ### The info before a buffer -/

/-- The info says what it should. -/
structure InfoIs (I : InfoLayout) (m : Mem) (b : Buf) (type : Nat) : Prop where
  sig : get32 m (b.block + I.sig) = POOL_SIG
  type : get32 m (b.block + I.type) = type
  size : get64 m (b.block + I.size) = INFO + b.size
  align : get64 m (b.block + I.align) = UEFI_POOL_ALIGN

theorem InfoIs.congr {m m' : Mem} {b : Buf} {t : Nat} (hI : I.Ok) (h : InfoIs I m b t)
    (hm : ∀ a, b.block ≤ a → a < b.block + INFO → m' a = m a) : InfoIs I m' b t := by
  have h1 := hI.sig
  have h2 := hI.type
  have h3 := hI.size
  have h4 := hI.align
  refine ⟨?_, ?_, ?_, ?_⟩
  · rw [get32_congr fun a a1 a2 => hm a (by omega) (by omega)]; exact h.sig
  · rw [get32_congr fun a a1 a2 => hm a (by omega) (by omega)]; exact h.type
  · rw [get64_congr fun a a1 a2 => hm a (by omega) (by omega)]; exact h.size
  · rw [get64_congr fun a a1 a2 => hm a (by omega) (by omega)]; exact h.align

theorem writeInfo_is {m : Mem} {b : Buf} {t : Nat} (hI : I.Ok) (ht : t < 2 ^ 32) (hs : INFO + b.size < W) :
    InfoIs I (writeInfo I m b.block t ⟨INFO + b.size, UEFI_POOL_ALIGN⟩) b t := by
  have h1 := hI.sigType
  have h2 := hI.sigSize
  have h3 := hI.sigAlign
  have h4 := hI.typeSize
  have h5 := hI.typeAlign
  have h6 := hI.sizeAlign
  unfold writeInfo
  refine ⟨?_, ?_, ?_, ?_⟩
  · rw [get32_congr fun a a1 a2 => put64_out (by omega), get32_congr fun a a1 a2 => put64_out (by omega),
      get32_congr fun a a1 a2 => put32_out (by omega)]
    exact get32_put32 (by decide)
  · rw [get32_congr fun a a1 a2 => put64_out (by omega), get32_congr fun a a1 a2 => put64_out (by omega)]
    exact get32_put32 ht
  · rw [get64_congr fun a a1 a2 => put64_out (by omega)]
    exact get64_put64 hs
  · exact get64_put64 (v := 8) (by decide)

theorem writeInfo_out {m : Mem} {p t a : Nat} {lay : Layout} (hI : I.Ok) (h : ¬ (p ≤ a ∧ a < p + INFO)) :
    writeInfo I m p t lay a = m a := by
  have h1 := hI.sig
  have h2 := hI.type
  have h3 := hI.size
  have h4 := hI.align
  unfold writeInfo
  rw [put64_out (by omega), put64_out (by omega), put32_out (by omega), put32_out (by omega)]

/-! ### Memory types stay -/

theorem fallbackAlloc_type {f f' : Fsb E.H} {m m' : Mem} {lay : Layout} {r : AllocRes} (hx : f.fallbackAlloc E m lay = (r, f', m')) :
    f'.memType = f.memType := by
  unfold Fsb.fallbackAlloc at hx
  split at hx <;> simp only [Prod.mk.injEq] at hx <;> obtain ⟨_, rfl, _⟩ := hx <;> rfl

theorem alloc_type {f f' : Fsb E.H} {m m' : Mem} {lay : Layout} {r : AllocRes} (hx : f.alloc E m lay = (r, f', m')) :
    f'.memType = f.memType := by
  unfold Fsb.alloc at hx
  simp only at hx
  split at hx
  · split at hx
    · simp only [Prod.mk.injEq] at hx
      obtain ⟨_, rfl, _⟩ := hx
      rfl
    · rw [fallbackAlloc_type hx]
  · rw [fallbackAlloc_type hx]

theorem dealloc_type {f f' : Fsb E.H} {m m' : Mem} {p : Nat} {lay : Layout} (hx : f.dealloc E m p lay = (f', m')) :
    f'.memType = f.memType := by
  have : f' = (f.dealloc E m p lay).1 := by rw [hx]
  rw [this]
  unfold Fsb.dealloc
  simp only
  split <;> rfl

theorem expand_type {f f' : Fsb E.H} {m m' : Mem} {dbg : Bool} {b n : Nat} (hx : f.expand E dbg m b n = (.ok f', m')) :
    f'.memType = f.memType := by
  unfold Fsb.expand at hx
  split at hx
  · simp only [Prod.mk.injEq] at hx
    cases dbg <;> simp at hx
  · simp only [Prod.mk.injEq] at hx
    have := hx.1
    unfold Fsb.updateInfo at this
    simp only at this
    split at this
    · cases this
    · injection this with this
      rw [← this]
      unfold Fsb.count
      simp only
      split <;> rfl

theorem type_set {l : List (Fsb E.H)} {i j : Nat} {f f' g : Fsb E.H} (hf : l[i]? = some f) (ht : f'.memType = f.memType)
    (hg : l[j]? = some g) : ∃ g', (l.set i f')[j]? = some g' ∧ g'.memType = g.memType := by
  by_cases hij : i = j
  · subst hij
    rw [hf] at hg; injection hg with hg; subst hg
    exact ⟨f', List.getElem?_set_self (List.getElem?_eq_some_iff.1 hf).1, ht⟩
  · exact ⟨g, by rw [List.getElem?_set_ne hij]; exact hg, rfl⟩

theorem step_type {x y : World E.H × History} (hs : Step E x y) {i : Nat} {f : Fsb E.H} (hf : x.1.fsbs[i]? = some f) :
    ∃ f', y.1.fsbs[i]? = some f' ∧ f'.memType = f.memType := by
  cases hs with
  | alloc hf' _ hx => exact type_set hf' (alloc_type hx) hf
  | dealloc _ hf' hx => exact type_set hf' (dealloc_type hx) hf
  | expand hf' _ _ _ _ _ hx => exact type_set hf' (expand_type hx) hf
  | account hf' _ _ _ _ ht => exact type_set hf' ht hf
  | gcd _ _ => exact ⟨f, hf, rfl⟩
  | write _ => exact ⟨f, hf, rfl⟩
  | create => exact ⟨f, by rw [List.getElem?_append_left (List.getElem?_eq_some_iff.1 hf).1]; exact hf, rfl⟩

theorem steps_type {x y : World E.H × History} (hs : Steps E x y) {i : Nat} {f : Fsb E.H} (hf : x.1.fsbs[i]? = some f) :
    ∃ f', y.1.fsbs[i]? = some f' ∧ f'.memType = f.memType := by
  induction hs with
  | refl => exact ⟨f, hf, rfl⟩
  | step _ hs ih =>
    obtain ⟨g, h1, h2⟩ := ih
    obtain ⟨g', h3, h4⟩ := step_type hs h1
    exact ⟨g', h3, h4.trans h2⟩

/-! ### The invariant -/

theorem grant_inj {a b : Buf} (h : a.grant = b.grant) : a = b := by
  cases a; cases b
  simp only [Buf.grant, Grant.mk.injEq, Layout.mk.injEq] at h
  simp only [Buf.mk.injEq]
  omega

structure PoolOk (I : InfoLayout) (w : World E.H) (h : History) (bs : List Buf) : Prop where
  nodup : bs.Nodup
  given : ∀ b ∈ bs, b.grant ∈ h.grants
  info : ∀ b ∈ bs, ∃ f, w.fsbs[b.owner]? = some f ∧ InfoIs I w.mem b f.memType

/-- Two different buffers are in different blocks. -/
theorem bufs_apart (hE : EnvOk E) (hp : Possible E (w, h)) {a b : Buf} (ha : a.grant ∈ h.grants) (hb : b.grant ∈ h.grants) (hne : a ≠ b) :
    ¬ Overlap a.block (INFO + a.size) b.block (INFO + b.size) := by
  have hap := blocks_apart hE hp
  have key : ∀ {l : List Grant}, (l.Pairwise fun x y => ¬ Overlap x.ptr x.layout.size y.ptr y.layout.size) → ∀ x ∈ l, ∀ y ∈ l, x ≠ y →
      ¬ Overlap x.ptr x.layout.size y.ptr y.layout.size := by
    intro l hl x hx y hy hxy
    induction hl with
    | nil => cases hx
    | cons h1 _ ih =>
      rcases List.mem_cons.1 hx with rfl | hx' <;> rcases List.mem_cons.1 hy with rfl | hy'
      · exact absurd rfl hxy
      · exact h1 _ hy'
      · rintro ⟨c, c1, c2, c3, c4⟩
        exact h1 _ hx' ⟨c, c3, c4, c1, c2⟩
      · exact ih hx' hy'
  exact key hap _ ha _ hb fun he => hne (grant_inj he)

theorem write_in_grant {g : Grant} (hg : g ∈ h.grants) {m' : Mem} (hm : ∀ a, ¬ In g.ptr g.layout a → m' a = w.mem a) :
    Step E (w, h) ({ w with mem := m' }, h) :=
  .write fun _ _ a _ _ hn => hm a (hn g hg)

theorem give_mem (hI : I.Ok) {b : Buf} {t : Nat} {m : Mem} {a : Nat} (ha : ¬ In b.grant.ptr b.grant.layout a) :
    writeInfo I m b.block t ⟨INFO + b.size, UEFI_POOL_ALIGN⟩ a = m a :=
  writeInfo_out hI fun hc => ha ⟨hc.1, by simp only [Buf.grant]; omega⟩

theorem take_mem (hI : I.Ok) {b : Buf} {m : Mem} {a : Nat} (ha : ¬ In b.grant.ptr b.grant.layout a) :
    put32 m (b.block + I.sig) 0 a = m a := by
  have := hI.sig
  exact put32_out fun hc => ha ⟨by simp only [Buf.grant]; omega, by simp only [Buf.grant]; omega⟩

theorem pool_step (hE : EnvOk E) (hI : I.Ok) {x y : PoolState E} (hs : PoolStep E I x y) (hp : Possible E (x.1, x.2.1))
    (ok : PoolOk I x.1 x.2.1 x.2.2) : Step E (x.1, x.2.1) (y.1, y.2.1) ∧ PoolOk I y.1 y.2.1 y.2.2 := by
  cases hs with
  | @other w w' h h' bs hst hg hw =>
    refine ⟨hst, ok.nodup, hg, fun b hb => ?_⟩
    obtain ⟨f, h1, h2⟩ := ok.info b hb
    obtain ⟨f', h3, h4⟩ := step_type hst h1
    refine ⟨f', h3, ?_⟩
    rw [h4]
    refine h2.congr hI fun a a1 a2 => ?_
    rcases contents_kept hE hp hst (a := a) (.inl ⟨b.grant, ok.given b hb, hg b hb, a1, by simp only [Buf.grant]; omega⟩) with hk | ⟨k1, k2, k3⟩
    · exact hk
    · exact hw k1 k2 k3 b hb a a1 a2
  | @give w h bs b f hg hn hf ht =>
    have hs : INFO + b.size < W := by
      obtain ⟨F, (wok : WorldOk hE w h F)⟩ := possible_world (hE := hE) hp
      obtain ⟨f, rl, _, hok, hm⟩ := wok.grant hg
      have := (hok.valid _ hm).2
      simp only [Buf.grant] at this
      unfold W; omega
    refine ⟨write_in_grant hg fun a ha => give_mem hI ha, List.nodup_cons.2 ⟨hn, ok.nodup⟩, ?_, ?_⟩
    · intro c hc
      rcases List.mem_cons.1 hc with rfl | hc
      · exact hg
      · exact ok.given c hc
    · intro c hc
      rcases List.mem_cons.1 hc with rfl | hc
      · exact ⟨f, hf, writeInfo_is hI ht hs⟩
      · obtain ⟨f', h1, h2⟩ := ok.info c hc
        refine ⟨f', h1, h2.congr hI fun a a1 a2 => writeInfo_out hI fun hc' => ?_⟩
        exact bufs_apart hE hp (ok.given c hc) hg (fun he => hn (he ▸ hc)) ⟨a, a1, by omega, hc'.1, by omega⟩
  | @take w h bs b hb =>
    refine ⟨write_in_grant (ok.given b hb) fun a ha => take_mem hI ha, ok.nodup.erase b, fun c hc => ok.given c (List.mem_of_mem_erase hc), ?_⟩
    intro c hc
    have hcb := (List.Nodup.mem_erase_iff ok.nodup).1 hc
    obtain ⟨f', h1, h2⟩ := ok.info c hcb.2
    have hsig := hI.sig
    refine ⟨f', h1, h2.congr hI fun a a1 a2 => put32_out fun hc' => ?_⟩
    exact bufs_apart hE hp (ok.given c hcb.2) (ok.given b hb) hcb.1 ⟨a, a1, by omega, by omega, by omega⟩

theorem pool_steps (hE : EnvOk E) (hI : I.Ok) {x y : PoolState E} (hs : PoolSteps E I x y) (hp : Possible E (x.1, x.2.1))
    (ok : PoolOk I x.1 x.2.1 x.2.2) : Possible E (y.1, y.2.1) ∧ PoolOk I y.1 y.2.1 y.2.2 := by
  induction hs with
  | refl => exact ⟨hp, ok⟩
  | step _ hs ih =>
    obtain ⟨h1, h2⟩ := ih
    obtain ⟨h3, h4⟩ := pool_step hE hI hs h1 h2
    exact ⟨h1.steps (Steps.one h3), h4⟩

theorem pool_possible (hE : EnvOk E) (hI : I.Ok) (hp : PoolPossible E I (w, h, bs)) : Possible E (w, h) ∧ PoolOk I w h bs := by
  obtain ⟨w0, h0, hst, hs⟩ := hp
  exact pool_steps hE hI hs ⟨(w0, h0), hst, .refl⟩ ⟨List.nodup_nil, fun b hb => (List.not_mem_nil hb).elim, fun b hb => (List.not_mem_nil hb).elim⟩

theorem PoolSteps.trans {x y z : PoolState E} (h1 : PoolSteps E I x y) (h2 : PoolSteps E I y z) : PoolSteps E I x z := by
  induction h2 with
  | refl => exact h1
  | step _ hs ih => exact .step ih hs

theorem PoolPossible.steps {x y : PoolState E} (hp : PoolPossible E I x) (hs : PoolSteps E I x y) : PoolPossible E I y := by
  obtain ⟨w0, h0, h1, h2⟩ := hp
  exact ⟨w0, h0, h1, h2.trans hs⟩

theorem owns_pool {x y : World E.H × History} (hs : Owns E x y) (hb : ∀ b ∈ bs, b.grant ∈ x.2.grants) :
    PoolSteps E I (x.1, x.2, bs) (y.1, y.2, bs) ∧ ∀ b ∈ bs, b.grant ∈ y.2.grants := by
  induction hs with
  | refl => exact ⟨.refl, hb⟩
  | step _ hs ih =>
    obtain ⟨h1, h2⟩ := ih
    have h3 : ∀ b ∈ bs, b.grant ∈ _ := fun b hb => hs.2.1 _ (h2 b hb)
    exact ⟨.step h1 (.other hs.1 h3 fun k1 k2 k3 b _ a _ _ => by rw [hs.2.2 k1 k2 k3]), h3⟩

/-! ### Properties -/

/-- C28: a pool buffer is aligned to 8, is not at address 0, and all of it is in memory that the GCD has allocated to the
allocator that gave it out. -/
theorem pool_placed (hE : EnvOk E) (hI : I.Ok) (hp : PoolPossible E I (w, h, bs)) {b : Buf} (hb : b ∈ bs) :
    b.addr % 8 = 0 ∧ b.addr ≠ 0 ∧ b.addr + b.size ≤ w.gcd.max ∧
      ∃ f, w.fsbs[b.owner]? = some f ∧ Live w.gcd b.addr b.size f.handle := by
  obtain ⟨hp', ok⟩ := pool_possible hE hI hp
  obtain ⟨h1, h2, h3, f, h4, h5⟩ := block_placed hE hp' (ok.given b hb)
  simp only [Buf.grant, UEFI_POOL_ALIGN, INFO] at h1 h2 h3 h5
  unfold Buf.addr INFO
  exact ⟨by omega, by omega, by omega, f, h4, live_sub h5 (by omega) (by omega)⟩

/-- C28: no two pool buffers have a byte in common; none has a byte in common with a block that is given out for another purpose,
or with pages. -/
theorem pool_apart (hE : EnvOk E) (hI : I.Ok) (hp : PoolPossible E I (w, h, bs)) :
    (∀ a ∈ bs, ∀ b ∈ bs, a ≠ b → ¬ Overlap a.addr a.size b.addr b.size) ∧ bs.Nodup ∧
      (∀ a ∈ bs, ∀ s ∈ h.spans, ¬ Overlap a.addr a.size s.base s.len) := by
  obtain ⟨hp', ok⟩ := pool_possible hE hI hp
  refine ⟨fun a ha b hb hne => ?_, ok.nodup, fun a ha s hs => ?_⟩
  · rintro ⟨c, c1, c2, c3, c4⟩
    unfold Buf.addr at *
    exact bufs_apart hE hp' (ok.given a ha) (ok.given b hb) hne ⟨c, by omega, by omega, by omega, by omega⟩
  · rintro ⟨c, c1, c2, c3, c4⟩
    unfold Buf.addr at *
    exact (block_apart_from_pages hE hp').1 _ (ok.given a ha) s hs ⟨c, by simp only [Buf.grant]; omega, by simp only [Buf.grant]; omega, c3, c4⟩

theorem poolLayout_some {size : Nat} {lay : Layout} (h : poolLayout size = some lay) : lay = ⟨INFO + size, UEFI_POOL_ALIGN⟩ ∧ lay.Valid := by
  unfold poolLayout at h
  split at h
  · cases h
  · split at h
    · cases h
    · injection h with h
      subst h
      exact ⟨rfl, ⟨3, rfl⟩, by simp only; omega⟩

theorem allocatePool_cases {dbg : Bool} {s s' : Machine E.H} {size : Nat} {r : Outcome EfiError Nat}
    (hx : Machine.allocatePool E I dbg s size = (r, s')) :
    (poolLayout size = none ∧ r = .panic ∧ s' = s) ∨
      (∃ lay r1 s1, poolLayout size = some lay ∧ Machine.allocate E dbg s lay = (r1, s1) ∧
        ((∃ p, r1 = .ok p ∧ r = .ok (p + INFO) ∧ s' = { s1 with mem := writeInfo I s1.mem p s.fsb.memType lay }) ∨
          ((∃ e, r1 = .err e) ∧ r = .err .outOfResources ∧ s' = s1) ∨ (r1 = .panic ∧ r = .panic ∧ s' = s1))) := by
  unfold Machine.allocatePool at hx
  cases hl : poolLayout size with
  | none =>
    simp only [hl, Prod.mk.injEq] at hx
    exact .inl ⟨rfl, hx.1.symm, hx.2.symm⟩
  | some lay =>
    simp only [hl] at hx
    rcases ha : Machine.allocate E dbg s lay with ⟨r1, s1⟩
    simp only [ha] at hx
    refine .inr ⟨lay, r1, s1, rfl, ha, ?_⟩
    cases r1 with
    | ok p => simp only [Prod.mk.injEq] at hx; exact .inl ⟨p, rfl, hx.1.symm, hx.2.symm⟩
    | err e => simp only [Prod.mk.injEq] at hx; exact .inr (.inl ⟨⟨e, rfl⟩, hx.1.symm, hx.2.symm⟩)
    | panic => simp only [Prod.mk.injEq] at hx; exact .inr (.inr ⟨rfl, hx.1.symm, hx.2.symm⟩)

/-- C28: a successful `allocate_pool` gives out one new buffer of the size asked for, at the address it returns, and takes
nothing back. (With `pool_placed` and `pool_apart` for the state after it, the buffer is new memory.) -/
theorem allocatePool_ok (hE : EnvOk E) (hI : I.Ok) (hp : PoolPossible E I (w, h, bs)) {i : Nat} {f : Fsb E.H} {dbg : Bool} {size a : Nat}
    {s' : Machine E.H} (hf : w.fsbs[i]? = some f) (hg : GranOk f.gran) (ht : f.memType < 2 ^ 32)
    (hx : Machine.allocatePool E I dbg (w.machine f) size = (.ok a, s')) :
    ∃ b sp, b.owner = i ∧ b.size = size ∧ b.addr = a ∧ b ∉ bs ∧ (∀ s ∈ h.spans, s ∈ sp) ∧
      PoolSteps E I (w, h, bs) (w.put i s', ⟨b.grant :: h.grants, sp⟩, b :: bs) := by
  obtain ⟨hp', ok⟩ := pool_possible hE hI hp
  have hi : i < w.fsbs.length := (List.getElem?_eq_some_iff.1 hf).1
  rcases allocatePool_cases hx with ⟨_, h1, _⟩ | ⟨lay, r1, s1, hl, ha, ⟨p, rfl, h2, h3⟩ | ⟨_, h2, _⟩ | ⟨_, h2, _⟩⟩
  · cases h1
  · injection h2 with h2
    subst h2
    obtain ⟨rfl, hv⟩ := poolLayout_some hl
    obtain ⟨gs, sp, e1, e2, e3⟩ := allocate_owns hE hp' hf hv hg (by simp) ha
    rcases e3 with ⟨q, hq, rfl⟩ | ⟨hq, _⟩
    · injection hq with hq
      subst hq
      have hn : (⟨i, p, size⟩ : Buf) ∉ bs := by
        intro hc
        have hap := blocks_apart hE (hp'.steps e1.steps)
        exact (List.pairwise_cons.1 hap).1 _ (ok.given _ hc) ⟨p, Nat.le_refl _, by simp only; unfold INFO; omega, Nat.le_refl _, by simp only [Buf.grant]; unfold INFO; omega⟩
      refine ⟨⟨i, p, size⟩, sp, rfl, rfl, rfl, hn, e2, ?_⟩
      obtain ⟨k1, k2⟩ := owns_pool (I := I) (bs := bs) e1 (fun b hb => ok.given b hb)
      obtain ⟨f1, k3, k4⟩ := steps_type e1.steps hf
      have k5 : (w.put i s1).fsbs[i]? = some s1.fsb := List.getElem?_set_self hi
      simp only at k3
      rw [k5] at k3
      injection k3 with k3
      subst k3
      have k6 := PoolStep.give (I := I) (w := w.put i s1) (h := ⟨⟨i, p, ⟨INFO + size, UEFI_POOL_ALIGN⟩⟩ :: h.grants, sp⟩) (bs := bs)
        (b := ⟨i, p, size⟩) List.mem_cons_self hn k5 (by rw [k4]; exact ht)
      rw [k4] at k6
      rw [h3]
      exact .step k1 k6
    · exact absurd rfl (hq p)
  · cases h2
  · cases h2

/-- C28: a failing `allocate_pool` reports that there is no memory, and gives out nothing. -/
theorem allocatePool_err (hE : EnvOk E) (hI : I.Ok) (hp : PoolPossible E I (w, h, bs)) {i : Nat} {f : Fsb E.H} {dbg : Bool} {size : Nat}
    {e : EfiError} {s' : Machine E.H} (hf : w.fsbs[i]? = some f) (hg : GranOk f.gran)
    (hx : Machine.allocatePool E I dbg (w.machine f) size = (.err e, s')) :
    e = .outOfResources ∧ ∃ sp, (∀ s ∈ h.spans, s ∈ sp) ∧ PoolSteps E I (w, h, bs) (w.put i s', ⟨h.grants, sp⟩, bs) := by
  obtain ⟨hp', ok⟩ := pool_possible hE hI hp
  rcases allocatePool_cases hx with ⟨_, h1, _⟩ | ⟨lay, r1, s1, hl, ha, ⟨p, rfl, h2, h3⟩ | ⟨⟨e1, rfl⟩, h2, rfl⟩ | ⟨_, h2, _⟩⟩
  · cases h1
  · cases h2
  · injection h2 with h2
    obtain ⟨_, hv⟩ := poolLayout_some hl
    obtain ⟨gs, sp, e1, e2, e3⟩ := allocate_owns hE hp' hf hv hg (by simp) ha
    rcases e3 with ⟨q, hq, _⟩ | ⟨_, rfl⟩
    · cases hq
    · exact ⟨h2, sp, e2, (owns_pool (I := I) (bs := bs) e1 (fun b hb => ok.given b hb)).1⟩
  · cases h2

theorem addr_sub {b : Buf} (hb : b.block < W) : subw b.addr INFO = b.block := by
  unfold subw Buf.addr
  rw [show b.block + INFO + W - INFO = b.block + W by omega, Nat.add_mod_right, Nat.mod_eq_of_lt hb]

theorem block_lt (hE : EnvOk E) (hp : Possible E (w, h)) {b : Buf} (hb : b.grant ∈ h.grants) : b.block < W ∧ b.block ≠ 0 := by
  obtain ⟨_, h2, h3, _⟩ := block_placed hE hp hb
  obtain ⟨F, (wok : WorldOk hE w h F)⟩ := possible_world (hE := hE) hp
  have := (reachable_inv wok.reach).inv.ltW
  simp only [Buf.grant] at h2 h3
  exact ⟨by omega, h2⟩

/-- C28: `free_pool` on the allocator that gave a buffer out succeeds. It gives back exactly the block of the buffer, with the
layout it was allocated with, after clearing the signature; the buffer is then no longer in use, and nothing else is taken back. -/
theorem freePool_ok (hE : EnvOk E) (hI : I.Ok) (hp : PoolPossible E I (w, h, bs)) {b : Buf} (hb : b ∈ bs) {f : Fsb E.H} (dbg : Bool)
    (hf : w.fsbs[b.owner]? = some f) :
    ∃ s', Machine.freePool E I dbg (w.machine f) b.addr = (.ok (), s') ∧
      s' = Machine.deallocate E { w.machine f with mem := put32 w.mem (b.block + I.sig) 0 } b.block ⟨INFO + b.size, UEFI_POOL_ALIGN⟩ ∧
      PoolSteps E I (w, h, bs) (w.put b.owner s', { h with grants := h.grants.erase b.grant }, bs.erase b) := by
  obtain ⟨hp', ok⟩ := pool_possible hE hI hp
  obtain ⟨f', h1, h2⟩ := ok.info b hb
  rw [hf] at h1; injection h1 with h1; subst h1
  obtain ⟨hlt, h0⟩ := block_lt hE hp' (ok.given b hb)
  have h3 := hI.sigSize
  have h4 := hI.sigAlign
  have e1 : get64 (put32 w.mem (b.block + I.sig) 0) (b.block + I.size) = INFO + b.size := by
    rw [get64_congr fun a a1 a2 => put32_out (by omega)]; exact h2.size
  have e2 : get64 (put32 w.mem (b.block + I.sig) 0) (b.block + I.align) = UEFI_POOL_ALIGN := by
    rw [get64_congr fun a a1 a2 => put32_out (by omega)]; exact h2.align
  refine ⟨_, ?_, rfl, ?_⟩
  · unfold Machine.freePool World.machine
    simp only [addr_sub hlt, e1, e2]
    rw [if_neg (by rw [h2.sig]; simp), if_neg (by rw [h2.type]; simp), if_neg h0]
  · have k1 := PoolStep.take (E := E) (I := I) (w := w) (h := h) hb
    have k2 : Step E ({ w with mem := put32 w.mem (b.block + I.sig) 0 }, h) _ :=
      Step.dealloc (x := b.grant) (ok.given b hb) hf rfl
    refine .step (.step .refl k1) (.other k2 (fun c hc => ?_) fun _ _ he => ?_)
    · have hcb := (List.Nodup.mem_erase_iff ok.nodup).1 hc
      exact (List.mem_erase_of_ne fun he => hcb.1 (grant_inj he)).2 (ok.given c hcb.2)
    · have := congrArg (fun x => x.grants.length) he
      simp only [List.length_erase_of_mem (ok.given b hb)] at this
      have := List.length_pos_of_mem (ok.given b hb)
      omega

/-- C28: an allocator for another memory type reports that the buffer is not its own, and changes nothing. -/
theorem freePool_foreign (hE : EnvOk E) (hI : I.Ok) (hp : PoolPossible E I (w, h, bs)) {b : Buf} (hb : b ∈ bs) {f g : Fsb E.H} (dbg : Bool)
    (hf : w.fsbs[b.owner]? = some f) (hne : g.memType ≠ f.memType) :
    Machine.freePool E I dbg (w.machine g) b.addr = (.err .notFound, w.machine g) := by
  obtain ⟨hp', ok⟩ := pool_possible hE hI hp
  obtain ⟨f', h1, h2⟩ := ok.info b hb
  rw [hf] at h1; injection h1 with h1; subst h1
  obtain ⟨hlt, h0⟩ := block_lt hE hp' (ok.given b hb)
  unfold Machine.freePool World.machine
  simp only [addr_sub hlt]
  rw [if_neg (by rw [h2.sig]; simp), if_pos (by rw [h2.type]; exact hne.symm)]

/-- What `free_pool` does on a buffer whose signature is gone. -/
theorem freePool_unsigned {m : Machine E.H} {b : Buf} (hb : b.block < W) (hs : get32 m.mem (b.block + I.sig) ≠ POOL_SIG) (dbg : Bool) :
    Machine.freePool E I dbg m b.addr = (if dbg then .panic else .err .invalidParameter, m) := by
  unfold Machine.freePool
  simp only [addr_sub hb]
  rw [if_pos hs]

theorem freed_mem (hE : EnvOk E) (hI : I.Ok) (hp : Possible E (w, h)) {b : Buf} (hb : b.grant ∈ h.grants) {f f' : Fsb E.H} {m' : Mem}
    (hf : w.fsbs[b.owner]? = some f)
    (hd : f.dealloc E (put32 w.mem (b.block + I.sig) 0) b.block ⟨INFO + b.size, UEFI_POOL_ALIGN⟩ = (f', m')) :
    ∃ F, WorldOk hE { w with mem := m', fsbs := w.fsbs.set b.owner f' } { h with grants := h.grants.erase b.grant } F ∧
      (∀ k, listIndex ⟨INFO + b.size, UEFI_POOL_ALIGN⟩ = some k →
        b.block ∈ F b.owner k ∧ (8 ≤ I.sig → get32 m' (b.block + I.sig) = 0)) ∧
      (16 ≤ I.sig → get32 m' (b.block + I.sig) = 0) := by
  have hw : Step E (w, h) ({ w with mem := put32 w.mem (b.block + I.sig) 0 }, h) := write_in_grant hb fun a ha => take_mem hI ha
  obtain ⟨F, (wok : WorldOk hE _ h F)⟩ := possible_world (hE := hE) (hp.steps (Steps.one hw))
  obtain ⟨F', h1, _, _, _, h5, h6⟩ := dealloc_world wok (x := b.grant) hb (f := f) hf hd
  have hsig := hI.sig
  have e : get32 (put32 w.mem (b.block + I.sig) 0) (b.block + I.sig) = 0 := get32_put32 (by decide)
  refine ⟨F', h1, fun k hk => ⟨(h5 k hk).1, fun h8 => ?_⟩, fun h16 => ?_⟩
  · rw [get32_congr fun a a1 a2 => (h5 k hk).2 a (by simp only [Buf.grant]; omega)]; exact e
  · have hl := heapLayout_size ⟨INFO + b.size, UEFI_POOL_ALIGN⟩
    simp only at hl
    rw [get32_congr fun a a1 a2 => h6 a (by simp only [Buf.grant]; omega) ⟨by simp only [Buf.grant]; omega, by simp only [Buf.grant]; omega⟩]
    exact e

theorem without_kept {hE : EnvOk E} {p o k : Nat} {x y : World E.H × History} (hs : Without E p x y) {F : Nat → Nat → List Nat}
    (ok : WorldOk hE x.1 x.2 F) (ho : o < x.1.fsbs.length) (hk : k < 10) (hp : p ∈ F o k) {d : Nat} (hd : 8 ≤ d) (hd2 : d + 4 ≤ blockSize k)
    (hm : get32 x.1.mem (p + d) = 0) :
    ∃ F', WorldOk hE y.1 y.2 F' ∧ o < y.1.fsbs.length ∧ p ∈ F' o k ∧ get32 y.1.mem (p + d) = 0 := by
  induction hs with
  | refl => exact ⟨F, ok, ho, hp, hm⟩
  | step _ hstep hno ih =>
    obtain ⟨F1, k1, k2, k3, k4⟩ := ih
    obtain ⟨F2, e1, _, e2, e3⟩ := step_world k1 hstep
    rcases e2 o k p k2 hk k3 with ⟨lay, hl⟩ | ⟨e4, e5⟩
    · exact absurd rfl (hno _ hl)
    · refine ⟨F2, e1, by omega, e4, ?_⟩
      rw [get32_congr fun a a1 a2 => e5 a (by omega) (by omega)]
      exact k4

/-- C28: freeing a buffer twice. After `free_pool` of a buffer in a block of one of the size classes (up to 4096 bytes with the
info), and whatever else happens to the allocators, the GCD and memory, for as long as the memory has not been given out again
another `free_pool` of it, on any allocator, changes nothing and reports an invalid parameter (a debug build stops). -/
theorem freed_twice (hE : EnvOk E) (hI : I.Ok) (hsig : 8 ≤ I.sig) (hp : PoolPossible E I (w, h, bs)) {b : Buf} (hb : b ∈ bs) {f : Fsb E.H}
    {dbg : Bool} {s' : Machine E.H} (hf : w.fsbs[b.owner]? = some f) (hx : Machine.freePool E I dbg (w.machine f) b.addr = (.ok (), s'))
    (hsmall : INFO + b.size ≤ 4096) {w2 : World E.H} {h2 : History}
    (hw : Without E b.block (w.put b.owner s', { h with grants := h.grants.erase b.grant }) (w2, h2)) (g : Fsb E.H) (dbg2 : Bool) :
    Machine.freePool E I dbg2 (w2.machine g) b.addr = (if dbg2 then .panic else .err .invalidParameter, w2.machine g) := by
  obtain ⟨hp', ok⟩ := pool_possible hE hI hp
  have hbg := ok.given b hb
  obtain ⟨s1, e1, e2, _⟩ := freePool_ok hE hI hp hb dbg hf
  rw [hx] at e1
  simp only [Prod.mk.injEq, true_and] at e1
  subst e1
  obtain ⟨hlt, _⟩ := block_lt hE hp' hbg
  have hidx : ∃ k, listIndex ⟨INFO + b.size, UEFI_POOL_ALIGN⟩ = some k := by
    cases hi : listIndex ⟨INFO + b.size, UEFI_POOL_ALIGN⟩ with
    | some k => exact ⟨k, rfl⟩
    | none =>
      unfold listIndex at hi
      rw [List.findIdx?_eq_none_iff] at hi
      have := hi 4096 (by decide)
      have h8 : ¬ max (INFO + b.size) UEFI_POOL_ALIGN ≤ 4096 := of_decide_eq_false this
      exact absurd (Nat.max_le.2 ⟨hsmall, by decide⟩) h8
  obtain ⟨k, hk⟩ := hidx
  have hk2 := listIndex_lt hk
  simp only at hk2
  obtain ⟨F, k1, k2, _⟩ := freed_mem hE hI hp' hbg hf rfl
  have ho : b.owner < w.fsbs.length := (List.getElem?_eq_some_iff.1 hf).1
  have hs := hI.sig
  have k3 : get32 (w.put b.owner s').mem (b.block + I.sig) = 0 := by rw [e2]; exact (k2 k hk).2 hsig
  have k4 : WorldOk hE (w.put b.owner s') { h with grants := h.grants.erase b.grant } F := by rw [e2]; exact k1
  obtain ⟨_, _, _, _, k5⟩ := without_kept hw k4 (by simp only [World.put, List.length_set]; exact ho) hk2.1 (k2 k hk).1 hsig (by omega) k3
  exact freePool_unsigned hlt (by simp only [World.machine]; rw [k5]; decide) dbg2

/-- C28: freeing a buffer of any size twice in a row. -/
theorem freed_twice_at_once (hE : EnvOk E) (hI : I.Ok) (hsig : 16 ≤ I.sig) (hp : PoolPossible E I (w, h, bs)) {b : Buf} (hb : b ∈ bs)
    {f : Fsb E.H} {dbg : Bool} {s' : Machine E.H} (hf : w.fsbs[b.owner]? = some f)
    (hx : Machine.freePool E I dbg (w.machine f) b.addr = (.ok (), s')) (g : Fsb E.H) (dbg2 : Bool) :
    Machine.freePool E I dbg2 ((w.put b.owner s').machine g) b.addr =
      (if dbg2 then .panic else .err .invalidParameter, (w.put b.owner s').machine g) := by
  obtain ⟨hp', ok⟩ := pool_possible hE hI hp
  have hbg := ok.given b hb
  obtain ⟨s1, e1, e2, _⟩ := freePool_ok hE hI hp hb dbg hf
  rw [hx] at e1
  simp only [Prod.mk.injEq, true_and] at e1
  subst e1
  obtain ⟨hlt, _⟩ := block_lt hE hp' hbg
  obtain ⟨F, k1, _, k2⟩ := freed_mem hE hI hp' hbg hf rfl
  have k3 : get32 (w.put b.owner s').mem (b.block + I.sig) = 0 := by rw [e2]; exact k2 hsig
  exact freePool_unsigned hlt (by simp only [World.machine]; rw [k3]; decide) dbg2

end Verif.Alloc
