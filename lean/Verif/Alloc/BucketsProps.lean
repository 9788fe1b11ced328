import Verif.Alloc.Buckets
import Verif.Alloc.UseWitness
import Verif.Bytes
/-!
C133: the buckets of memory that the platform asks for are reserved.
-/
namespace Verif.Alloc
open Verif.Gcd

variable {E : Env} {w w' : World E.H} {h : History}

/-! ### The HOB -/

theorem bucketsOf_short {d : List UInt8} (h : d.length < 8) : bucketsOf d = [] := by
  match d, h with
  | [], _ | [_], _ | [_, _], _ | [_, _, _], _ | [_, _, _, _], _ | [_, _, _, _, _], _ | [_, _, _, _, _, _], _ | [_, _, _, _, _, _, _], _ => rfl
  | _ :: _ :: _ :: _ :: _ :: _ :: _ :: _ :: _, h => simp only [List.length_cons] at h; omega

theorem bucketsOf_long {d : List UInt8} (h : 8 ≤ d.length) :
    bucketsOf d = ⟨leVal (d.take 4), leVal ((d.drop 4).take 4)⟩ :: bucketsOf (d.drop 8) := by
  match d, h with
  | a0 :: a1 :: a2 :: a3 :: b0 :: b1 :: b2 :: b3 :: rest, _ =>
    simp only [bucketsOf, List.take_succ_cons, List.take_zero, List.drop_succ_cons, List.drop_zero, leVal]
    congr 2 <;> omega

/-- Entry `k` of the HOB is the eight bytes from `8 k` on, type and pages, each of four bytes with the lowest first; bytes after the last whole entry are no entry. -/
theorem entry (k : Nat) : ∀ d : List UInt8, (bucketsOf d)[k]? =
    if 8 * k + 8 ≤ d.length then some ⟨leVal ((d.drop (8 * k)).take 4), leVal ((d.drop (8 * k + 4)).take 4)⟩ else none := by
  induction k with
  | zero =>
    intro d
    by_cases h : 8 ≤ d.length
    · rw [bucketsOf_long h, if_pos (by omega)]
      rfl
    · rw [bucketsOf_short (by omega), if_neg (by omega)]
      rfl
  | succ k ih =>
    intro d
    by_cases h : 8 ≤ d.length
    · rw [bucketsOf_long h, List.getElem?_cons_succ, ih, List.drop_drop, List.drop_drop, List.length_drop]
      by_cases h2 : 8 * k + 8 ≤ d.length - 8
      · rw [if_pos h2, if_pos (by omega), show 8 + 8 * k = 8 * (k + 1) by omega, show 8 + (8 * k + 4) = 8 * (k + 1) + 4 by omega]
      · rw [if_neg h2, if_neg (by omega)]
    · rw [bucketsOf_short (by omega), if_neg (by omega)]
      rfl

theorem entry_lt {d : List UInt8} {b : Bucket} (h : b ∈ bucketsOf d) : b.type < 2 ^ 32 ∧ b.pages < 2 ^ 32 := by
  obtain ⟨k, hk⟩ := List.getElem?_of_mem h
  rw [entry] at hk
  split at hk
  · injection hk with hk
    subst hk
    constructor
    · have := leVal_lt (((d.drop (8 * k)).take 4))
      have hl : ((d.drop (8 * k)).take 4).length = 4 := by simp only [List.length_take, List.length_drop]; omega
      rw [hl] at this
      simpa using this
    · have := leVal_lt (((d.drop (8 * k + 4)).take 4))
      have hl : ((d.drop (8 * k + 4)).take 4).length = 4 := by simp only [List.length_take, List.length_drop]; omega
      rw [hl] at this
      simpa using this
  · cases hk

/-- The first HOB with the name counts. -/
theorem first_hob {name : Nat} {d : List UInt8} {post : List InfoHob} : ∀ {pre : List InfoHob}, (∀ d', InfoHob.guid name d' ∉ pre) →
    findInfo name (pre ++ .guid name d :: post) = some (bucketsOf d)
  | [], _ => by simp [findInfo]
  | .other :: pre, h => by
    simp only [List.cons_append, findInfo]
    exact first_hob fun d' hd => h d' (by simp [hd])
  | .guid n d' :: pre, h => by
    simp only [List.cons_append, findInfo]
    rw [if_neg (fun e => h d' (by simp [e]))]
    exact first_hob fun d' hd => h d' (by simp [hd])

/-- Without one nothing is done. -/
theorem no_hob {name : Nat} {dbg : Bool} {rtGran : Nat} {hdl : Nat → Nat} : ∀ {hobs : List InfoHob}, (∀ d', InfoHob.guid name d' ∉ hobs) →
    initBuckets E dbg rtGran hdl name hobs w = some w := by
  intro hobs hn
  have : ∀ l : List InfoHob, (∀ d', InfoHob.guid name d' ∉ l) → findInfo name l = none := by
    intro l
    induction l with
    | nil => intro _; rfl
    | cons x l ih =>
      intro hl
      cases x with
      | other => exact ih fun d' hd => hl d' (by simp [hd])
      | guid n d =>
        unfold findInfo
        rw [if_neg (fun e => hl d (by simp [e]))]
        exact ih fun d' hd => hl d' (by simp [hd])
  unfold initBuckets
  rw [this hobs hn]

/-! ### The buckets -/

theorem none_reserved {H : Heap} {A : Bucket → Prop} {w : World H} (h0 : ∀ f ∈ w.fsbs, f.reserved = none) : Reserved A w := by
  intro j f hj a e hr
  rw [h0 f (List.mem_of_getElem? hj)] at hr
  cases hr

/-- After the loop, every range that is reserved is one an entry asked for: that of a type that is permitted, as many pages as asked for, rounded up to the granularity of the
type, aligned to it, and kept for that type. What was given out still is, and nothing has been written. -/
theorem reserved_as_asked (hE : EnvOk E) (hp : Possible E (w, h)) {rtGran : Nat} (hrt : GranOk rtGran) {hdl : Nat → Nat} (ha : Allocators rtGran hdl w) {dbg : Bool}
    {name : Nat} {hobs : List InfoHob} (h0 : ∀ f ∈ w.fsbs, f.reserved = none) (hx : initBuckets E dbg rtGran hdl name hobs w = some w') :
    (∀ f ∈ w'.fsbs, ∀ a e, f.reserved = some (a, e) → ∃ bs b n, findInfo name hobs = some bs ∧ b ∈ bs ∧ b.type = f.memType ∧ b.pages ≠ 0 ∧ ¬ (14 ≤ b.type ∧ b.type ≤ 0x6FFFFFFF) ∧
      Base.IsRoundUp b.pages (f.gran / 4096) n ∧ (Persists f.memType → f.gran = rtGran) ∧ (¬ Persists f.memType → f.gran = 4096) ∧
      e = a + n * 4096 ∧ a % f.gran = 0 ∧ a ≠ 0 ∧ Gcd.Kept w'.gcd a (n * 4096) (hdl f.memType)) ∧
    w'.mem = w.mem ∧ Allocators rtGran hdl w' ∧ ∃ sp, Possible E (w', ⟨h.grants, sp⟩) ∧ ∀ s ∈ h.spans, s ∈ sp := by
  unfold initBuckets at hx
  cases hi : findInfo name hobs with
  | none =>
    rw [hi] at hx
    injection hx with hx
    subst hx
    refine ⟨fun f hf a e hr => ?_, rfl, ha, h.spans, hp, fun _ h => h⟩
    rw [h0 f hf] at hr; cases hr
  | some bs =>
    rw [hi] at hx
    have hbs : ∀ b ∈ bs, b.pages < 2 ^ 32 ∧ b ∈ bs := by
      have : ∀ l : List InfoHob, findInfo name l = some bs → ∃ d, bs = bucketsOf d := by
        intro l
        induction l with
        | nil => intro h; cases h
        | cons x l ih =>
          intro h
          cases x with
          | other => exact ih h
          | guid n d =>
            unfold findInfo at h
            split at h
            · injection h with h; exact ⟨d, h.symm⟩
            · exact ih h
      obtain ⟨d, rfl⟩ := this hobs hi
      exact fun b hb => ⟨(entry_lt hb).2, hb⟩
    obtain ⟨⟨sp, s1, s2⟩, m, al, R, _⟩ := buckets_steps (A := (· ∈ bs)) hE hrt hp ha hbs (none_reserved h0) hx
    refine ⟨fun f hf a e hr => ?_, m, al, sp, hp.steps s1, s2⟩
    obtain ⟨j, hj⟩ := List.getElem?_of_mem hf
    obtain ⟨b, n, r1, r2, r3, r4, r5, r6, r7, r8, r9⟩ := R j f hj a e hr
    rw [al.handles.given f hf] at r9
    obtain ⟨g1, g2⟩ := al.grained f hf
    exact ⟨bs, b, n, rfl, r1, r2, r3, r4, r5, g1, g2, r6, r7, r8, r9⟩

/-- The ranges reserved for different memory types have no address in common. -/
theorem buckets_apart (hE : EnvOk E) (hp : Possible E (w, h)) {rtGran : Nat} (hrt : GranOk rtGran) {hdl : Nat → Nat} (ha : Allocators rtGran hdl w) {dbg : Bool}
    {name : Nat} {hobs : List InfoHob} (h0 : ∀ f ∈ w.fsbs, f.reserved = none) (hx : initBuckets E dbg rtGran hdl name hobs w = some w')
    {f g : Fsb E.H} (hf : f ∈ w'.fsbs) (hg : g ∈ w'.fsbs) (hne : f.memType ≠ g.memType) {a b c d : Nat} (h1 : f.reserved = some (a, b)) (h2 : g.reserved = some (c, d)) (x : Nat) :
    ¬ (a ≤ x ∧ x < b ∧ c ≤ x ∧ x < d) := by
  obtain ⟨H, _, al, _⟩ := reserved_as_asked hE hp hrt ha h0 hx
  rintro ⟨x1, x2, x3, x4⟩
  obtain ⟨_, _, n, _, _, _, _, _, _, _, _, e1, _, _, k1⟩ := H f hf a b h1
  obtain ⟨_, _, m, _, _, _, _, _, _, _, _, e2, _, _, k2⟩ := H g hg c d h2
  obtain ⟨y, y1, y2⟩ := k1 x x1 (by omega)
  obtain ⟨z, z1, z2⟩ := k2 x x3 (by omega)
  rw [y1] at z1
  injection z1 with z1
  subst z1
  exact hne (al.handles.inj _ _ (y2.symm.trans z2))

/-! ### Which entries count -/

/-- An entry without pages, or of a type that the specification keeps to itself, does nothing. -/
theorem entry_ignored {dbg : Bool} {rtGran : Nat} {hdl : Nat → Nat} {b : Bucket} (hb : b.pages = 0 ∨ 14 ≤ b.type ∧ b.type ≤ 0x6FFFFFFF) :
    reserveBucket E dbg rtGran hdl w b = some w := by
  unfold reserveBucket
  split
  · rfl
  · rw [if_pos (by rcases hb with hb | hb; exact absurd hb ‹_›; exact hb)]

/-- An entry of a type that has its range does nothing. -/
theorem later_ignored {dbg : Bool} {rtGran : Nat} {hdl : Nat → Nat} {b : Bucket} (hd : w.Distinct) {f : Fsb E.H} (hf : f ∈ w.fsbs) (ht : f.memType = b.type) (hr : f.reserved ≠ none) :
    reserveBucket E dbg rtGran hdl w b = some w := by
  unfold reserveBucket
  split
  · rfl
  split
  · rfl
  rcases hg : w.getOrCreate E rtGran b.type (hdl b.type) with ⟨i, w1⟩
  rcases getOrCreate_spec hg with ⟨rfl, f', h1, h2⟩ | ⟨hn, _⟩
  · obtain ⟨j, hj⟩ := List.getElem?_of_mem hf
    have := hd i j f' f h1 hj (by rw [h2, ht])
    subst this
    rw [h1] at hj
    injection hj with hj
    subst hj
    simp only [h1]
    rw [reserve_once hr]
    simp only [goOn, Option.some.injEq]
    show World.put w1 i (w1.machine f') = w1
    unfold World.put World.machine
    have : w1.fsbs.set i f' = w1.fsbs := by
      apply List.ext_getElem?
      intro k
      by_cases hk : i = k
      · subst hk
        rw [List.getElem?_set_self (List.getElem?_eq_some_iff.1 h1).1, h1]
      · rw [List.getElem?_set_ne hk]
    simp only [this]
  · exact absurd ht (hn f hf)

theorem reserve_made {dbg : Bool} {s : Machine E.H} (hg : GranOk s.fsb.gran) {pages n a : Nat} (hpg : pages < 2 ^ 32) (hn : Base.IsRoundUp pages (s.fsb.gran / 4096) n)
    (hr : s.fsb.reserved = none) {g1 g2 : Gcd} {k : Nat} (hk : s.fsb.gran = 2 ^ k) (hy : gcdAllocate E s.gcd (.topDown none) k (n * 4096) s.fsb.handle = (.ok a, g1))
    (hz : g1.freeSpace a (n * 4096) true = (.ok (), g2)) (hnp : (Machine.reserve E dbg s pages).1 ≠ .panic) : (Machine.reserve E dbg s pages).1 = .ok () := by
  have hW : pages < W := by unfold W; omega
  have hfit := reserve_fits hg hpg
  obtain ⟨k', _, _, k3, k4⟩ := gran_align hg
  have hkk : k' = k := (Nat.pow_right_inj (by omega : 1 < 2)).1 (k3.symm.trans hk)
  subst hkk
  revert hnp
  unfold Machine.reserve
  rw [hr]
  rcases hru : Base.alignUp 64 pages (sizeToPages s.fsb.gran) with m | e | _
  · have hm := pages_rounded hg hW hru
    have hmn : m = n := Nat.le_antisymm (hm.2.2 n hn.1 hn.2.1) (hn.2.2 m hm.1 hm.2.1)
    subst hmn
    have hpz : pagesToSize m = m * 4096 := by unfold pagesToSize UEFI_PAGE_SIZE; exact Nat.mod_eq_of_lt (hfit m hn)
    simp only [Option.isSome_none, Bool.false_eq_true, if_false, k4, hpz, hy]
    split
    · intro h; exact absurd rfl h
    · unfold Machine.noteReserved
      simp only [hz]
      split
      · intro h; exact absurd rfl h
      · split
        · intro _; rfl
        · next e he =>
          unfold Fsb.setReserved at he
          rw [hr] at he
          exact absurd he updateInfo_not_err
        · intro h; exact absurd rfl h
  · exfalso
    obtain ⟨k, k1, k2, k3⟩ := hg
    have hq : sizeToPages s.fsb.gran = 2 ^ (k - 12) := by
      rw [k3]
      have : 2 ^ k = 2 ^ (k - 12) * 4096 := by rw [show (4096 : Nat) = 2 ^ 12 by decide, ← Nat.pow_add]; congr 1; omega
      rw [this]
      have hh : (2 ^ (k - 12) * 4096) % 4096 = 0 := Nat.mul_mod_left _ _
      have := sizeToPages_mul (len := 2 ^ (k - 12) * 4096) hh
      omega
    obtain ⟨r, r1, r2⟩ := (Base.alignUp_spec 64 pages (sizeToPages s.fsb.gran) (by omega)).1 ⟨k - 12, hq⟩
    have hr64 : r < 2 ^ 64 := by
      have hle := roundUp_le (by rw [hq]; exact Nat.two_pow_pos _) r1
      have : 2 ^ (k - 12) ≤ 2 ^ 20 := Nat.pow_le_pow_right (by omega) (by omega)
      rw [hq] at hle
      omega
    rw [if_pos hr64, hru] at r2
    cases r2
  · exfalso
    obtain ⟨k, k1, k2, k3⟩ := hg
    unfold Base.alignUp at hru
    simp only at hru
    split at hru
    · cases hru
    · split at hru
      · cases hru
      · split at hru <;> cases hru

/-- The first entry of a type counts: if the GCD finds the pages for it when it is its turn, and lets go of them again, the range is reserved for the type, with the
pages this entry asks for, and is still so at the end. -/
theorem first_counts (hE : EnvOk E) (hp : Possible E (w, h)) {rtGran : Nat} (hrt : GranOk rtGran) {hdl : Nat → Nat} (ha : Allocators rtGran hdl w) {dbg : Bool}
    {pre post : List Bucket} {b : Bucket} (hlt : ∀ c ∈ pre ++ b :: post, c.pages < 2 ^ 32) (h0 : ∀ f ∈ w.fsbs, f.reserved = none)
    (hb : b.pages ≠ 0) (hty : ¬ (14 ≤ b.type ∧ b.type ≤ 0x6FFFFFFF)) (hfirst : ∀ c ∈ pre, c.type = b.type → c.pages = 0)
    (hx : reserveBuckets E dbg rtGran hdl (pre ++ b :: post) w = some w') {w1 : World E.H} (hpre : reserveBuckets E dbg rtGran hdl pre w = some w1)
    {gran k n a : Nat} (hgr : (Persists b.type → gran = rtGran) ∧ (¬ Persists b.type → gran = 4096)) (hk : gran = 2 ^ k) (hn : Base.IsRoundUp b.pages (gran / 4096) n)
    {g1 g2 : Gcd} (hy : gcdAllocate E w1.gcd (.topDown none) k (n * 4096) (hdl b.type) = (.ok a, g1)) (hz : g1.freeSpace a (n * 4096) true = (.ok (), g2)) :
    ∃ f ∈ w'.fsbs, f.memType = b.type ∧ ∃ a', f.reserved = some (a', a' + n * 4096) := by
  obtain ⟨w1', e1, e2⟩ := buckets_split hx
  rw [hpre] at e1
  injection e1 with e1
  subst e1
  obtain ⟨⟨sp, s1, s2⟩, _, al, R, _⟩ := buckets_steps (A := (· ∈ pre)) hE hrt hp ha (fun c hc => ⟨hlt c (by simp [hc]), hc⟩) (none_reserved h0) hpre
  have hp1 := hp.steps s1
  unfold reserveBuckets at e2
  obtain ⟨w2, q1, q2⟩ := Option.bind_eq_some_iff.1 e2
  have q1' := q1
  unfold reserveBucket at q1
  rw [if_neg hb, if_neg hty] at q1
  rcases hg : w1.getOrCreate E rtGran b.type (hdl b.type) with ⟨i, w3⟩
  simp only [hg] at q1
  obtain ⟨t1, f, t2, t3, t4, t5⟩ := getOrCreate_found (h := ⟨h.grants, sp⟩) hg
  have a1 := getOrCreate_allocators al hg
  have hgf := grained_gran hrt a1.grained f (List.mem_of_getElem? t2)
  obtain ⟨u1, u2⟩ := a1.grained f (List.mem_of_getElem? t2)
  have hgran : f.gran = gran := by
    rw [t3] at u1 u2
    by_cases hP : Persists b.type
    · rw [u1 hP, hgr.1 hP]
    · rw [u2 hP, hgr.2 hP]
  have hres : f.reserved = none := by
    rcases getOrCreate_spec hg with ⟨rfl, _⟩ | ⟨_, ei, rfl⟩
    · cases hfr : f.reserved with
      | none => rfl
      | some p =>
        obtain ⟨c, _, c1, c2, c3, _⟩ := R i f t2 p.1 p.2 hfr
        exact absurd (hfirst c c1 (c2.trans t3)) c3
    · subst ei
      simp only [List.getElem?_concat_length, Option.some.injEq] at t2
      subst t2
      rfl
  simp only [t2] at q1
  obtain ⟨hnp, hw2⟩ := goOn_some q1
  simp only at hnp
  have hb32 := hlt b (by simp)
  have hok : (Machine.reserve E dbg (w3.machine f) b.pages).1 = .ok () := by
    refine reserve_made (s := w3.machine f) hgf hb32 (n := n) (a := a) (g1 := g1) (g2 := g2) (k := k) ?_ hres ?_ ?_ hz hnp
    · show Base.IsRoundUp b.pages (f.gran / 4096) n
      rw [hgran]; exact hn
    · exact hgran.trans hk
    · show gcdAllocate E w3.gcd (.topDown none) k (n * 4096) f.handle = _
      rw [t4, a1.handles.given f (List.mem_of_getElem? t2), t3]; exact hy
  have hp3 := hp1.steps t1
  obtain ⟨_, _, a', n', sp', n1, _, _, _, n5, _, _, _, _, n7, _⟩ := reserve_ok hE hp3 t2 hgf (by unfold W; omega) (reserve_fits hgf hb32)
    (s' := (Machine.reserve E dbg (w3.machine f) b.pages).2) (Prod.ext hok rfl)
  have hnn : n' = n := by
    rw [hgran] at n1
    exact Nat.le_antisymm (n1.2.2 n hn.1 hn.2.1) (hn.2.2 n' n1.1 n1.2.1)
  subst hnn
  have hput : w2.fsbs[i]? = some (Machine.reserve E dbg (w3.machine f) b.pages).2.fsb := by
    rw [hw2]; exact List.getElem?_set_self (List.getElem?_eq_some_iff.1 t2).1
  obtain ⟨f', c1, c2, _⟩ := steps_ident n7 t2
  have hfe : f' = (Machine.reserve E dbg (w3.machine f) b.pages).2.fsb := by
    have : (w3.put i (Machine.reserve E dbg (w3.machine f) b.pages).2).fsbs[i]? = some (Machine.reserve E dbg (w3.machine f) b.pages).2.fsb :=
      List.getElem?_set_self (List.getElem?_eq_some_iff.1 t2).1
    simp only at c1
    rw [this] at c1
    injection c1 with c1
    exact c1.symm
  have hstep := bucket_step (A := fun _ => True) hE hp1 hrt al hb32 trivial (fun j f hj a e hr => by
      obtain ⟨b, n, _, rest⟩ := R j f hj a e hr
      exact ⟨b, n, trivial, rest⟩) q1'
  obtain ⟨⟨sp2, v1, _⟩, _, al2, R2, _⟩ := hstep
  obtain ⟨_, _, _, _, S⟩ := buckets_steps (A := fun _ => True) hE hrt (hp1.steps v1) al2 (fun c hc => ⟨hlt c (by simp [hc]), trivial⟩) R2 q2
  obtain ⟨f2, z1, z2, z3⟩ := S i _ hput (by rw [n5]; simp)
  exact ⟨f2, List.mem_of_getElem? z1, by rw [z2, ← hfe, c2, t3], a', by rw [z3, n5]⟩

/-! ### A system -/

/-- 20 pages of runtime data, 3 of ACPI NVS, a second entry for runtime data, one for persistent memory and one without pages. -/
def someHobs : List InfoHob := [.other, .guid 7 [1], .guid 5 [6, 0, 0, 0, 20, 0, 0, 0, 10, 0, 0, 0, 3, 0, 0, 0, 6, 0, 0, 0, 1, 0, 0, 0, 14, 0, 0, 0, 9, 0, 0, 0, 2, 0, 0, 0, 0, 0, 0, 0, 1, 2],
  .guid 5 [4, 0, 0, 0, 1, 0, 0, 0]]

example : findInfo 5 someHobs = some [⟨6, 20⟩, ⟨10, 3⟩, ⟨6, 1⟩, ⟨14, 9⟩, ⟨2, 0⟩] := by decide

def bucketed : World demoEnv.H := (initBuckets demoEnv true 0x10000 useHdl 5 someHobs use0).getD use0

theorem bucketed_ok : initBuckets demoEnv true 0x10000 useHdl 5 someHobs use0 = some bucketed := by
  have h : (initBuckets demoEnv true 0x10000 useHdl 5 someHobs use0).isSome = true := by decide +kernel
  unfold bucketed
  obtain ⟨x, hx⟩ := Option.isSome_iff_exists.1 h
  rw [hx]; rfl

example : bucketed.fsbs.map (fun f => (f.memType, f.reserved.map fun r => (r.2 - r.1) / 4096)) = [(6, some 32), (10, some 16)] := by decide +kernel
example : ∀ f ∈ use0.fsbs, f.reserved = none := by decide +kernel

/-- Finding: a bucket of conventional memory is made although nobody can allocate of that type: the memory is set aside for nobody. -/
theorem conventional_bucket : (initBuckets demoEnv true 0x10000 useHdl 5 [.guid 5 [7, 0, 0, 0, 4, 0, 0, 0]] use0).map
    (fun w => w.fsbs.map (fun f => (f.memType, f.reserved.map fun r => (r.2 - r.1) / 4096))) = some [(7, some 4)] ∧
    ∀ (w : World demoEnv.H) (kind handle pages : Nat) (m al : Option Nat), coreAllocatePages demoEnv true 0x10000 w kind 7 handle pages m al = (.err .invalidParameter, w) := by
  refine ⟨by decide +kernel, fun w kind handle pages m al => ?_⟩
  unfold coreAllocatePages
  cases m <;> rfl

end Verif.Alloc
