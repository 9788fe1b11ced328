import Verif.Perf.Component
import Verif.Perf.LoggingProps
import Verif.Perf.ExchangeProps
/-!
What the performance component gives: the table that the operating system finds.
-/
namespace Verif.Perf.Component

open Exchange (Region Mm)

/-! ### A table that is published -/

theorem published_recs {t : Fbpt} {l : List Rec} (hi : Inv t l) {a : Nat} (h : t.ptr = some a) :
    t.recs = .published a (allBytes l).length ∧ Holds (t.mem a) l ∧ 56 + (allBytes l).length ≤ (t.mem a).length := by
  have hr := hi.recs
  cases ht : t.recs with
  | owned b => rw [ht] at hr; rw [hr.2.1] at h; cases h
  | published x used =>
    rw [ht] at hr
    obtain ⟨h1, h2, h3, h4, h5⟩ := hr
    rw [h1] at h
    cases h
    rw [h3] at h5 ⊢
    exact ⟨rfl, h4, h5⟩

theorem published_room {t : Fbpt} {l : List Rec} (hi : Inv t l) {a : Nat} (h : t.ptr = some a) {r : Rec} (hr : 56 + (allBytes l).length + r.size + 1 ≤ (t.mem a).length) : room t r = true := by
  unfold room
  rw [(published_recs hi h).1]
  dsimp only
  apply decide_eq_true
  have : EMPTY = 56 := rfl
  split <;> omega

theorem add_published {dbg : Bool} {t : Fbpt} {l : List Rec} (hi : Inv t l) {a : Nat} (h : t.ptr = some a) (r : Rec) :
    (t.add dbg r).1.ptr = some a ∧ ((t.add dbg r).1.mem a).length = (t.mem a).length := by
  obtain ⟨h1, h2, h3⟩ := published_recs hi h
  have hE : EMPTY = 56 := rfl
  have hset : ∀ (t' : Fbpt) v, t'.ptr = some a → 8 ≤ (t'.mem a).length → (t'.setLength v).ptr = some a ∧ ((t'.setLength v).mem a).length = (t'.mem a).length := by
    intro t' v hp hl
    unfold Fbpt.setLength
    rw [hp]
    dsimp only
    rw [putMem_same, splice_length (by rw [leBytes_length]; omega)]
    exact ⟨rfl, rfl⟩
  have hpush : ((pushPublished ((t.mem a).drop EMPTY) (allBytes l).length r).1.1).length = (t.mem a).length - 56 := by
    unfold pushPublished
    by_cases hf : (allBytes l).length + r.size + (if r.data = [] then 1 else 0) ≤ ((t.mem a).drop EMPTY).length
    · rw [writeInto_fit hf]
      dsimp only
      rw [splice_length (by rw [bytes_length]; omega), List.length_drop]
      rfl
    · obtain ⟨g1, g2, -⟩ := writeInto_unfit (b := (t.mem a).drop EMPTY) (off := (allBytes l).length) (r := r) (by omega)
      rcases hw : writeInto ((t.mem a).drop EMPTY) (allBytes l).length r with ⟨b', o⟩
      rw [hw] at g1 g2
      dsimp only at g1 g2
      subst g1
      dsimp only
      rw [g2, List.length_drop]
      rfl
  unfold Fbpt.add
  rw [h1]
  dsimp only
  rcases hp : pushPublished ((t.mem a).drop EMPTY) (allBytes l).length r with ⟨⟨b', u⟩, res⟩
  rw [hp] at hpush
  dsimp only at hpush
  have hlen : ((t.mem a).take EMPTY ++ b').length = (t.mem a).length := by rw [List.length_append, List.length_take, hpush]; omega
  cases res with
  | ok n =>
    dsimp only
    split
    · exact ⟨h, by show (putMem t.mem a _ a).length = _; rw [putMem_same]; exact hlen⟩
    · have := hset { t with recs := .published a u, mem := putMem t.mem a ((t.mem a).take EMPTY ++ b') } ((Fbpt.length { t with recs := .published a u, mem := putMem t.mem a ((t.mem a).take EMPTY ++ b') } + n) % 2 ^ 32) h
        (by show 8 ≤ (putMem t.mem a _ a).length; rw [putMem_same, hlen]; omega)
      refine ⟨this.1, this.2.trans ?_⟩
      show (putMem t.mem a _ a).length = _
      rw [putMem_same]
      exact hlen
  | err e => exact ⟨h, by show (putMem t.mem a _ a).length = _; rw [putMem_same]; exact hlen⟩
  | panic => exact ⟨h, rfl⟩

theorem measure_published {dbg : Bool} {t : Fbpt} {l : List Rec} (hi : Inv t l) {a : Nat} (h : t.ptr = some a) (loads : Nat) (c : Call) :
    (measure dbg t loads c).1.1.ptr = some a ∧ ((measure dbg t loads c).1.1.mem a).length = (t.mem a).length := by
  unfold measure
  cases perfId c with
  | none => exact ⟨h, rfl⟩
  | some id =>
    dsimp only
    rcases record loads id c with ⟨n, r⟩
    cases r with
    | none => exact ⟨h, rfl⟩
    | some r =>
      dsimp only
      have := add_published (dbg := dbg) hi h r
      rcases hadd : t.add dbg r with ⟨t', res⟩
      rw [hadd] at this
      cases res with
      | ok _ => exact this
      | err x => cases x <;> exact this
      | panic => exact this

theorem run_published {dbg : Bool} {e : Env} {p p' : Perf} {l : List Rec} (hi : Inv p.table l) {a : Nat} (h : p.table.ptr = some a) {f : Fn} (hr : f.run dbg e p = some p') :
    p'.table.ptr = some a ∧ (p'.table.mem a).length = (p.table.mem a).length := by
  unfold Fn.run at hr
  rw [made_calls] at hr
  by_cases he : f.Enabled e.mask
  · rw [if_pos he] at hr
    split at hr
    · cases hr
    · next hm =>
      split at hm
      · cases hm
      · cases hm
        unfold measureAll at hr
        have := measure_published (dbg := dbg) hi h p.loads (f.sent.call e)
        dsimp only at hr
        rcases hme : measure dbg p.table p.loads (f.sent.call e) with ⟨⟨t, n⟩, st⟩
        rw [hme] at hr this
        cases st with
        | none => cases hr
        | some st => cases hr; exact this
  · rw [if_neg he] at hr
    cases hr
    exact ⟨h, rfl⟩

theorem expected_extends (l : List Rec) (n : Nat) (fs : List (Env × Fn)) : ∃ m, (expected l n fs).1 = l ++ m := by
  induction fs generalizing l n with
  | nil => exact ⟨[], by simp [expected]⟩
  | cons x fs ih =>
    obtain ⟨e, f⟩ := x
    unfold expected
    obtain ⟨m, hm⟩ := ih (l ++ if f.Enabled e.mask then (f.record e n).toList else []) (f.loaded e.mask n)
    exact ⟨(if f.Enabled e.mask then (f.record e n).toList else []) ++ m, by rw [hm, List.append_assoc]⟩

theorem expected_append (l : List Rec) (n : Nat) (fs gs : List (Env × Fn)) : expected l n (fs ++ gs) = expected (expected l n fs).1 (expected l n fs).2 gs := by
  induction fs generalizing l n with
  | nil => rfl
  | cons x fs ih =>
    obtain ⟨e, f⟩ := x
    show expected _ _ (fs ++ gs) = expected (expected _ _ fs).1 (expected _ _ fs).2 gs
    exact ih _ _

/-- After the table is published, it goes on to hold the records of the calls, as long as they fit. -/
theorem late_record {dbg : Bool} : ∀ (fs : List (Env × Fn)) (p : Perf) (l : List Rec) (a : Nat), Inv p.table l → p.table.ptr = some a → (∀ x ∈ fs, x.2.Plain ∧ x.2.Short) →
    56 + (allBytes (expected l p.loads fs).1).length < (p.table.mem a).length → (p.table.mem a).length + 255 < 2 ^ 32 →
    ∃ p', runAll dbg p fs = some p' ∧ Inv p'.table (expected l p.loads fs).1 ∧ p'.loads = (expected l p.loads fs).2 ∧ p'.table.ptr = some a ∧ (p'.table.mem a).length = (p.table.mem a).length := by
  intro fs
  induction fs with
  | nil => exact fun p l a hi hp _ _ _ => ⟨p, rfl, hi, rfl, hp, rfl⟩
  | cons x fs ih =>
    intro p l a hi hptr hf hz htop
    obtain ⟨e, f⟩ := x
    obtain ⟨hp, hs⟩ := hf (e, f) List.mem_cons_self
    have hle := (published_recs hi hptr).2.2
    obtain ⟨p', hrun, hl, hinv⟩ := function_records (dbg := dbg) (e := e) hi (by omega) hp hs
    obtain ⟨hptr', hlen'⟩ := run_published hi hptr hrun
    have hstep : expected l p.loads ((e, f) :: fs) = expected (l ++ if f.Enabled e.mask then (f.record e p.loads).toList else []) (f.loaded e.mask p.loads) fs := rfl
    obtain ⟨m, hm⟩ := expected_extends (l ++ if f.Enabled e.mask then (f.record e p.loads).toList else []) (f.loaded e.mask p.loads) fs
    have hsame : (if f.Enabled e.mask then ((f.record e p.loads).filter fun r => room p.table r).toList else []) = (if f.Enabled e.mask then (f.record e p.loads).toList else []) := by
      by_cases he : f.Enabled e.mask
      · rw [if_pos he, if_pos he]
        cases hr : f.record e p.loads with
        | none => rfl
        | some r =>
          rw [Option.filter_some_pos]
          apply published_room hi hptr
          rw [hstep, hm, if_pos he, hr] at hz
          have hb : (allBytes (l ++ (some r).toList ++ m)).length = (allBytes l).length + r.size + (allBytes m).length := by
            rw [allBytes_append, List.length_append]
            show (allBytes (l ++ [r])).length + _ = _
            rw [allBytes_one, List.length_append, bytes_length]
          rw [hb] at hz
          omega
      · rw [if_neg he, if_neg he]
    rw [hsame] at hinv
    rw [hstep] at hz ⊢
    obtain ⟨q, h1, h2, h3, h4, h5⟩ := ih p' _ a hinv hptr' (fun y hy => hf y (List.mem_cons_of_mem _ hy)) (by rw [hl, hlen']; exact hz) (by rw [hlen']; exact htop)
    rw [hl] at h2 h3
    refine ⟨q, ?_, h2, h3, h4, h5.trans hlen'⟩
    unfold runAll
    rw [hrun]
    exact h1

theorem allBytes_again (l : List Rec) : allBytes (l.map fun r => r.raw.again) = allBytes l := by
  induction l with
  | nil => rfl
  | cons r l ih =>
    show r.raw.again.bytes ++ allBytes (l.map fun r => r.raw.again) = r.bytes ++ allBytes l
    rw [ih, again_bytes]

/-- Records of the management mode are added to a published table, as long as they fit. -/
theorem late_fetched {dbg : Bool} : ∀ (rs : List Rec) (t : Fbpt) (l : List Rec) (a : Nat), Inv t l → t.ptr = some a → (∀ r ∈ rs, Fits r) →
    56 + (allBytes (l ++ rs)).length < (t.mem a).length → (t.mem a).length + 255 < 2 ^ 32 →
    ∃ t', t.addAll dbg (rs.map Rec.raw) = some t' ∧ Inv t' (l ++ rs.map fun r => r.raw.again) ∧ t'.ptr = some a ∧ (t'.mem a).length = (t.mem a).length := by
  intro rs
  induction rs with
  | nil => exact fun t l a hi hp _ _ _ => ⟨t, rfl, by simpa using hi, hp, rfl⟩
  | cons r rs ih =>
    intro t l a hi hptr hf hz htop
    have hr := hf r List.mem_cons_self
    have hsz : r.raw.again.size = r.size := rfl
    have hb : (allBytes (l ++ r :: rs)).length = (allBytes l).length + r.size + (allBytes rs).length := by
      rw [allBytes_append, List.length_append]
      show _ + (r.bytes ++ allBytes rs).length = _
      rw [List.length_append, bytes_length]; omega
    rw [hb] at hz
    have hroom : room t r.raw.again = true := published_room hi hptr (by rw [hsz]; omega)
    obtain ⟨h1, h2, h3⟩ := add_inv (dbg := dbg) hi (r := r.raw.again) ⟨again_fits hr, by rw [hsz]; omega⟩
    rw [hroom, if_pos rfl] at h1 h2
    obtain ⟨h4, h5⟩ := add_published (dbg := dbg) hi hptr r.raw.again
    rcases hadd : t.add dbg r.raw.again with ⟨t1, res⟩
    rw [hadd] at h1 h2 h4 h5
    dsimp only at h1 h2 h4 h5
    subst h2
    have hb1 : (allBytes ((l ++ [r.raw.again]) ++ rs)).length = (allBytes l).length + r.size + (allBytes rs).length := by
      rw [allBytes_append, allBytes_one, List.length_append, List.length_append, bytes_length, hsz]
    obtain ⟨t', g1, g2, g3, g4⟩ := ih t1 _ a h1 h4 (fun x hx => hf x (List.mem_cons_of_mem _ hx)) (by rw [hb1, h5]; exact hz) (by rw [h5]; exact htop)
    refine ⟨t', ?_, by rw [List.append_assoc] at g2; exact g2, g3, g4.trans h5⟩
    show t.addAll dbg (r.raw :: rs.map Rec.raw) = _
    unfold Fbpt.addAll
    rw [hadd]
    exact g1

/-! ### The stages of the boot -/

/-- The calls with the mask of the configuration. -/
def masked (mask : Nat) (fs : List (Env × Fn)) : List (Env × Fn) := fs.map fun x => ({ x.1 with mask := mask }, x.2)

theorem calls_run {dbg : Bool} (fs : List (Env × Fn)) (s : Boot) (h : s.ready = true) : calls dbg s fs = (runAll dbg s.perf (masked s.mask fs)).map fun p => { s with perf := p } := by
  induction fs generalizing s with
  | nil => rfl
  | cons x fs ih =>
    obtain ⟨e, f⟩ := x
    show (match call dbg e f s with | none => none | some s => calls dbg s fs) = _
    unfold call
    dsimp only
    rw [if_pos h]
    show _ = (match f.run dbg { e with mask := s.mask } s.perf with | none => none | some p => runAll dbg p (masked s.mask fs)).map fun p => { s with perf := p }
    cases f.run dbg { e with mask := s.mask } s.perf with
    | none => rfl
    | some p => exact ih { s with perf := p } h

theorem masked_plain {mask : Nat} {fs : List (Env × Fn)} (h : ∀ x ∈ fs, x.2.Plain ∧ x.2.Short) : ∀ x ∈ masked mask fs, x.2.Plain ∧ x.2.Short := by
  intro x hx
  obtain ⟨y, hy, rfl⟩ := List.mem_map.1 hx
  exact h y hy

/-- The effects of an entry point that went well. -/
def registered (r : Option Region) : List Effect := [.endOfDxe, .protocol] ++ (r.map Effect.readyToBoot).toList ++ [.property]

/-- The component, enabled, with what it needs: it registers its events, the protocol and the property, and takes over the records from before. -/
theorem entry_registers {dbg : Bool} (mem : Nat → Bytes) {c : Config} (hc : c.enabled = true) (services : Nat) {hobs : List (Nat × List Rec)} (hf : ∀ h ∈ hobs, ∀ r ∈ h.2, Fits r)
    (hn : (hobs.map Prod.fst).sum < 2 ^ 32) (hz : 56 + (allBytes (hobs.flatMap Prod.snd)).length < 2 ^ 32) {regions : Option (List Region)} {region : Option Region}
    (hr : (regions = none ∧ region = none) ∨ ∃ rs, regions = some rs ∧ rs.find? Region.user = region ∧ region.isSome) :
    ∃ s, entry dbg c services (some (hobs.map fun h => (h.1, allBytes h.2))) regions ⟨none, none, none, none⟩ (Boot.init mem) = some (s, none) ∧
      s.ready = true ∧ s.mask = c.mask ∧ s.effects = registered region ∧ Inv s.perf.table (hobs.flatMap Prod.snd) ∧ s.perf.loads = (hobs.map Prod.fst).sum ∧
      (s.perf.table.ptr = none ∧ ∃ b, s.perf.table.recs = .owned b) ∧ s.perf.table.mem = mem := by
  have hall : ∀ r ∈ hobs.flatMap Prod.snd, Fits r := fun r hr => by
    obtain ⟨h, hh, hm⟩ := List.mem_flatMap.1 hr
    exact hf h hh r hm
  have hm := merge_all dbg hf (n := 0) [] (by rw [Nat.zero_add]; exact hn)
  rw [Nat.zero_add, List.nil_append] at hm
  have hd : hobData dbg (hobs.map fun h => (h.1, allBytes h.2)) = some ((hobs.map Prod.fst).sum, allBytes (hobs.flatMap Prod.snd)) := by unfold hobData; rw [hm]
  have hinv : Inv ((Fbpt.new mem).setRecords (allBytes (hobs.flatMap Prod.snd))) (hobs.flatMap Prod.snd) := set_inv (t := Fbpt.new mem) (l := []) ⟨rfl, hall, hz⟩
  have hin : ∀ s : Boot, s.perf = ⟨Fbpt.new mem, 0, 0⟩ → s.effects = [] → ∃ s', inner dbg (some (hobs.map fun h => (h.1, allBytes h.2))) region ⟨none, none, none, none⟩ s = some (s', none) ∧
      s'.static = s.static ∧ s'.mask = s.mask ∧ s'.effects = registered region ∧ s'.perf = ⟨(Fbpt.new mem).setRecords (allBytes (hobs.flatMap Prod.snd)), (hobs.map Prod.fst).sum, 0⟩ := by
    intro s hp he
    unfold inner
    dsimp only
    rw [hd]
    dsimp only
    cases region with
    | none => exact ⟨_, rfl, rfl, rfl, by dsimp only; rw [he]; rfl, by dsimp only; rw [hp]⟩
    | some r => exact ⟨_, rfl, rfl, rfl, by dsimp only; rw [he]; rfl, by dsimp only; rw [hp]⟩
  obtain ⟨s', h1, h2, h3, h4, h5⟩ := hin ⟨⟨false, some services, some services⟩, c.mask, ⟨Fbpt.new mem, 0, 0⟩, [], none, none⟩ rfl rfl
  refine ⟨s', ?_, ?_, h3, h4, by rw [h5]; exact hinv, by rw [h5], by rw [h5]; exact ⟨rfl, _, rfl⟩, by rw [h5]; rfl⟩
  · unfold entry
    rw [hc, if_neg (by simp)]
    show (if ¬ Boot.ready ⟨⟨false, some services, some services⟩, c.mask, ⟨Fbpt.new mem, 0, 0⟩, [], none, none⟩ = true then _ else _) = _
    rw [if_neg (by simp [Boot.ready, Static.alone, Static.advance, Static.Job.pc])]
    rcases hr with ⟨rfl, rfl⟩ | ⟨rs, rfl, hfind, hsome⟩
    · exact h1
    · dsimp only
      rw [hfind]
      obtain ⟨r, rfl⟩ := Option.isSome_iff_exists.1 hsome
      exact h1
  · unfold Boot.ready
    rw [h2]
    rfl

/-! ### Memory before the table is published -/

theorem add_mem (dbg : Bool) (t : Fbpt) (r : Rec) (h : t.ptr = none ∧ ∃ b, t.recs = .owned b) : (t.add dbg r).1.mem = t.mem := by
  obtain ⟨hp, b, hb⟩ := h
  unfold Fbpt.add
  rw [hb]
  dsimp only
  rcases pushOwned dbg b r with ⟨b', res⟩
  cases res with
  | ok n =>
    dsimp only
    split
    · rfl
    · unfold Fbpt.setLength
      dsimp only
      rw [hp]
  | err x => rfl
  | panic => rfl

theorem measure_mem (dbg : Bool) (t : Fbpt) (loads : Nat) (c : Call) (h : t.ptr = none ∧ ∃ b, t.recs = .owned b) : (measure dbg t loads c).1.1.mem = t.mem := by
  unfold measure
  cases perfId c with
  | none => rfl
  | some id =>
    dsimp only
    rcases record loads id c with ⟨n, r⟩
    cases r with
    | none => rfl
    | some r =>
      dsimp only
      have := add_mem dbg t r h
      rcases hadd : t.add dbg r with ⟨t', res⟩
      rw [hadd] at this
      cases res with
      | ok _ => exact this
      | err x => cases x <;> exact this
      | panic => exact this

theorem all_mem (dbg : Bool) (e : Env) : ∀ (ss : List Sent) (p p' : Perf), (p.table.ptr = none ∧ ∃ b, p.table.recs = .owned b) → measureAll dbg e p ss = some p' → p'.table.mem = p.table.mem := by
  intro ss
  induction ss with
  | nil => intro p p' h he; cases he; rfl
  | cons s ss ih =>
    intro p p' h he
    unfold measureAll at he
    have hm := measure_unpublished dbg p.table p.loads (s.call e) h
    have hk := measure_mem dbg p.table p.loads (s.call e) h
    rcases hme : measure dbg p.table p.loads (s.call e) with ⟨⟨t, n⟩, st⟩
    rw [hme] at he hm hk
    cases st with
    | none => simp at he
    | some st => exact (ih _ _ hm he).trans hk

theorem runAll_mem (dbg : Bool) : ∀ (fs : List (Env × Fn)) (p p' : Perf), (p.table.ptr = none ∧ ∃ b, p.table.recs = .owned b) → runAll dbg p fs = some p' → p'.table.mem = p.table.mem := by
  intro fs
  induction fs with
  | nil => intro p p' h he; cases he; rfl
  | cons x fs ih =>
    obtain ⟨e, f⟩ := x
    intro p p' h he
    unfold runAll at he
    cases hr : f.run dbg e p with
    | none => rw [hr] at he; cases he
    | some q =>
      rw [hr] at he
      unfold Fn.run at hr
      cases hm : f.made e.mask with
      | none => rw [hm] at hr; cases hr
      | some m =>
        rw [hm] at hr
        exact (ih _ _ (all_unpublished dbg e _ { p with leaked := p.leaked + m.2 } _ h hr) he).trans (all_mem dbg e _ { p with leaked := p.leaked + m.2 } _ h hr)

theorem report_length {dbg : Bool} {t t' : Fbpt} {a x : Nat} (h : t.report dbg (some a) = (t', .ok x)) : (t'.mem a).length = (t.mem a).length := by
  unfold Fbpt.report at h
  dsimp only at h
  have k1 := (writeAll_keeps (t.mem a) 0 [SIGNATURE, leBytes 4 (Fbpt.length { t with address := a })]).1
  rcases hw : writeAll (t.mem a) 0 [SIGNATURE, leBytes 4 (Fbpt.length { t with address := a })] with ⟨b, o⟩
  rw [hw] at h k1
  cases o with
  | none => cases h
  | some o =>
    dsimp only at h k1
    have k3 : (writeInto b o .boot).1.length = b.length := by
      by_cases hf : o + Rec.boot.size + (if Rec.boot.data = [] then 1 else 0) ≤ b.length
      · rw [writeInto_fit hf]
        exact splice_length (by rw [bytes_length]; omega)
      · exact (writeInto_unfit (by omega)).2.1
    rcases hw2 : writeInto b o .boot with ⟨c, n⟩
    rw [hw2] at h k3
    cases n with
    | none => cases h
    | some n =>
      dsimp only at h k3
      split at h
      · cases h
      · cases ht : t.recs with
        | published y u => rw [ht] at h; dsimp only at h; split at h <;> cases h
        | owned r =>
          rw [ht] at h
          dsimp only at h
          split at h
          · cases h
          · cases h
            dsimp only
            rw [putMem_same]
            simp only [List.length_append, List.length_take, List.length_drop]
            by_cases hn : o + n ≤ c.length <;> omega

/-! ### The whole boot -/

/-- Until the table is published, the calls are recorded in it; the rest of the state stays. -/
theorem calls_recorded {dbg : Bool} {s : Boot} (hr : s.ready = true) {l : List Rec} (hi : Inv s.perf.table l) (hu : s.perf.table.ptr = none ∧ ∃ b, s.perf.table.recs = .owned b)
    {fs : List (Env × Fn)} (hf : ∀ x ∈ fs, x.2.Plain ∧ x.2.Short) (hz : 56 + (allBytes l).length + 255 * (fs.length + 1) < 2 ^ 32) :
    ∃ p, calls dbg s fs = some { s with perf := p } ∧ Inv p.table (expected l s.perf.loads (masked s.mask fs)).1 ∧ p.loads = (expected l s.perf.loads (masked s.mask fs)).2 ∧
      (p.table.ptr = none ∧ ∃ b, p.table.recs = .owned b) ∧ p.table.mem = s.perf.table.mem := by
  obtain ⟨p, h1, h2, h3, h4⟩ := functions_record (dbg := dbg) (masked s.mask fs) s.perf l hi hu (masked_plain hf) (by unfold masked; rw [List.length_map]; exact hz)
  exact ⟨p, by rw [calls_run fs s hr, h1]; rfl, h2, h3, h4, runAll_mem dbg _ _ _ hu h1⟩

/-- At the end of DXE the table is published: the operating system finds it in the configuration table. -/
theorem table_published {dbg : Bool} {s : Boot} (he : Effect.endOfDxe ∈ s.effects) {l : List Rec} (hi : Inv s.perf.table l) (hu : s.perf.table.ptr = none) {a : Nat}
    (ha : (s.perf.table.mem a).length = pagesFor (allBytes l).length * 0x1000) (c : Bool) :
    ∃ t, endOfDxe dbg (some a) (some c) true s = some { s with perf := { s.perf with table := t }, reported := if c then some a else s.reported, published := some a } ∧
      Inv t l ∧ t.ptr = some a ∧ (t.mem a).length = pagesFor (allBytes l).length * 0x1000 := by
  have hp : Proper s.perf.table l (.report (some a)) := ⟨hu, fun x hx => by cases hx; exact ha⟩
  obtain ⟨h1, h2, h3⟩ := report_inv (dbg := dbg) hi hp
  rcases hrep : s.perf.table.report dbg (some a) with ⟨t, res⟩
  rw [hrep] at h1 h2 h3
  dsimp only at h1 h2 h3
  subst h2
  refine ⟨t, ?_, h1, h3 a rfl, (report_length hrep).trans ha⟩
  unfold endOfDxe
  rw [if_neg (by simpa using he), hrep]
  rfl

/-- After that the calls are recorded in the published table, while the memory lasts. -/
theorem late_recorded {dbg : Bool} {s : Boot} (hr : s.ready = true) {l : List Rec} (hi : Inv s.perf.table l) {a : Nat} (hp : s.perf.table.ptr = some a) {fs : List (Env × Fn)}
    (hf : ∀ x ∈ fs, x.2.Plain ∧ x.2.Short) (hz : 56 + (allBytes (expected l s.perf.loads (masked s.mask fs)).1).length < (s.perf.table.mem a).length) (htop : (s.perf.table.mem a).length + 255 < 2 ^ 32) :
    ∃ p, calls dbg s fs = some { s with perf := p } ∧ Inv p.table (expected l s.perf.loads (masked s.mask fs)).1 ∧ p.loads = (expected l s.perf.loads (masked s.mask fs)).2 ∧
      p.table.ptr = some a ∧ (p.table.mem a).length = (s.perf.table.mem a).length := by
  obtain ⟨p, h1, h2, h3, h4, h5⟩ := late_record (dbg := dbg) (masked s.mask fs) s.perf l a hi hp (masked_plain hf) hz htop
  exact ⟨p, by rw [calls_run fs s hr, h1]; rfl, h2, h3, h4, h5⟩

/-- At ready to boot the records of the management mode are added to the published table, while the memory lasts. -/
theorem fetched_late {dbg : Bool} {s : Boot} {r : Region} (hreg : s.region = some r) (ha : r.address ≠ 0) (hpg : r.pages ≠ 0) {mm : Mm} {rs : List Rec} (h : Exchange.Serves mm (allBytes rs))
    (m : mm.State) {b : Bytes} (hb : 0x1000 ≤ b.length) {l : List Rec} (hi : Inv s.perf.table l) {a : Nat} (hp : s.perf.table.ptr = some a) (hf : ∀ r ∈ rs, Fits r)
    (hz : 56 + (allBytes (l ++ rs)).length < (s.perf.table.mem a).length) (htop : (s.perf.table.mem a).length + 255 < 2 ^ 32) :
    ∃ t, readyToBoot dbg (some ⟨mm, m⟩) ((allBytes rs).length + 1) b s = some (some { s with perf := { s.perf with table := t } }) ∧ Inv t (l ++ rs.map fun r => r.raw.again) ∧ t.ptr = some a := by
  obtain ⟨t, h1, h2, h3, -⟩ := late_fetched (dbg := dbg) rs s.perf.table l a hi hp hf hz htop
  refine ⟨t, ?_, h2, h3⟩
  unfold readyToBoot
  rw [hreg]
  dsimp only
  unfold Exchange.fetchAndAdd
  dsimp only
  rw [Exchange.fetches_all h ha hpg (by rw [allBytes_append, List.length_append] at hz; omega) m hb]
  dsimp only
  rw [iter_records hf]
  show some ((s.perf.table.addAll dbg (rs.map Rec.raw)).map _) = _
  rw [h1]
  rfl

/-- The whole boot. The table of the operating system begins with the records from before, has the record of every call enabled from the start of the component to ready to boot, in order, and ends
with those of the management mode, if what came after the end of DXE fits in the 64 KiB set aside for it. -/
theorem boot_publishes {dbg : Bool} {mem : Nat → Bytes} {c : Config} (hc : c.enabled = true) (services : Nat)
    {hobs : List (Nat × List Rec)} (hf : ∀ h ∈ hobs, ∀ r ∈ h.2, Fits r) (hn : (hobs.map Prod.fst).sum < 2 ^ 32)
    {regions : List Region} {r : Region} (hr : regions.find? Region.user = some r) (hra : r.address ≠ 0) (hrp : r.pages ≠ 0)
    {early late : List (Env × Fn)} (he : ∀ x ∈ early ++ late, x.2.Plain ∧ x.2.Short) (hz : 56 + (allBytes (hobs.flatMap Prod.snd)).length + 255 * (early.length + 1) + 0x20000 < 2 ^ 32)
    {mm : Mm} (m : mm.State) {rs : List Rec} (hs : Exchange.Serves mm (allBytes rs)) (hrs : ∀ r ∈ rs, Fits r) {b : Bytes} (hb : 0x1000 ≤ b.length)
    {a : Nat} (ha : (mem a).length = pagesFor (allBytes (expected (hobs.flatMap Prod.snd) (hobs.map Prod.fst).sum (masked c.mask early)).1).length * 0x1000)
    (hl : (allBytes ((expected (hobs.flatMap Prod.snd) (hobs.map Prod.fst).sum (masked c.mask (early ++ late))).1 ++ rs)).length <
      (allBytes (expected (hobs.flatMap Prod.snd) (hobs.map Prod.fst).sum (masked c.mask early)).1).length + 0x10000) (code : Bool) :
    ∃ s1 s2 s3 s4 s5,
      entry dbg c services (some (hobs.map fun h => (h.1, allBytes h.2))) (some regions) ⟨none, none, none, none⟩ (Boot.init mem) = some (s1, none) ∧
      calls dbg s1 early = some s2 ∧ endOfDxe dbg (some a) (some code) true s2 = some s3 ∧ calls dbg s3 late = some s4 ∧
      readyToBoot dbg (some ⟨mm, m⟩) ((allBytes rs).length + 1) b s4 = some (some s5) ∧
      s5.published = some a ∧ s5.perf.table.ptr = some a ∧
      Holds (s5.perf.table.mem a) ((expected (hobs.flatMap Prod.snd) (hobs.map Prod.fst).sum (masked c.mask (early ++ late))).1 ++ rs.map fun r => r.raw.again) := by
  obtain ⟨s1, e1, e2, e3, e4, e5, e6, e7, e8⟩ := entry_registers (dbg := dbg) mem hc services hf hn (by omega) (regions := some regions) (region := some r) (.inr ⟨regions, rfl, hr, rfl⟩)
  obtain ⟨p2, f1, f2, f3, f4, f5⟩ := calls_recorded (dbg := dbg) e2 e5 e7 (fs := early) (fun x hx => he x (List.mem_append_left _ hx)) (Nat.lt_of_le_of_lt (Nat.le_add_right _ _) hz)
  rw [e6, e3] at f2 f3
  have hap : masked c.mask (early ++ late) = masked c.mask early ++ masked c.mask late := by unfold masked; rw [List.map_append]
  rw [hap, expected_append] at hl ⊢
  generalize hE : expected (hobs.flatMap Prod.snd) (hobs.map Prod.fst).sum (masked c.mask early) = E at *
  obtain ⟨t3, g1, g2, g3, g4⟩ := table_published (dbg := dbg) (s := { s1 with perf := p2 }) (by show _ ∈ s1.effects; rw [e4]; simp [registered]) f2 f4.1 (a := a) (by show (p2.table.mem a).length = _; rw [f5, e8]; exact ha) code
  have hsmall : (allBytes E.1).length ≤ (allBytes (hobs.flatMap Prod.snd)).length + 255 * early.length := by
    rw [← hE]
    have : ∀ (fs : List (Env × Fn)) (l : List Rec) (n : Nat), (∀ x ∈ fs, x.2.Plain ∧ x.2.Short) → (allBytes (expected l n fs).1).length ≤ (allBytes l).length + 255 * fs.length := by
      intro fs
      induction fs with
      | nil => exact fun l n _ => Nat.le_refl _
      | cons x fs ih =>
        intro l n hx
        obtain ⟨e, f⟩ := x
        have := ih (l ++ if f.Enabled e.mask then (f.record e n).toList else []) (f.loaded e.mask n) (fun y hy => hx y (List.mem_cons_of_mem _ hy))
        have hadd : (allBytes (l ++ if f.Enabled e.mask then (f.record e n).toList else [])).length ≤ (allBytes l).length + 255 := by
          rw [allBytes_append, List.length_append]
          split
          · cases hrec : f.record e n with
            | none => exact Nat.add_le_add_left (Nat.zero_le _) _
            | some q =>
              have hq := record_size (hx (e, f) List.mem_cons_self).1 (hx (e, f) List.mem_cons_self).2 hrec
              show _ + (q.bytes ++ []).length ≤ _
              rw [List.append_nil, bytes_length]; omega
          · exact Nat.add_le_add_left (Nat.zero_le _) _
        show (allBytes (expected _ _ fs).1).length ≤ _
        rw [List.length_cons, Nat.mul_add]
        omega
    have := this (masked c.mask early) (hobs.flatMap Prod.snd) (hobs.map Prod.fst).sum (masked_plain fun x hx => he x (List.mem_append_left _ hx))
    rw [show (masked c.mask early).length = early.length from List.length_map ..] at this
    exact this
  have hmemlen : 56 + (allBytes E.1).length + 0x10000 ≤ pagesFor (allBytes E.1).length * 0x1000 ∧ pagesFor (allBytes E.1).length * 0x1000 ≤ 56 + (allBytes E.1).length + 0x11000 := by
    unfold pagesFor
    have : EMPTY = 56 := rfl
    omega
  rw [allBytes_append, List.length_append] at hl
  obtain ⟨p4, k1, k2, k3, k4, k5⟩ := late_recorded (dbg := dbg) (s := { s1 with perf := { p2 with table := t3 }, reported := if code then some a else s1.reported, published := some a }) e2 g2 g3 (fs := late)
    (fun x hx => he x (List.mem_append_right _ hx)) (by show 56 + (allBytes (expected E.1 p2.loads (masked s1.mask late)).1).length < (t3.mem a).length; rw [f3, e3, g4]; omega) (by show (t3.mem a).length + 255 < _; rw [g4]; omega)
  change Inv p4.table (expected E.1 p2.loads (masked s1.mask late)).1 at k2
  change (p4.table.mem a).length = (t3.mem a).length at k5
  rw [f3, e3] at k2
  obtain ⟨t5, l1, l2, l3⟩ := fetched_late (dbg := dbg) (s := { s1 with perf := p4, reported := if code then some a else s1.reported, published := some a }) (r := r)
    (by show s1.effects.findSome? _ = _; rw [e4]; rfl) hra hrp hs m hb k2 k4 hrs (by show _ < (p4.table.mem a).length; rw [k5, g4, allBytes_append, List.length_append]; omega) (by show (p4.table.mem a).length + 255 < _; rw [k5, g4]; omega)
  exact ⟨s1, _, _, _, _, e1, f1, g1, k1, l1, rfl, l3, (published_recs l2 l3).2.1⟩

/-- The hypotheses are met: a record from before, seven calls on each side of the end of DXE, and two records from the management mode. -/
example (zeros buffer : Bytes) (hz : zeros.length = 17 * 0x1000) (hb : buffer.length = 0x4000) : ∃ s1 s2 s3 s4 s5,
    entry true ⟨true, 0b01011⟩ 7 (some [(4, allBytes [someRec])]) (some [⟨0, 0x1000, 1⟩, ⟨1, 0x2000, 4⟩]) ⟨none, none, none, none⟩ (Boot.init fun _ => zeros) = some (s1, none) ∧
    calls true s1 someCalls = some s2 ∧ endOfDxe true (some 0x5000) (some true) true s2 = some s3 ∧ calls true s3 someCalls = some s4 ∧
    readyToBoot true (some ⟨Exchange.someMm (allBytes [someRec, .guid 1 0 5 77]), ()⟩) ((allBytes [someRec, .guid 1 0 5 77]).length + 1) buffer s4 = some (some s5) ∧
    s5.published = some 0x5000 ∧ s5.perf.table.ptr = some 0x5000 ∧
    Holds (s5.perf.table.mem 0x5000) ((expected [someRec] 4 (masked 0b01011 (someCalls ++ someCalls))).1 ++ [someRec.raw.again, (Rec.guid 1 0 5 77).raw.again]) :=
  boot_publishes (mem := fun _ => zeros) (a := 0x5000) (b := buffer) (c := ⟨true, 0b01011⟩) rfl 7 (hobs := [(4, [someRec])]) (fun h hh r hr => by rw [List.mem_singleton.1 hh] at hr; rw [List.mem_singleton.1 hr]; exact ⟨by decide, by decide, by decide⟩) (by decide +kernel) (regions := [⟨0, 0x1000, 1⟩, ⟨1, 0x2000, 4⟩]) (r := ⟨1, 0x2000, 4⟩) (by decide +kernel) (by decide) (by decide)
    (early := someCalls) (late := someCalls) (fun x hx => (List.mem_append.1 hx).elim (some_plain x) (some_plain x)) (by decide +kernel) () (Exchange.some_serves _ (by decide +kernel))
    (fun r hr => by rcases List.mem_cons.1 hr with rfl | hr; exact ⟨by decide, by decide, by decide⟩; rw [List.mem_singleton.1 hr]; exact ⟨by decide, by decide, by decide⟩)
    (by rw [hb]; omega) (by rw [hz]; decide +kernel) (by decide +kernel) true

/-! ### When it does not go well -/

/-- Disabled, the component does nothing. -/
theorem disabled_silent (dbg : Bool) {c : Config} (h : c.enabled = false) (services : Nat) (hobs : Option (List (Nat × Bytes))) (regions : Option (List Region)) (a : Answers) (s : Boot) :
    entry dbg c services hobs regions a s = some (s, none) := by unfold entry; rw [h]; rfl

/-- Calls before the component are not recorded: they succeed, and only lose memory. -/
theorem early_ignored {dbg : Bool} {e : Env} {f : Fn} {s s' : Boot} (hs : s.static = .uninit) (h : call dbg e f s = some s') :
    s'.perf.table = s.perf.table ∧ s'.perf.loads = s.perf.loads ∧ s'.static = s.static ∧ s'.effects = s.effects := by
  have hr : s.ready = false := by unfold Boot.ready; rw [hs]; rfl
  unfold call at h
  dsimp only at h
  rw [hr, if_neg (by decide)] at h
  cases hm : f.made s.mask with
  | none => rw [hm] at h; cases h
  | some m => rw [hm] at h; cases h; exact ⟨rfl, rfl, rfl, rfl⟩

/-- What was done when the entry point ends is the beginning of what should be, all of it exactly when there is no error, and the error is that of the first call refused. -/
theorem stops_at_first {dbg : Bool} {hobs : Option (List (Nat × Bytes))} {region : Option Region} {a : Answers} {s s' : Boot} {res : Option Nat} (h : inner dbg hobs region a s = some (s', res)) :
    ∃ done, s'.effects = s.effects ++ done ∧ done <+: registered region ∧ (res = none ↔ done = registered region) ∧
      res = (a.endEvent.or (a.protocol.or ((if region.isSome then a.readyEvent else none).or a.property))) := by
  obtain ⟨x1, x2, x3, x4⟩ := a
  unfold inner at h
  have none_case : ∀ q : Boot, q.effects = s.effects ++ [.endOfDxe] → inner dbg none region ⟨none, x2, x3, x4⟩ { q with effects := s.effects } = some (s', res) →
      ∃ done, s'.effects = s.effects ++ done ∧ done <+: registered region ∧ (res = none ↔ done = registered region) ∧ res = (x2.or ((if region.isSome then x3 else none).or x4)) := by
    intro q hq hh
    unfold inner at hh
    cases region with
    | none =>
      cases x2 <;> cases x4 <;> cases hh
      · exact ⟨[.endOfDxe, .protocol, .property], by simp, ⟨[], rfl⟩, by simp [registered], rfl⟩
      · exact ⟨[.endOfDxe, .protocol], by simp, ⟨_, rfl⟩, by simp [registered], rfl⟩
      · exact ⟨[.endOfDxe], by simp, ⟨_, rfl⟩, by simp [registered], rfl⟩
      · exact ⟨[.endOfDxe], by simp, ⟨_, rfl⟩, by simp [registered], rfl⟩
    | some r =>
      cases x2 with
      | some e => cases hh; exact ⟨[.endOfDxe], by simp, ⟨_, rfl⟩, by simp [registered], rfl⟩
      | none =>
        cases x3 with
        | some e => cases hh; exact ⟨[.endOfDxe, .protocol], by simp, ⟨_, rfl⟩, by simp [registered], rfl⟩
        | none =>
          cases x4 with
          | some e => cases hh; exact ⟨[.endOfDxe, .protocol, .readyToBoot r], by simp, ⟨_, rfl⟩, by simp [registered], rfl⟩
          | none => cases hh; exact ⟨[.endOfDxe, .protocol, .readyToBoot r, .property], by simp, ⟨[], rfl⟩, by simp [registered], rfl⟩
  cases x1 with
  | some e => cases h; exact ⟨[], by simp, by simp, by simp [registered], rfl⟩
  | none =>
    cases hobs with
    | none => exact none_case { s with effects := s.effects ++ [.endOfDxe] } rfl h
    | some hobs =>
      dsimp only at h
      cases hd : hobData dbg hobs with
      | none => rw [hd] at h; cases h
      | some x => rw [hd] at h; exact none_case { s with effects := s.effects ++ [.endOfDxe], perf := { s.perf with loads := x.1, table := s.perf.table.setRecords x.2 } } rfl h

/-! ### Findings -/

/-- When there are regions for the management mode but none for the user, the component succeeds with nothing registered, and the table is never published. -/
theorem no_region_silent (dbg : Bool) {c : Config} (hc : c.enabled = true) (mem : Nat → Bytes) (services : Nat) (hobs : Option (List (Nat × Bytes))) {regions : List Region} (h : regions.find? Region.user = none) (a : Answers) :
    ∃ s, entry dbg c services hobs (some regions) a (Boot.init mem) = some (s, none) ∧ s.ready = true ∧ s.effects = [] ∧
      ∀ dbg x code install fs s', calls dbg s fs = some s' → endOfDxe dbg x code install s' = some s' ∧ ∀ mm fuel b, readyToBoot dbg mm fuel b s' = some (some s') := by
  refine ⟨⟨⟨false, some services, some services⟩, c.mask, ⟨Fbpt.new mem, 0, 0⟩, [], none, none⟩, ?_, rfl, rfl, ?_⟩
  · unfold entry
    rw [hc, if_neg (by simp)]
    show (if ¬ Boot.ready ⟨⟨false, some services, some services⟩, c.mask, ⟨Fbpt.new mem, 0, 0⟩, [], none, none⟩ = true then _ else _) = _
    rw [if_neg (by simp [Boot.ready, Static.alone, Static.advance, Static.Job.pc])]
    dsimp only
    rw [h]
    rfl
  · intro dbg x code install fs s' hcalls
    rw [calls_run fs _ rfl] at hcalls
    cases hr : runAll dbg ⟨Fbpt.new mem, 0, 0⟩ (masked c.mask fs) with
    | none => rw [hr] at hcalls; cases hcalls
    | some p => rw [hr] at hcalls; cases hcalls; exact ⟨rfl, fun _ _ _ => rfl⟩

/-- A second dispatch of the component is aborted, and after it nothing is measured any more: every call succeeds without a record. -/
theorem second_entry_disables (dbg : Bool) {c : Config} (hc : c.enabled = true) (b services : Nat) (hobs : Option (List (Nat × Bytes))) (regions : Option (List Region)) (a : Answers) {s : Boot}
    (h : s.static = ⟨false, some b, some b⟩) :
    ∃ s', entry dbg c services hobs regions a s = some (s', some ABORTED) ∧ s'.ready = false ∧ ∀ e f s'', call dbg e f s' = some s'' → s''.perf.table = s.perf.table := by
  refine ⟨{ s with mask := c.mask, static := ⟨true, some b, some b⟩ }, ?_, rfl, ?_⟩
  · unfold entry
    rw [hc, h]
    rfl
  · intro e f s'' hcall
    unfold call at hcall
    dsimp only at hcall
    rw [if_neg (by simp [Boot.ready, Static.alone, Static.advance, Static.Job.pc])] at hcall
    cases hm : f.made c.mask with
    | none => rw [hm] at hcall; cases hcall
    | some m => rw [hm] at hcall; cases hcall; rfl

/-- Without the status code protocol the table is moved to its memory, but the operating system is not told where it is. -/
theorem no_status_code_hides {dbg : Bool} {s : Boot} (he : Effect.endOfDxe ∈ s.effects) {l : List Rec} (hi : Inv s.perf.table l) (hu : s.perf.table.ptr = none) {a : Nat}
    (ha : (s.perf.table.mem a).length = pagesFor (allBytes l).length * 0x1000) (install : Bool) :
    ∃ s', endOfDxe dbg (some a) none install s = some s' ∧ s'.perf.table.ptr = some a ∧ s'.published = s.published ∧ s'.reported = s.reported := by
  have hp : Proper s.perf.table l (.report (some a)) := ⟨hu, fun x hx => by cases hx; exact ha⟩
  obtain ⟨h1, h2, h3⟩ := report_inv (dbg := dbg) hi hp
  rcases hrep : s.perf.table.report dbg (some a) with ⟨t, res⟩
  rw [hrep] at h1 h2 h3
  dsimp only at h1 h2 h3
  subst h2
  refine ⟨{ s with perf := { s.perf with table := t } }, ?_, h3 a rfl, rfl, rfl⟩
  unfold endOfDxe
  rw [if_neg (by simpa using he), hrep]

end Verif.Perf.Component
