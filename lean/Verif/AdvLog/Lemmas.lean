import Verif.AdvLog.Model
namespace Verif.AdvLog

theorem le_align8 (x : Nat) : x ≤ align8 x := by unfold align8; omega

theorem size_ge (e : Entry) : headerSize + e.data.length ≤ e.size := le_align8 _

@[simp] theorem encodeHeader_length (e : Entry) : (encodeHeader e).length = headerSize := by
  simp [encodeHeader, headerSize]

@[simp] theorem encode_length (e : Entry) : (encode e).length = e.size := by
  have := size_ge e
  simp only [encode, List.length_append, encodeHeader_length, List.length_replicate]
  omega

/-- The entry a writer is working on. -/
def Pc.entry : Pc → Entry
  | .start e => e
  | .loop e _ => e
  | .writing e _ _ => e
  | .done e _ => e
  | .failed e => e

/-- Reserved region of a writer: offset and number of bytes already stored. -/
def Pc.region : Pc → Option (Nat × Nat)
  | .writing _ off k => some (off, k)
  | .done e off => some (off, e.size)
  | _ => none

/-- Bytes counted as lost by a writer. -/
def Pc.lost : Pc → Nat
  | .failed e => e.size
  | _ => 0

/-- `order` lists the writers owning consecutive regions from `a` to `b`. -/
def Chain (pcs : List Pc) : Nat → List Nat → Nat → Prop
  | a, [], b => a = b
  | a, t :: ts, b => ∃ pc k, pcs[t]? = some pc ∧ pc.region = some (a, k) ∧ Chain pcs (a + pc.entry.size) ts b

theorem Chain.le {pcs : List Pc} {order : List Nat} {a b : Nat} (h : Chain pcs a order b) : a ≤ b := by
  induction order generalizing a with
  | nil => exact Nat.le_of_eq h
  | cons t ts ih =>
    obtain ⟨pc, k, _, _, h'⟩ := h
    have := ih h'
    omega

theorem Chain.bounds {pcs : List Pc} {order : List Nat} {a b : Nat} (h : Chain pcs a order b)
    {t : Nat} (ht : t ∈ order) : ∃ pc off k, pcs[t]? = some pc ∧ pc.region = some (off, k) ∧
      a ≤ off ∧ off + pc.entry.size ≤ b := by
  induction order generalizing a with
  | nil => simp at ht
  | cons u ts ih =>
    obtain ⟨pc, k, hp, hr, h'⟩ := h
    rcases List.mem_cons.1 ht with rfl | ht
    · exact ⟨pc, a, k, hp, hr, Nat.le_refl _, h'.le⟩
    · obtain ⟨pc', off, k', h1, h2, h3, h4⟩ := ih h' ht
      exact ⟨pc', off, k', h1, h2, by omega, h4⟩

theorem Chain.disjoint {pcs : List Pc} {order : List Nat} {a b : Nat} (h : Chain pcs a order b)
    (_hn : order.Nodup) {t u : Nat} (ht : t ∈ order) (hu : u ∈ order) (hne : t ≠ u)
    {p q : Pc} {o1 k1 o2 k2 : Nat} (hp : pcs[t]? = some p) (hq : pcs[u]? = some q)
    (hr : p.region = some (o1, k1)) (hs : q.region = some (o2, k2)) :
    o1 + p.entry.size ≤ o2 ∨ o2 + q.entry.size ≤ o1 := by
  induction order generalizing a with
  | nil => simp at ht
  | cons v ts ih =>
    obtain ⟨pc, k, hpc, hreg, h'⟩ := h
    rw [List.nodup_cons] at _hn
    rcases List.mem_cons.1 ht with rfl | ht'
    · rcases List.mem_cons.1 hu with rfl | hu'
      · exact absurd rfl hne
      · left
        obtain ⟨pc', off, k', g1, g2, g3, _⟩ := h'.bounds hu'
        rw [hp] at hpc; cases hpc
        rw [hr] at hreg; cases hreg
        rw [hq] at g1; cases g1
        rw [hs] at g2; cases g2
        exact g3
    · rcases List.mem_cons.1 hu with rfl | hu'
      · right
        obtain ⟨pc', off, k', g1, g2, g3, _⟩ := h'.bounds ht'
        rw [hq] at hpc; cases hpc
        rw [hs] at hreg; cases hreg
        rw [hp] at g1; cases g1
        rw [hr] at g2; cases g2
        exact g3
      · exact ih h' _hn.2 ht' hu'

/-- A chain survives changes of writers outside it, and changes that keep entry and offset. -/
theorem Chain.congr {pcs pcs' : List Pc} {order : List Nat} {a b : Nat} (h : Chain pcs a order b)
    (hc : ∀ t ∈ order, ∀ pc, pcs[t]? = some pc → ∀ off k, pc.region = some (off, k) →
      ∃ pc' k', pcs'[t]? = some pc' ∧ pc'.region = some (off, k') ∧ pc'.entry = pc.entry) :
    Chain pcs' a order b := by
  induction order generalizing a with
  | nil => exact h
  | cons t ts ih =>
    obtain ⟨pc, k, hp, hr, h'⟩ := h
    obtain ⟨pc', k', hp', hr', he⟩ := hc t (by simp) pc hp a k hr
    refine ⟨pc', k', hp', hr', ?_⟩
    rw [he]
    exact ih h' (fun u hu => hc u (List.mem_cons_of_mem _ hu))

theorem Chain.snoc {pcs : List Pc} {order : List Nat} {a b : Nat} (h : Chain pcs a order b)
    {t : Nat} {pc : Pc} {k : Nat} (hp : pcs[t]? = some pc) (hr : pc.region = some (b, k)) :
    Chain pcs a (order ++ [t]) (b + pc.entry.size) := by
  induction order generalizing a with
  | nil =>
    have : a = b := h
    subst this
    exact ⟨pc, k, hp, hr, rfl⟩
  | cons u ts ih =>
    obtain ⟨pc', k', hp', hr', h'⟩ := h
    exact ⟨pc', k', hp', hr', ih h'⟩

/-- Invariant of all states reachable from `s0`. -/
structure Inv (s0 s : State) : Prop where
  off_eq : s.bufOffset = s0.bufOffset
  size_eq : s.bufSize = s0.bufSize
  cur_le : s.current ≤ s.full
  entries : s.pcs.map Pc.entry = s0.pcs.map Pc.entry
  chain : ∃ order : List Nat, order.Nodup ∧ Chain s.pcs s0.current order s.current ∧
    ∀ t, t ∈ order ↔ ∃ pc r, s.pcs[t]? = some pc ∧ pc.region = some r
  loops : ∀ (t : Nat) (e : Entry) (cur : Nat), s.pcs[t]? = some (.loop e cur) → cur ≤ s.current
  stored : ∀ (t : Nat) (pc : Pc) (off k : Nat), s.pcs[t]? = some pc → pc.region = some (off, k) →
    k ≤ pc.entry.size ∧ ∀ i (hi : i < (encode pc.entry).length), i < k → s.mem (off + i) = (encode pc.entry)[i]
  old : ∀ a, a < s0.current → s.mem a = s0.mem a
  lost : s.discarded = (s0.discarded + (s.pcs.map Pc.lost).sum) % 2 ^ 32

/-- Start states: no writer has taken a step, the log header is consistent, and no single message can
wrap the 32-bit offset. -/
structure Start (s : State) : Prop where
  cur_ge : s.bufOffset ≤ s.current
  cur_le : s.current ≤ s.full
  disc : s.discarded < 2 ^ 32
  fresh : ∀ pc ∈ s.pcs, ∃ e, pc = .start e
  fits : ∀ pc ∈ s.pcs, s.full + pc.entry.size < 2 ^ 32

theorem sum_lost_fresh (l : List Pc) (h : ∀ pc ∈ l, ∃ e, pc = .start e) : (l.map Pc.lost).sum = 0 := by
  induction l with
  | nil => rfl
  | cons a l ih =>
    obtain ⟨e, rfl⟩ := h a (by simp)
    simp [Pc.lost, ih (fun pc hp => h pc (List.mem_cons_of_mem _ hp))]

theorem Start.inv {s : State} (h : Start s) : Inv s s := by
  refine ⟨rfl, rfl, h.cur_le, rfl, ⟨[], List.nodup_nil, rfl, ?_⟩, ?_, ?_, fun _ _ => rfl, ?_⟩
  · intro t
    simp only [List.not_mem_nil, false_iff, not_exists, not_and]
    intro pc r hp
    obtain ⟨e, rfl⟩ := h.fresh pc (List.mem_of_getElem? hp)
    simp [Pc.region]
  · intro t e cur hp
    obtain ⟨e', he⟩ := h.fresh _ (List.mem_of_getElem? hp)
    cases he
  · intro t pc off k hp hr
    obtain ⟨e, rfl⟩ := h.fresh pc (List.mem_of_getElem? hp)
    simp [Pc.region] at hr
  · rw [sum_lost_fresh _ h.fresh]
    simp [Nat.mod_eq_of_lt h.disc]

theorem getElem?_set' {l : List Pc} {t u : Nat} {x y : Pc} (h : l[t]? = some y) :
    (l.set t x)[u]? = if u = t then some x else l[u]? := by
  have ht : t < l.length := by
    rw [List.getElem?_eq_some_iff] at h; exact h.1
  rw [List.getElem?_set]
  by_cases e : t = u
  · subst e; simp [ht]
  · simp [e, Ne.symm e]

theorem map_entry_set {l : List Pc} {t : Nat} {x y : Pc} (h : l[t]? = some y) (he : x.entry = y.entry) :
    (l.set t x).map Pc.entry = l.map Pc.entry := by
  apply List.ext_getElem?
  intro i
  rw [List.getElem?_map, List.getElem?_map, getElem?_set' h]
  split
  · rename_i hi; subst hi; simp [h, he]
  · rfl

theorem sum_lost_set {l : List Pc} {t : Nat} {x y : Pc} (h : l[t]? = some y) :
    ((l.set t x).map Pc.lost).sum + y.lost = (l.map Pc.lost).sum + x.lost := by
  induction l generalizing t with
  | nil => simp at h
  | cons a l ih =>
    cases t with
    | zero =>
      simp only [List.getElem?_cons_zero, Option.some.injEq] at h
      subst h
      simp
      omega
    | succ t =>
      simp only [List.getElem?_cons_succ] at h
      have := ih h
      simp only [List.set_cons_succ, List.map_cons, List.sum_cons]
      omega

theorem entry_mem {s0 s : State} (h : Inv s0 s) {t : Nat} {pc : Pc} (hp : s.pcs[t]? = some pc) :
    ∃ pc0 ∈ s0.pcs, pc0.entry = pc.entry := by
  have h1 : (s.pcs.map Pc.entry)[t]? = some pc.entry := by simp [hp]
  rw [h.entries, List.getElem?_map] at h1
  cases h2 : s0.pcs[t]? with
  | none => simp [h2] at h1
  | some pc0 => exact ⟨pc0, List.mem_of_getElem? h2, by simpa [h2] using h1⟩

theorem Inv.full_eq {s0 s : State} (h : Inv s0 s) : s.full = s0.full := by
  simp [State.full, h.off_eq, h.size_eq]

/-- A writer changing to a pc without region, from one without region. -/
theorem Inv.step_noregion {s0 s : State} (h : Inv s0 s) {t : Nat} {pc pc' : Pc}
    (hp : s.pcs[t]? = some pc) (hr : pc.region = none) (hr' : pc'.region = none)
    (he : pc'.entry = pc.entry) (hl : ∀ e cur, pc' = .loop e cur → cur ≤ s.current)
    {d : Nat} (hd : d = (s.discarded + (pc'.lost - pc.lost)) % 2 ^ 32) (hge : pc.lost ≤ pc'.lost)  :
    Inv s0 { s with discarded := d, pcs := s.pcs.set t pc' } := by
  obtain ⟨order, hn, hc, ho⟩ := h.chain
  have hto : t ∉ order := by
    rw [ho]; rintro ⟨q, r, hq, hqr⟩
    rw [hp] at hq; cases hq
    rw [hr] at hqr; cases hqr
  refine ⟨h.off_eq, h.size_eq, h.cur_le, ?_, ⟨order, hn, ?_, ?_⟩, ?_, ?_, h.old, ?_⟩
  · rw [← h.entries]; exact map_entry_set hp he
  · apply hc.congr
    intro u hu q hq off k hqr
    have : u ≠ t := fun e => hto (e ▸ hu)
    exact ⟨q, k, by simp [getElem?_set' hp, this, hq], hqr, rfl⟩
  · intro u
    rw [ho]
    simp only [getElem?_set' hp]
    by_cases e : u = t
    · subst e
      simp only [if_true, hp, Option.some.injEq]
      constructor
      · rintro ⟨q, r, rfl, hqr⟩; rw [hr] at hqr; cases hqr
      · rintro ⟨q, r, rfl, hqr⟩; rw [hr'] at hqr; cases hqr
    · simp [e]
  · intro u e cur hu
    simp only [getElem?_set' hp] at hu
    by_cases e' : u = t
    · subst e'; simp at hu; exact hl e cur hu
    · simp [e'] at hu; exact h.loops u e cur hu
  · intro u q off k hq hqr
    simp only [getElem?_set' hp] at hq
    by_cases e' : u = t
    · subst e'; simp at hq; subst hq; rw [hr'] at hqr; cases hqr
    · simp [e'] at hq; exact h.stored u q off k hq hqr
  · have hs := sum_lost_set (x := pc') hp
    show d = _
    have h1 := h.lost
    rw [hd, h1]
    have : (s0.discarded + ((s.pcs.set t pc').map Pc.lost).sum) =
        (s0.discarded + (s.pcs.map Pc.lost).sum) + (pc'.lost - pc.lost) := by omega
    rw [this, Nat.mod_add_mod]

theorem inv_step {s0 s : State} (hs : Start s0) (h : Inv s0 s) (t : Nat) : Inv s0 (step s t) := by
  unfold step
  cases hp : s.pcs[t]? with
  | none => exact h
  | some pc =>
    obtain ⟨pc0, hpc0, he0⟩ := entry_mem h hp
    have hfit := hs.fits pc0 hpc0
    rw [he0, ← h.full_eq] at hfit
    cases pc with
    | start e =>
      have := h.step_noregion (pc' := .loop e s.current) hp rfl rfl rfl
        (by intro e' cur hh; cases hh; exact Nat.le_refl _) (d := s.discarded)
        (by simp [Pc.lost]; have := h.lost; rw [this, Nat.mod_mod]) (by simp [Pc.lost])
      exact this
    | loop e cur =>
      have hcur := h.loops t e cur hp
      have hle := h.cur_le
      simp only [Pc.entry] at hfit
      have hadd : add32 cur e.size = cur + e.size := by
        unfold add32; exact Nat.mod_eq_of_lt (by omega)
      simp only [hadd]
      split
      · rename_i hroom
        split
        · rename_i heq
          obtain ⟨order, hn, hc, ho⟩ := h.chain
          have hto : t ∉ order := by
            rw [ho]; rintro ⟨q, r, hq, hqr⟩
            rw [hp] at hq; cases hq; cases hqr
          have hget : ∀ u, (s.pcs.set t (.writing e cur 0))[u]? = if u = t then some (.writing e cur 0) else s.pcs[u]? :=
            fun u => getElem?_set' hp
          have hc' : Chain (s.pcs.set t (.writing e cur 0)) s0.current order s.current := by
            apply hc.congr
            intro u hu q hq off k hqr
            have : u ≠ t := fun e => hto (e ▸ hu)
            exact ⟨q, k, by rw [hget]; simp [this, hq], hqr, rfl⟩
          refine ⟨h.off_eq, h.size_eq, ?_, ?_, ⟨order ++ [t], ?_, ?_, ?_⟩, ?_, ?_, h.old, ?_⟩
          · show cur + e.size ≤ s.full
            exact hroom
          · rw [← h.entries]; exact map_entry_set hp rfl
          · rw [List.nodup_append]
            refine ⟨hn, by simp, ?_⟩
            intro a ha b hb
            simp at hb; subst hb
            rintro rfl; exact hto ha
          · show Chain (s.pcs.set t (.writing e cur 0)) s0.current (order ++ [t]) (cur + e.size)
            have := hc'.snoc (t := t) (pc := .writing e cur 0) (k := 0) (by rw [hget]; simp) (by simp [Pc.region, heq])
            rw [heq] at this
            exact this
          · intro u
            simp only [List.mem_append, List.mem_singleton, hget, ho]
            by_cases e' : u = t
            · subst e'; simp [Pc.region]
            · simp [e']
          · intro u e1 c1 hu
            rw [hget] at hu
            by_cases e' : u = t
            · subst e'; simp at hu
            · simp [e'] at hu
              have := h.loops u e1 c1 hu
              show c1 ≤ cur + e.size
              omega
          · intro u q off k hq hqr
            rw [hget] at hq
            by_cases e' : u = t
            · subst e'; simp at hq; subst hq
              simp [Pc.region] at hqr
              obtain ⟨rfl, rfl⟩ := hqr
              simp
            · simp [e'] at hq; exact h.stored u q off k hq hqr
          · have := sum_lost_set (x := .writing e cur 0) hp
            simp only [Pc.lost, Nat.add_zero] at this
            show s.discarded = _
            rw [this]; exact h.lost
        · exact h.step_noregion (pc' := .loop e s.current) hp rfl rfl rfl
            (by intro e' cur hh; cases hh; exact Nat.le_refl _) (d := s.discarded)
            (by simp [Pc.lost]; have := h.lost; rw [this, Nat.mod_mod]) (by simp [Pc.lost])
      · exact h.step_noregion (pc' := .failed e) hp rfl rfl rfl (by intro e' cur hh; cases hh)
            (by simp [Pc.lost, add32]) (by simp [Pc.lost])
    | writing e off k =>
      obtain ⟨order, hn, hc, ho⟩ := h.chain
      have hto : t ∈ order := (ho t).2 ⟨_, _, hp, rfl⟩
      have hst := h.stored t _ off k hp rfl
      simp only [Pc.entry] at hst
      dsimp only
      split
      · rename_i hk
        have hget : ∀ u, (s.pcs.set t (.writing e off (k + 1)))[u]? = if u = t then some (.writing e off (k + 1)) else s.pcs[u]? :=
          fun u => getElem?_set' hp
        have hb : s0.current ≤ off ∧ off + e.size ≤ s.current := by
          obtain ⟨q, o, k', g1, g2, g3, g4⟩ := hc.bounds hto
          rw [hp] at g1; cases g1
          simp [Pc.region] at g2
          obtain ⟨rfl, rfl⟩ := g2
          exact ⟨g3, g4⟩
        refine ⟨h.off_eq, h.size_eq, h.cur_le, ?_, ⟨order, hn, ?_, ?_⟩, ?_, ?_, ?_, ?_⟩
        · rw [← h.entries]; exact map_entry_set hp rfl
        · apply hc.congr
          intro u hu q hq o k' hqr
          by_cases e' : u = t
          · subst e'
            rw [hp] at hq; cases hq
            simp [Pc.region] at hqr
            obtain ⟨rfl, rfl⟩ := hqr
            exact ⟨.writing e off (k + 1), k + 1, by rw [hget]; simp, rfl, rfl⟩
          · exact ⟨q, k', by rw [hget]; simp [e', hq], hqr, rfl⟩
        · intro u
          rw [ho]
          simp only [hget]
          by_cases e' : u = t
          · subst e'; simp [hp, Pc.region]
          · simp [e']
        · intro u e1 c1 hu
          rw [hget] at hu
          by_cases e' : u = t
          · subst e'; simp at hu
          · simp [e'] at hu; exact h.loops u e1 c1 hu
        · intro u q o k' hq hqr
          rw [hget] at hq
          by_cases e' : u = t
          · subst e'; simp at hq; subst hq
            simp [Pc.region] at hqr
            obtain ⟨rfl, rfl⟩ := hqr
            refine ⟨by simp [Pc.entry] at hk ⊢; omega, ?_⟩
            intro i hi hik
            show store s.mem (off + k) ((encode e)[k]) (off + i) = _
            unfold store
            by_cases hik' : i = k
            · subst hik'; simp [Pc.entry]
            · rw [if_neg (by omega)]
              exact hst.2 i hi (by omega)
          · simp [e'] at hq
            have hold := h.stored u q o k' hq hqr
            refine ⟨hold.1, ?_⟩
            intro i hi hik
            show store s.mem (off + k) ((encode e)[k]) (o + i) = _
            unfold store
            have hd := hc.disjoint hn ((ho u).2 ⟨q, _, hq, hqr⟩) hto e' hq hp hqr rfl
            simp only [Pc.entry] at hd
            simp only [encode_length] at hi hk
            rw [if_neg (by simp [Pc.entry] at hi; omega)]
            exact hold.2 i (by simpa using hi) hik
        · intro a ha
          show store s.mem (off + k) ((encode e)[k]) a = _
          unfold store
          rw [if_neg (by omega)]
          exact h.old a ha
        · have := sum_lost_set (x := .writing e off (k + 1)) hp
          simp only [Pc.lost, Nat.add_zero] at this
          show s.discarded = _
          rw [this]; exact h.lost
      · rename_i hk
        have hk' : k = e.size := by simp only [encode_length] at hk; omega
        have hget : ∀ u, (s.pcs.set t (.done e off))[u]? = if u = t then some (.done e off) else s.pcs[u]? :=
          fun u => getElem?_set' hp
        refine ⟨h.off_eq, h.size_eq, h.cur_le, ?_, ⟨order, hn, ?_, ?_⟩, ?_, ?_, h.old, ?_⟩
        · rw [← h.entries]; exact map_entry_set hp rfl
        · apply hc.congr
          intro u hu q hq o k' hqr
          by_cases e' : u = t
          · subst e'
            rw [hp] at hq; cases hq
            simp [Pc.region] at hqr
            obtain ⟨rfl, rfl⟩ := hqr
            exact ⟨.done e off, e.size, by rw [hget]; simp, rfl, rfl⟩
          · exact ⟨q, k', by rw [hget]; simp [e', hq], hqr, rfl⟩
        · intro u
          rw [ho]
          simp only [hget]
          by_cases e' : u = t
          · subst e'; simp [hp, Pc.region]
          · simp [e']
        · intro u e1 c1 hu
          rw [hget] at hu
          by_cases e' : u = t
          · subst e'; simp at hu
          · simp [e'] at hu; exact h.loops u e1 c1 hu
        · intro u q o k' hq hqr
          rw [hget] at hq
          by_cases e' : u = t
          · subst e'; simp at hq; subst hq
            simp [Pc.region] at hqr
            obtain ⟨rfl, rfl⟩ := hqr
            refine ⟨Nat.le_refl _, ?_⟩
            intro i hi hik
            exact hst.2 i hi (by omega)
          · simp [e'] at hq
            exact h.stored u q o k' hq hqr
        · have := sum_lost_set (x := .done e off) hp
          simp only [Pc.lost, Nat.add_zero] at this
          show s.discarded = _
          rw [this]; exact h.lost
    | done e off => exact h
    | failed e => exact h

theorem inv_run {s0 s : State} (hs : Start s0) (h : Inv s0 s) (sched : List Nat) : Inv s0 (run s sched) := by
  induction sched generalizing s with
  | nil => exact h
  | cons t ts ih => exact ih (inv_step hs h t)

/-! ### Framing -/

/-- Entries whose fields fit the on-log format. -/
structure Entry.Wf (e : Entry) : Prop where
  phase : e.phase < 2 ^ 16
  level : e.level < 2 ^ 32
  timestamp : e.timestamp < 2 ^ 64
  len : e.data.length < 2 ^ 16

theorem readBytes_eq {mem : Nat → UInt8} {a : Nat} {l : List UInt8}
    (h : ∀ i (hi : i < l.length), mem (a + i) = l[i]) : readBytes mem a l.length = l := by
  apply List.ext_getElem
  · simp [readBytes]
  · intro i h1 h2
    simp [readBytes, h i h2]

theorem decode_header (e : Entry) (hw : e.Wf) :
    leVal (((encodeHeader e).drop 6).take 4) = e.level ∧
    leVal (((encodeHeader e).drop 10).take 8) = e.timestamp ∧
    leVal (((encodeHeader e).drop 18).take 2) = e.phase ∧
    leVal (((encodeHeader e).drop 20).take 2) = e.data.length := by
  have h1 := hw.level; have h2 := hw.timestamp; have h3 := hw.phase; have h4 := hw.len
  unfold encodeHeader
  refine ⟨?_, ?_, ?_, ?_⟩
  · rw [show List.take 4 (List.drop 6 _) = leBytes 4 e.level from by simp [leBytes]]
    exact leVal_leBytes_of_lt (by omega)
  · rw [show List.take 8 (List.drop 10 _) = leBytes 8 e.timestamp from by simp [leBytes]]
    exact leVal_leBytes_of_lt (by omega)
  · rw [show List.take 2 (List.drop 18 _) = leBytes 2 e.phase from by simp [leBytes]]
    exact leVal_leBytes_of_lt (by omega)
  · rw [show List.take 2 (List.drop 20 _) = leBytes 2 e.data.length from by simp [leBytes]]
    exact leVal_leBytes_of_lt (by omega)

/-- Reading at the start of an encoded entry yields the entry and the end of its region. -/
theorem next_encoded {mem : Nat → UInt8} {bo bs cur off : Nat} {e : Entry} (hw : e.Wf)
    (hm : ∀ i (hi : i < (encode e).length), mem (off + i) = (encode e)[i])
    (hbo : bo ≤ off) (hcur : off + e.size ≤ cur) (hfull : cur ≤ bo + bs) :
    next mem bo bs cur off = some (e, off + e.size) := by
  have hsz := size_ge e
  have hh : readBytes mem off headerSize = encodeHeader e := by
    have := readBytes_eq (mem := mem) (a := off) (l := encodeHeader e) (fun i hi => by
      simp only [encodeHeader_length] at hi
      rw [hm i (by simp only [encode_length]; omega)]
      simp only [encode, List.append_assoc]
      rw [List.getElem_append_left (by simpa using hi)])
    simpa using this
  have hd : readBytes mem (off + headerSize) e.data.length = e.data := by
    apply readBytes_eq
    intro i hi
    rw [Nat.add_assoc, hm (headerSize + i) (by simp only [encode_length]; omega)]
    simp only [encode, List.append_assoc]
    rw [List.getElem_append_right (by simp)]
    rw [List.getElem_append_left (by simpa using hi)]
    simp
  obtain ⟨d1, d2, d3, d4⟩ := decode_header e hw
  unfold next
  rw [if_neg (by omega), if_neg (by omega)]
  simp only [hh, d1, d2, d3, d4, hd]
  rw [if_neg (by omega), if_neg (by omega)]
  rfl

/-- `[off, cur)` holds the encodings of `es` back to back. -/
def Holds (mem : Nat → UInt8) : Nat → List Entry → Nat → Prop
  | off, [], cur => off = cur
  | off, e :: es, cur => (∀ i (hi : i < (encode e).length), mem (off + i) = (encode e)[i]) ∧
      Holds mem (off + e.size) es cur

theorem Holds.le {mem : Nat → UInt8} {off cur : Nat} {es : List Entry} (h : Holds mem off es cur) : off ≤ cur := by
  induction es generalizing off with
  | nil => exact Nat.le_of_eq h
  | cons e es ih => have := ih h.2; omega

theorem readFrom_holds {mem : Nat → UInt8} {bo bs cur : Nat} (hfull : cur ≤ bo + bs) :
    ∀ (es : List Entry) (off : Nat), bo ≤ off → (∀ e ∈ es, e.Wf) → Holds mem off es cur →
    readFrom mem bo bs cur off = es := by
  intro es
  induction es with
  | nil =>
    intro off hbo _ h
    have : off = cur := h
    subst this
    rw [readFrom]
    split
    · rfl
    · rename_i hh
      exfalso
      simp [next, headerSize] at hh
  | cons e es ih =>
    intro off hbo hw h
    have hn := next_encoded (hw e (by simp)) h.1 hbo h.2.le hfull
    rw [readFrom]
    split
    · rename_i hh; rw [hn] at hh; cases hh
    · rename_i e' off' hh
      rw [hn] at hh
      simp only [Option.some.injEq, Prod.mk.injEq] at hh
      obtain ⟨rfl, rfl⟩ := hh
      rw [ih _ (by omega) (fun x hx => hw x (List.mem_cons_of_mem _ hx)) h.2]

theorem Holds.append {mem : Nat → UInt8} {a b c : Nat} {es fs : List Entry} (h1 : Holds mem a es b)
    (h2 : Holds mem b fs c) : Holds mem a (es ++ fs) c := by
  induction es generalizing a with
  | nil => have : a = b := h1; subst this; exact h2
  | cons e es ih => exact ⟨h1.1, ih h1.2⟩

theorem Holds.congr {mem mem' : Nat → UInt8} {a b : Nat} {es : List Entry} (h : Holds mem a es b)
    (hm : ∀ x, x < b → mem' x = mem x) : Holds mem' a es b := by
  induction es generalizing a with
  | nil => exact h
  | cons e es ih =>
    refine ⟨?_, ih h.2⟩
    intro i hi
    have := h.2.le
    simp only [encode_length] at hi
    rw [hm _ (by omega)]
    exact h.1 i (by simpa using hi)

/-- If every writer in the chain has stored everything, the memory holds their entries in order. -/
theorem Chain.holds {pcs : List Pc} {mem : Nat → UInt8} {order : List Nat} {a b : Nat}
    (h : Chain pcs a order b) (hn : order.Nodup)
    (hst : ∀ (t : Nat) (pc : Pc) (off k : Nat), pcs[t]? = some pc → pc.region = some (off, k) →
      ∀ i (hi : i < (encode pc.entry).length), i < k → mem (off + i) = (encode pc.entry)[i])
    (hdone : ∀ pc ∈ pcs, ∀ off k, pc.region = some (off, k) → k = pc.entry.size) :
    ∃ es, Holds mem a es b ∧ es = order.filterMap (fun t => (pcs[t]?).map Pc.entry) := by
  induction order generalizing a with
  | nil => exact ⟨[], h, rfl⟩
  | cons t ts ih =>
    obtain ⟨pc, k, hp, hr, h'⟩ := h
    obtain ⟨es, hh, he⟩ := ih h' (List.nodup_cons.1 hn).2
    refine ⟨pc.entry :: es, ⟨?_, hh⟩, ?_⟩
    · intro i hi
      have := hdone pc (List.mem_of_getElem? hp) a k hr
      exact hst t pc a k hp hr i hi (by simp only [encode_length] at hi; omega)
    · simp [hp, he]

end Verif.AdvLog
