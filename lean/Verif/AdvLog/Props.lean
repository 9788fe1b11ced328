import Verif.AdvLog.Lemmas
/-!
C29 (concurrent writers never overlap or leave the buffer) and C30 (reading back yields exactly the
accepted messages in order).
-/
namespace Verif.AdvLog

/-! ### Specification vocabulary -/

/-- Writer `t` owns the bytes `[off, off + size)` of the log for its message `e`. -/
def Owns (s : State) (t : Nat) (e : Entry) (off : Nat) : Prop :=
  (∃ k, s.pcs[t]? = some (.writing e off k)) ∨ s.pcs[t]? = some (.done e off)

/-- Every writer has returned. -/
def Quiescent (s : State) : Prop := ∀ pc ∈ s.pcs, (∃ e off, pc = .done e off) ∨ (∃ e, pc = .failed e)

/-- Bytes of the messages that were refused. -/
def lostBytes (s : State) : Nat := (s.pcs.map (fun pc => match pc with | .failed e => e.size | _ => 0)).sum

theorem owns_region {s : State} {t : Nat} {e : Entry} {off : Nat} (h : Owns s t e off) :
    ∃ pc k, s.pcs[t]? = some pc ∧ pc.region = some (off, k) ∧ pc.entry = e := by
  rcases h with ⟨k, h⟩ | h
  · exact ⟨_, k, h, rfl, rfl⟩
  · exact ⟨_, _, h, rfl, rfl⟩

/-! ### C29 -/

/-- C29 (bounds): for any number of writers and any interleaving, every region handed out lies inside
the data part of the log buffer and after the data that was already there. -/
theorem writers_in_bounds (s0 : State) (h0 : Start s0) (sched : List Nat) (t : Nat) (e : Entry) (off : Nat)
    (ho : Owns (run s0 sched) t e off) :
    s0.bufOffset ≤ off ∧ s0.current ≤ off ∧ off + e.size ≤ s0.bufOffset + s0.bufSize ∧
      headerSize + e.data.length ≤ e.size := by
  have h := inv_run h0 h0.inv sched
  obtain ⟨order, hn, hc, hm⟩ := h.chain
  obtain ⟨pc, k, hp, hr, rfl⟩ := owns_region ho
  obtain ⟨pc', off', k', g1, g2, g3, g4⟩ := hc.bounds ((hm t).2 ⟨pc, _, hp, hr⟩)
  rw [hp] at g1; cases g1
  rw [hr] at g2; cases g2
  have h1 := h.cur_le
  have h2 := h.full_eq
  have h3 := h0.cur_ge
  simp only [State.full] at *
  exact ⟨by omega, g3, by omega, size_ge _⟩

/-- C29 (disjointness): two different writers never own overlapping regions, at any point of any
interleaving. -/
theorem writers_disjoint (s0 : State) (h0 : Start s0) (sched : List Nat) (t u : Nat) (htu : t ≠ u)
    (e f : Entry) (off off' : Nat) (h1 : Owns (run s0 sched) t e off) (h2 : Owns (run s0 sched) u f off') :
    off + e.size ≤ off' ∨ off' + f.size ≤ off := by
  have h := inv_run h0 h0.inv sched
  obtain ⟨order, hn, hc, hm⟩ := h.chain
  obtain ⟨pc, k, hp, hr, rfl⟩ := owns_region h1
  obtain ⟨qc, k', hq, hs, rfl⟩ := owns_region h2
  exact hc.disjoint hn ((hm t).2 ⟨pc, _, hp, hr⟩) ((hm u).2 ⟨qc, _, hq, hs⟩) htu hp hq hr hs

/-- C29 (content): a writer that returned success finds its complete message in the log, whatever the
other writers do before, meanwhile and after. -/
theorem written_stays (s0 : State) (h0 : Start s0) (sched : List Nat) (t : Nat) (e : Entry) (off : Nat)
    (hd : (run s0 sched).pcs[t]? = some (.done e off)) :
    ∀ i (hi : i < (encode e).length), (run s0 sched).mem (off + i) = (encode e)[i] := by
  have h := inv_run h0 h0.inv sched
  intro i hi
  exact (h.stored t _ off e.size hd rfl).2 i hi (by simpa using hi)

/-- C29 (nothing else is touched): bytes of the log that were in use before are unchanged. -/
theorem old_data_untouched (s0 : State) (h0 : Start s0) (sched : List Nat) (a : Nat) (ha : a < s0.current) :
    (run s0 sched).mem a = s0.mem a :=
  (inv_run h0 h0.inv sched).old a ha

/-- C29 (accounting): the discard counter counts exactly the bytes of the refused messages
(modulo its 32 bits). -/
theorem discarded_counts (s0 : State) (h0 : Start s0) (sched : List Nat) :
    (run s0 sched).discarded = (s0.discarded + lostBytes (run s0 sched)) % 2 ^ 32 := by
  have h := (inv_run h0 h0.inv sched).lost
  have e : (fun pc => match pc with | Pc.failed e => e.size | _ => 0) = Pc.lost := by
    funext pc; cases pc <;> rfl
  rw [lostBytes, e]
  exact h

/-- C29 (refusal is justified): a writer is refused only if its message does not fit behind the data
reserved so far. -/
theorem refused_only_when_full (s0 : State) (h0 : Start s0) (sched : List Nat) (t : Nat) (e : Entry)
    (h : ∀ e', (run s0 sched).pcs[t]? ≠ some (.failed e'))
    (hf : (step (run s0 sched) t).pcs[t]? = some (.failed e)) :
    s0.bufOffset + s0.bufSize < (run s0 sched).current + e.size := by
  have hI := inv_run h0 h0.inv sched
  generalize hs : run s0 sched = s at *
  have hfe := hI.full_eq
  simp only [State.full] at hfe
  cases hp : s.pcs[t]? with
  | none => simp [step, hp] at hf
  | some pc =>
    cases pc with
    | start e' => simp [step, hp, getElem?_set' hp] at hf
    | loop e' cur =>
      obtain ⟨pc0, hpc0, he0⟩ := entry_mem hI hp
      have hfit := h0.fits pc0 hpc0
      rw [he0] at hfit
      simp only [Pc.entry, State.full] at hfit
      have hcur := hI.loops t e' cur hp
      have hle := hI.cur_le
      simp only [State.full] at hle
      have hadd : add32 cur e'.size = cur + e'.size := by
        unfold add32; exact Nat.mod_eq_of_lt (by omega)
      simp only [step, hp, hadd, State.full] at hf
      split at hf
      · split at hf <;> simp [getElem?_set' hp] at hf
      · rename_i hn
        simp [getElem?_set' hp] at hf
        subst hf
        omega
    | writing e' off k =>
      simp only [step, hp] at hf
      split at hf <;> simp [getElem?_set' hp] at hf
    | done e' off => simp [step, hp] at hf
    | failed e' => exact absurd hp (h e')

/-! ### C30 -/

/-- C30: once every writer has returned, iterating the log yields the entries that were in it before,
followed by exactly the accepted messages, in the order of their place in the log. `order` lists the
successful writers. -/
theorem read_back (s0 : State) (h0 : Start s0) (old : List Entry)
    (hold : Holds s0.mem s0.bufOffset old s0.current)
    (hwold : ∀ e ∈ old, e.Wf) (hw : ∀ pc ∈ s0.pcs, pc.entry.Wf)
    (sched : List Nat) (hq : Quiescent (run s0 sched)) :
    ∃ order : List (Nat × Entry × Nat),
      (order.map (·.1)).Nodup ∧
      (∀ t e off, (t, e, off) ∈ order ↔ (run s0 sched).pcs[t]? = some (.done e off)) ∧
      order.Pairwise (fun a b => a.2.2 < b.2.2) ∧
      (run s0 sched).entries = old ++ order.map (·.2.1) := by
  have hI := inv_run h0 h0.inv sched
  generalize hs : run s0 sched = s at *
  obtain ⟨ord, hn, hc, hm⟩ := hI.chain
  have hdone : ∀ (t : Nat) (pc : Pc) (r : Nat × Nat), s.pcs[t]? = some pc → pc.region = some r → ∃ e off, pc = .done e off := by
    intro t pc r hp hr
    rcases hq pc (List.mem_of_getElem? hp) with h | ⟨e, rfl⟩
    · exact h
    · cases hr
  -- Pair every writer in the chain with its entry and offset.
  have build : ∀ (ord : List Nat) (a : Nat), ord.Nodup → Chain s.pcs a ord s.current →
      ∃ order : List (Nat × Entry × Nat), order.map (·.1) = ord ∧
        (∀ t e off, (t, e, off) ∈ order → s.pcs[t]? = some (.done e off) ∧ a ≤ off) ∧
        order.Pairwise (fun a b => a.2.2 < b.2.2) ∧
        order.map (·.2.1) = ord.filterMap (fun t => (s.pcs[t]?).map Pc.entry) := by
    intro ord
    induction ord with
    | nil => intro a _ _; exact ⟨[], rfl, by simp, List.Pairwise.nil, rfl⟩
    | cons t ts ih =>
      intro a hnd hch
      obtain ⟨pc, k, hp, hr, h'⟩ := hch
      obtain ⟨e, off, rfl⟩ := hdone t pc _ hp hr
      simp only [Pc.region, Option.some.injEq, Prod.mk.injEq] at hr
      obtain ⟨rfl, _⟩ := hr
      obtain ⟨order, h1, h2, h3, h4⟩ := ih _ (List.nodup_cons.1 hnd).2 h'
      have hsz : 0 < e.size := by have := size_ge e; simp only [headerSize] at this; omega
      refine ⟨(t, e, off) :: order, by simp [h1], ?_, ?_, by simp [hp, h4, Pc.entry]⟩
      · intro t' e' off' hmem
        rcases List.mem_cons.1 hmem with h | h
        · cases h; exact ⟨hp, Nat.le_refl _⟩
        · have := h2 t' e' off' h
          exact ⟨this.1, by have := this.2; simp only [Pc.entry] at this; omega⟩
      · refine List.pairwise_cons.2 ⟨?_, h3⟩
        rintro ⟨t', e', off'⟩ hmem
        have := (h2 t' e' off' hmem).2
        simp only [Pc.entry] at this
        show off < off'
        omega
  obtain ⟨order, h1, h2, h3, h4⟩ := build ord s0.current hn hc
  refine ⟨order, by rw [h1]; exact hn, ?_, h3, ?_⟩
  · intro t e off
    constructor
    · exact fun h => (h2 t e off h).1
    · intro hp
      have htm : t ∈ ord := (hm t).2 ⟨_, _, hp, rfl⟩
      rw [← h1] at htm
      obtain ⟨⟨t', e', off'⟩, hmem, rfl⟩ := List.mem_map.1 htm
      have := (h2 _ _ _ hmem).1
      simp only at hp
      rw [hp] at this
      simp only [Option.some.injEq, Pc.done.injEq] at this
      obtain ⟨rfl, rfl⟩ := this
      exact hmem
  · have hst := hI.stored
    obtain ⟨es, hh, hes⟩ := hc.holds (mem := s.mem) hn
      (fun t pc off k hp hr i hi hk => (hst t pc off k hp hr).2 i hi hk)
      (by
        intro pc hpc off k hr
        rcases hq pc hpc with ⟨e, off', rfl⟩ | ⟨e, rfl⟩
        · simp only [Pc.region, Option.some.injEq, Prod.mk.injEq] at hr; exact hr.2.symm
        · cases hr)
    rw [h4, ← hes]
    have hhold : Holds s.mem s0.bufOffset old s0.current := hold.congr hI.old
    have hall := hhold.append hh
    have hwf : ∀ e ∈ old ++ es, e.Wf := by
      intro e he
      rcases List.mem_append.1 he with he | he
      · exact hwold e he
      · rw [hes, List.mem_filterMap] at he
        obtain ⟨t, _, ht⟩ := he
        cases hp : s.pcs[t]? with
        | none => simp [hp] at ht
        | some pc =>
          simp [hp] at ht
          obtain ⟨pc0, hpc0, he0⟩ := entry_mem hI hp
          rw [← ht, ← he0]
          exact hw pc0 hpc0
    unfold State.entries
    rw [hI.off_eq, hI.size_eq]
    refine readFrom_holds ?_ _ _ (Nat.le_refl _) hwf hall
    have h5 := hI.cur_le
    have h6 := hI.full_eq
    simp only [State.full] at h5 h6
    omega

theorem current_mono_step (s0 s : State) (h0 : Start s0) (h : Inv s0 s) (t : Nat) :
    s.current ≤ (step s t).current := by
  unfold step
  cases hp : s.pcs[t]? with
  | none => exact Nat.le_refl _
  | some pc =>
    obtain ⟨pc0, hpc0, he0⟩ := entry_mem h hp
    have hfit := h0.fits pc0 hpc0
    rw [he0, ← h.full_eq] at hfit
    cases pc with
    | loop e cur =>
      have hcur := h.loops t e cur hp
      have hle := h.cur_le
      simp only [Pc.entry] at hfit
      have hadd : add32 cur e.size = cur + e.size := by
        unfold add32; exact Nat.mod_eq_of_lt (by omega)
      simp only [hadd]
      split
      · split
        · rename_i heq; simp only; omega
        · exact Nat.le_refl _
      · exact Nat.le_refl _
    | writing e off k => dsimp only; split <;> exact Nat.le_refl _
    | start e => exact Nat.le_refl _
    | done e off => exact Nat.le_refl _
    | failed e => exact Nat.le_refl _

theorem owns_step (s : State) (t u : Nat) (e : Entry) (off : Nat) (h : Owns s t e off) : Owns (step s u) t e off := by
  unfold step
  cases hp : s.pcs[u]? with
  | none => exact h
  | some pc =>
    have keep : ∀ (x : Pc) (s' : State), (t ≠ u ∨ ∃ k, x = .writing e off k ∨ x = .done e off) →
        s'.pcs = s.pcs.set u x → Owns s' t e off := by
      intro x s' hx hs'
      unfold Owns
      rw [hs', getElem?_set' hp]
      by_cases htu : t = u
      · rcases hx with hx | ⟨k, rfl | rfl⟩
        · exact absurd htu hx
        · left; exact ⟨k, by simp [htu]⟩
        · right; simp [htu]
      · simp only [htu, if_false]; exact h
    have notself : (∀ k, pc ≠ .writing e off k) → pc ≠ .done e off → t ≠ u := by
      rintro h1 h2 rfl
      rcases h with ⟨k, h⟩ | h
      · rw [hp] at h; cases h; exact h1 k rfl
      · rw [hp] at h; cases h; exact h2 rfl
    cases pc with
    | start e' => exact keep _ _ (Or.inl (notself (by simp) (by simp))) rfl
    | loop e' cur =>
      have hne := notself (by simp) (by simp)
      dsimp only
      split
      · split
        · exact keep _ _ (Or.inl hne) rfl
        · exact keep _ _ (Or.inl hne) rfl
      · exact keep _ _ (Or.inl hne) rfl
    | writing e' off' k' =>
      have hor : t ≠ u ∨ (e' = e ∧ off' = off) := by
        by_cases htu : t = u
        · right
          subst htu
          rcases h with ⟨k, h⟩ | h
          · rw [hp] at h; cases h; exact ⟨rfl, rfl⟩
          · rw [hp] at h; cases h
        · exact Or.inl htu
      dsimp only
      split
      · refine keep (.writing e' off' (k' + 1)) _ ?_ rfl
        rcases hor with h | ⟨rfl, rfl⟩
        · exact Or.inl h
        · exact Or.inr ⟨k' + 1, Or.inl rfl⟩
      · refine keep (.done e' off') _ ?_ rfl
        rcases hor with h | ⟨rfl, rfl⟩
        · exact Or.inl h
        · exact Or.inr ⟨0, Or.inr rfl⟩
    | done e' off' => exact h
    | failed e' => exact h

/-- C30 (order): if writer `t` has its place in the log at a moment when writer `u` has none yet, then
`t`'s message precedes `u`'s in every later state. So messages of one sequential caller appear in
program order. -/
theorem reservation_order (s0 : State) (h0 : Start s0) (sched sched' : List Nat) (t u : Nat)
    (e f : Entry) (off off' : Nat)
    (h1 : Owns (run s0 sched) t e off) (h2 : ∀ f' o', ¬ Owns (run s0 sched) u f' o')
    (h3 : Owns (run s0 (sched ++ sched')) u f off') :
    ∃ offt, Owns (run s0 (sched ++ sched')) t e offt ∧ offt + e.size ≤ off' := by
  have hI := inv_run h0 h0.inv sched
  have hoff : off + e.size ≤ (run s0 sched).current := by
    obtain ⟨order, hn, hc, hm⟩ := hI.chain
    obtain ⟨pc, k, hp, hr, rfl⟩ := owns_region h1
    obtain ⟨pc', off'', k', g1, g2, g3, g4⟩ := hc.bounds ((hm t).2 ⟨pc, _, hp, hr⟩)
    rw [hp] at g1; cases g1
    rw [hr] at g2; cases g2
    exact g4
  have hrun : run s0 (sched ++ sched') = run (run s0 sched) sched' := by simp [run, List.foldl_append]
  rw [hrun] at h3 ⊢
  generalize run s0 sched = s at *
  -- while u has no region, the offset it can get is at least `current`
  have key : ∀ (sched' : List Nat) (s : State), Inv s0 s → Owns s t e off →
      ((∀ f' o', ¬ Owns s u f' o') ∧ off + e.size ≤ s.current ∨ ∀ f' o', Owns s u f' o' → off + e.size ≤ o') →
      Owns (run s sched') t e off ∧ (∀ f' o', Owns (run s sched') u f' o' → off + e.size ≤ o') := by
    intro sched'
    induction sched' with
    | nil =>
      intro s _ ho hcase
      refine ⟨ho, ?_⟩
      rcases hcase with ⟨h, _⟩ | h
      · intro f' o' hh; exact absurd hh (h f' o')
      · exact h
    | cons v vs ih =>
      intro s hI ho hcase
      have hI' := inv_step h0 hI v
      have ho' := owns_step s t v e off ho
      refine ih (step s v) hI' ho' ?_
      rcases hcase with ⟨hno, hcur⟩ | hge
      · by_cases hnow : ∃ f' o', Owns (step s v) u f' o'
        · right
          -- the step was u's successful compare-exchange, at offset `s.current`
          have hval : ∀ f' o', Owns (step s v) u f' o' → o' = s.current := by
            intro f' o' hown
            cases hp : s.pcs[v]? with
            | none => simp only [step, hp] at hown; exact absurd hown (hno f' o')
            | some pc =>
              have other : ∀ (x : Pc) (s' : State), s'.pcs = s.pcs.set v x →
                  (∀ k, x ≠ .writing f' o' k) → x ≠ .done f' o' → ¬ Owns s' u f' o' := by
                intro x s' hs' hx1 hx2 hh
                unfold Owns at hh
                rw [hs', getElem?_set' hp] at hh
                by_cases huv : u = v
                · simp only [huv, if_true] at hh
                  rcases hh with ⟨k, hh⟩ | hh
                  · exact hx1 k (by simpa using hh)
                  · exact hx2 (by simpa using hh)
                · simp only [huv, if_false] at hh
                  exact hno f' o' hh
              have frame : ∀ (x : Pc) (s' : State), s'.pcs = s.pcs.set v x → u ≠ v → ¬ Owns s' u f' o' := by
                intro x s' hs' huv hh
                unfold Owns at hh
                rw [hs', getElem?_set' hp] at hh
                simp only [huv, if_false] at hh
                exact hno f' o' hh
              cases pc with
              | start e' =>
                simp only [step, hp] at hown
                exact absurd hown (other _ _ rfl (by simp) (by simp))
              | loop e' cur =>
                simp only [step, hp] at hown
                split at hown
                · split at hown
                  · rename_i heq
                    by_cases huv : u = v
                    · unfold Owns at hown
                      simp only [huv, getElem?_set' hp, if_true, Option.some.injEq, Pc.writing.injEq,
                        reduceCtorEq, or_false] at hown
                      obtain ⟨_, _, rfl, _⟩ := hown
                      exact heq.symm
                    · exact absurd hown (frame _ _ rfl huv)
                  · exact absurd hown (other _ _ rfl (by simp) (by simp))
                · exact absurd hown (other _ _ rfl (by simp) (by simp))
              | writing e' off'' k' =>
                have huv : u ≠ v := by
                  rintro rfl
                  exact hno e' off'' (Or.inl ⟨k', hp⟩)
                simp only [step, hp] at hown
                split at hown
                · exact absurd hown (frame _ _ rfl huv)
                · exact absurd hown (frame _ _ rfl huv)
              | done e' off'' => simp only [step, hp] at hown; exact absurd hown (hno f' o')
              | failed e' => simp only [step, hp] at hown; exact absurd hown (hno f' o')
          intro f' o' hown
          rw [hval f' o' hown]
          exact hcur
        · left
          refine ⟨fun f' o' hh => hnow ⟨f', o', hh⟩, ?_⟩
          have := current_mono_step s0 s h0 hI v
          omega
      · by_cases hhad : ∃ f1 o1, Owns s u f1 o1
        · right
          obtain ⟨f1, o1, h1⟩ := hhad
          intro f' o' hown
          have h1' := owns_step s u v f1 o1 h1
          have heq : o1 = o' := by
            obtain ⟨p, k, a1, a2, _⟩ := owns_region h1'
            obtain ⟨q, k', b1, b2, _⟩ := owns_region hown
            rw [a1] at b1; cases b1
            rw [a2] at b2; cases b2; rfl
          rw [← heq]
          exact hge f1 o1 h1
        · by_cases hcur : off + e.size ≤ s.current
          · -- same as the first case
            by_cases hnow : ∃ f' o', Owns (step s v) u f' o'
            · right
              have hI2 := hI'
              intro f' o' hown
              -- the new region lies behind t's
              obtain ⟨order, hn, hc, hm⟩ := hI2.chain
              obtain ⟨p, k, a1, a2, a3⟩ := owns_region hown
              obtain ⟨q, k', b1, b2, b3⟩ := owns_region ho'
              have hne : u ≠ t := by
                rintro rfl
                exact hhad ⟨e, off, ho⟩
              have hd := hc.disjoint hn ((hm u).2 ⟨p, _, a1, a2⟩) ((hm t).2 ⟨q, _, b1, b2⟩) hne a1 b1 a2 b2
              rw [a3, b3] at hd
              rcases hd with hd | hd
              · -- impossible: new regions start at `s.current`
                exfalso
                obtain ⟨order0, hn0, hc0, hm0⟩ := hI.chain
                have : ¬ (∃ pc r, s.pcs[u]? = some pc ∧ pc.region = some r) := by
                  rintro ⟨pc, r, hpc, hr⟩
                  cases pc with
                  | writing e1 o1 k1 => exact hhad ⟨e1, o1, Or.inl ⟨k1, hpc⟩⟩
                  | done e1 o1 => exact hhad ⟨e1, o1, Or.inr hpc⟩
                  | start e1 => cases hr
                  | loop e1 c1 => cases hr
                  | failed e1 => cases hr
                have hfs : s.current ≤ o' := by
                  cases hp : s.pcs[v]? with
                  | none => simp only [step, hp] at hown; exact absurd ⟨f', o', hown⟩ hhad
                  | some pc =>
                    have frame : ∀ (x : Pc) (s' : State), s'.pcs = s.pcs.set v x → u ≠ v → ¬ Owns s' u f' o' := by
                      intro x s' hs' huv hh
                      unfold Owns at hh
                      rw [hs', getElem?_set' hp] at hh
                      simp only [huv, if_false] at hh
                      exact hhad ⟨f', o', hh⟩
                    have self : ∀ (x : Pc) (s' : State), s'.pcs = s.pcs.set v x →
                        (∀ k, x ≠ .writing f' o' k) → x ≠ .done f' o' → ¬ Owns s' u f' o' := by
                      intro x s' hs' hx1 hx2 hh
                      by_cases huv : u = v
                      · unfold Owns at hh
                        rw [hs', getElem?_set' hp] at hh
                        simp only [huv, if_true] at hh
                        rcases hh with ⟨k, hh⟩ | hh
                        · exact hx1 k (by simpa using hh)
                        · exact hx2 (by simpa using hh)
                      · exact frame x s' hs' huv hh
                    cases pc with
                    | start e' =>
                      simp only [step, hp] at hown
                      exact absurd hown (self _ _ rfl (by simp) (by simp))
                    | loop e' cur =>
                      simp only [step, hp] at hown
                      split at hown
                      · split at hown
                        · rename_i heq
                          by_cases huv : u = v
                          · unfold Owns at hown
                            simp only [huv, getElem?_set' hp, if_true, Option.some.injEq, Pc.writing.injEq,
                              reduceCtorEq, or_false] at hown
                            obtain ⟨_, _, rfl, _⟩ := hown
                            exact Nat.le_of_eq heq
                          · exact absurd hown (frame _ _ rfl huv)
                        · exact absurd hown (self _ _ rfl (by simp) (by simp))
                      · exact absurd hown (self _ _ rfl (by simp) (by simp))
                    | writing e' off'' k' =>
                      have huv : u ≠ v := by
                        rintro rfl
                        exact hhad ⟨e', off'', Or.inl ⟨k', hp⟩⟩
                      simp only [step, hp] at hown
                      split at hown
                      · exact absurd hown (frame _ _ rfl huv)
                      · exact absurd hown (frame _ _ rfl huv)
                    | done e' off'' => simp only [step, hp] at hown; exact absurd ⟨f', o', hown⟩ hhad
                    | failed e' => simp only [step, hp] at hown; exact absurd ⟨f', o', hown⟩ hhad
                have := size_ge f
                have hfsz : headerSize ≤ f'.size := by have := size_ge f'; omega
                simp only [headerSize] at hfsz
                omega
              · exact hd
            · right
              intro f' o' hh
              exact absurd ⟨f', o', hh⟩ hnow
          · exfalso
            obtain ⟨order, hn, hc, hm⟩ := hI.chain
            obtain ⟨pc, k, hp, hr, rfl⟩ := owns_region ho
            obtain ⟨pc', off'', k', g1, g2, g3, g4⟩ := hc.bounds ((hm t).2 ⟨pc, _, hp, hr⟩)
            rw [hp] at g1; cases g1
            rw [hr] at g2; cases g2
            exact hcur g4
  have := key sched' s hI h1 (Or.inl ⟨h2, hoff⟩)
  exact ⟨off, this.1, this.2 f off' h3⟩

/-! ### Findings -/

/-- An empty log of `n` data bytes (as `initialize_memory_log` makes it, lines 115-136: the header is
80 bytes) with the given writers. -/
def fresh (n : Nat) (es : List Entry) : State :=
  { bufOffset := 80, bufSize := n, current := 80, discarded := 0, mem := fun _ => 0, pcs := es.map .start }

/-- Finding: a reader running between reservation and completion of a write yields an entry that
nobody logged (`AdvLogIterator::next` checks neither a signature nor completion). -/
theorem torn_read :
    (run (fresh 64 [{ phase := 1, level := 2, timestamp := 3, data := [0x41] }]) [0, 0]).entries =
      [{ phase := 0, level := 0, timestamp := 0, data := [] }] := by
  simp only [State.entries, run, fresh, List.map, List.foldl]
  rw [readFrom]
  decide +kernel

/-- Finding: without the `fits` hypothesis the 32-bit addition `current_offset + message_size` wraps
(release profile), the bounds check passes and the log offset moves backwards, so later messages
overwrite earlier ones. -/
theorem offset_wraps (s : State) (e : Entry) (hp : s.pcs[0]? = some (.loop e s.current))
    (hc : s.current < 2 ^ 32) (he : e.size < 2 ^ 32) (hw : 2 ^ 32 ≤ s.current + e.size)
    (hf : s.current + e.size - 2 ^ 32 ≤ s.full) : (step s 0).current < s.current := by
  have hadd : add32 s.current e.size = s.current + e.size - 2 ^ 32 := by
    unfold add32; omega
  simp only [step, hp, hadd, hf, if_true]
  omega

/-- Finding: a payload of 65536 bytes or more is stored with a truncated length field; reading back
does not return it. -/
theorem long_payload_truncated (e : Entry) (h : e.data.length = 2 ^ 16) :
    leVal (((encodeHeader e).drop 20).take 2) = 0 := by
  unfold encodeHeader
  rw [show List.take 2 (List.drop 20 _) = leBytes 2 e.data.length from by simp [leBytes], leVal_leBytes, h]

/-! ### Non-vacuity -/

def e1 : Entry := { phase := 1, level := 2, timestamp := 3, data := [0x41, 0x42, 0x43] }
def e2 : Entry := { phase := 4, level := 5, timestamp := 6, data := [] }

example : Start (fresh 128 [e1, e2]) := by
  refine ⟨by decide, by decide, by decide, ?_, ?_⟩
  · intro pc h; simp [fresh] at h; rcases h with rfl | rfl
    · exact ⟨_, rfl⟩
    · exact ⟨_, rfl⟩
  · intro pc h; simp [fresh] at h; rcases h with rfl | rfl <;> decide

/-- A schedule interleaving the two writers (with a failed compare-exchange) to completion. -/
def sched12 : List Nat := [0, 1, 0, 1, 1] ++ List.replicate 33 0 ++ List.replicate 25 1

example : (run (fresh 128 [e1, e2]) sched12).pcs = [.done e1 80, .done e2 112] := by decide +kernel
example : Holds (fresh 128 [e1, e2]).mem 80 [] 80 := rfl
example : e1.Wf ∧ e2.Wf := by constructor <;> constructor <;> decide

end Verif.AdvLog
