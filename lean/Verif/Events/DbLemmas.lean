import Verif.Events.Lemmas
namespace Verif.Events

/-! ### Signalling -/

theorem get_pending (db : Db) (ps : List Note) (t j : Nat) : ({ db with pending := ps, tags := t } : Db).get j = db.get j := rfl

theorem signalOne_get (db : Db) (e : Event) (j : Nat) :
    (db.signalOne e).get j = (db.get j).map (fun x => if j = e.id then { x with signaled := true } else x) := by
  unfold Db.signalOne
  dsimp only
  split
  · rw [get_pending]; exact get_modify db e.id j _ (fun _ => rfl)
  · exact get_modify db e.id j _ (fun _ => rfl)

/-- Frame facts of one signalling step. -/
structure Frame (db db' : Db) : Prop where
  ids : db'.events.map (·.id) = db.events.map (·.id)
  next : db'.nextId = db.nextId
  rt : db'.runtime = db.runtime
  tags : db.tags ≤ db'.tags
  sub : ∀ n ∈ db.pending, n ∈ db'.pending
  new : ∀ n ∈ db'.pending, n ∈ db.pending ∨ (db.tags ≤ n.tag ∧ n.tag < db'.tags)

theorem Frame.refl (db : Db) : Frame db db := ⟨rfl, rfl, rfl, Nat.le_refl _, fun _ h => h, fun _ h => Or.inl h⟩

theorem Frame.trans {a b c : Db} (h1 : Frame a b) (h2 : Frame b c) : Frame a c := by
  refine ⟨h2.ids.trans h1.ids, h2.next.trans h1.next, h2.rt.trans h1.rt, Nat.le_trans h1.tags h2.tags,
    fun n hn => h2.sub n (h1.sub n hn), ?_⟩
  intro n hn
  have t1 := h1.tags
  have t2 := h2.tags
  rcases h2.new n hn with h | h
  · rcases h1.new n h with h | h
    · exact Or.inl h
    · right; omega
  · right; omega

theorem Frame.queue (db : Db) (e : Event) (tag : Nat) (ht : tag = db.tags) :
    Frame db { db with pending := queueNote db.miss db.pending e tag, tags := tag + 1 } := by
  subst ht
  refine ⟨rfl, rfl, rfl, Nat.le_succ _, ?_, ?_⟩
  · intro n hn
    show n ∈ queueNote _ _ _ _
    unfold queueNote
    split
    · exact sub_insertPending hn
    · exact hn
  · intro n hn
    have hn : n ∈ queueNote db.miss db.pending e db.tags := hn
    unfold queueNote at hn
    split at hn
    · rcases mem_insertPending hn with rfl | h
      · right; exact ⟨Nat.le_refl _, Nat.lt_succ_self _⟩
      · left; exact h
    · exact Or.inl hn

theorem Frame.modify (db : Db) (id : Nat) (f : Event → Event) (hf : ∀ e, (f e).id = e.id) : Frame db (db.modify id f) :=
  ⟨modify_ids db id f hf, rfl, rfl, Nat.le_refl _, fun _ h => h, fun _ h => Or.inl h⟩

theorem Frame.signalOne (db : Db) (e : Event) : Frame db (db.signalOne e) := by
  unfold Db.signalOne
  dsimp only
  have h1 := Frame.modify db e.id (fun e => { e with signaled := true }) (fun _ => rfl)
  split
  · exact h1.trans (Frame.queue _ e _ rfl)
  · exact h1

theorem Frame.signalMember (db : Db) (g id : Nat) : Frame db (db.signalMember g id) := by
  unfold Db.signalMember
  cases db.get id with
  | none => exact Frame.refl _
  | some e =>
    dsimp only
    split
    · exact Frame.signalOne db e
    · exact Frame.refl _

theorem Frame.signalGroup (db : Db) (g : Nat) : Frame db (db.signalGroup g) := by
  unfold Db.signalGroup
  generalize (db.events.map (·.id)).reverse = l
  induction l generalizing db with
  | nil => exact Frame.refl _
  | cons i l ih => exact (Frame.signalMember db g i).trans (ih _)

theorem Frame.signal (db : Db) (id : Nat) : Frame db (db.signal id).2 := by
  unfold Db.signal
  cases db.get id with
  | none => exact Frame.refl _
  | some e =>
    dsimp only
    split
    · exact Frame.refl _
    · cases e.group with
      | none => exact Frame.signalOne db e
      | some g => exact Frame.signalGroup db g

theorem Frame.tickOne (db : Db) (now id : Nat) : Frame db (db.tickOne now id) := by
  unfold Db.tickOne
  cases db.get id with
  | none => exact Frame.refl _
  | some e =>
    dsimp only
    split
    · exact (Frame.modify db id (fun e => { e with trigger := e.period.map (now + ·) }) (fun _ => rfl)).trans (Frame.signal _ id)
    · exact Frame.refl _

theorem Frame.tick (db : Db) (now : Nat) : Frame db (db.tick now) := by
  unfold Db.tick
  generalize (db.events.map (·.id)).reverse = l
  induction l generalizing db with
  | nil => exact Frame.refl _
  | cons i l ih => exact (Frame.tickOne db now i).trans (ih _)

theorem signalMember_get (db : Db) (g i j : Nat) :
    (db.signalMember g i).get j =
      (db.get j).map (fun x => if j = i ∧ x.group = some g then { x with signaled := true } else x) := by
  unfold Db.signalMember
  cases hg : db.get i with
  | none =>
    dsimp only
    by_cases hj : j = i
    · subst hj; rw [hg]; rfl
    · simp [hj]
  | some e =>
    have hid := get_id hg
    dsimp only
    split
    · rename_i hc
      rw [signalOne_get, hid]
      by_cases hj : j = i
      · subst hj; rw [hg]; simp [hc.1]
      · simp [hj]
    · rename_i hc
      by_cases hj : j = i
      · subst hj; rw [hg]
        simp only [Option.map_some, true_and, Option.some.injEq]
        split
        · rename_i hgr
          have : e.signaled = true := by
            cases hs : e.signaled with
            | true => rfl
            | false => exact absurd ⟨hgr, hs⟩ hc
          cases e; simp at this; simp [this]
        · rfl
      · simp [hj]

theorem foldMember_get (g : Nat) (l : List Nat) : ∀ (db : Db) (j : Nat),
    (l.foldl (fun db id => db.signalMember g id) db).get j =
      (db.get j).map (fun x => if j ∈ l ∧ x.group = some g then { x with signaled := true } else x) := by
  induction l with
  | nil => intro db j; simp
  | cons i l ih =>
    intro db j
    rw [List.foldl_cons, ih, signalMember_get, Option.map_map]
    congr 1
    funext x
    simp only [Function.comp]
    by_cases hg : x.group = some g
    · by_cases h1 : j = i
      · simp [h1, hg]
      · by_cases h2 : j ∈ l
        · simp [h1, h2, hg]
        · simp [h1, h2]
    · simp [hg]

theorem mem_ids {db : Db} {j : Nat} {e : Event} (h : db.get j = some e) : j ∈ (db.events.map (·.id)).reverse := by
  rw [List.mem_reverse, ← get_isSome, h]; rfl

theorem signalGroup_get (db : Db) (g j : Nat) :
    (db.signalGroup g).get j =
      (db.get j).map (fun x => if x.group = some g then { x with signaled := true } else x) := by
  unfold Db.signalGroup
  rw [foldMember_get]
  cases hg : db.get j with
  | none => rfl
  | some e => simp only [Option.map_some, mem_ids hg, true_and]

/-- New notifications of a member visit. -/
theorem signalMember_new (db : Db) (g i : Nat) (n : Note) (hn : n ∈ (db.signalMember g i).pending) :
    n ∈ db.pending ∨ ∃ e, db.get n.event = some e ∧ e.group = some g ∧ isNotifySignal e.type = true ∧ e.signaled = false := by
  unfold Db.signalMember at hn
  cases hg : db.get i with
  | none => rw [hg] at hn; exact Or.inl hn
  | some e =>
    rw [hg] at hn
    dsimp only at hn
    split at hn
    · rename_i hc
      unfold Db.signalOne at hn
      dsimp only at hn
      split at hn
      · rename_i hns
        have hn : n ∈ queueNote db.miss db.pending e db.tags := hn
        unfold queueNote at hn
        rw [hns, Bool.true_or, if_pos rfl] at hn
        rcases mem_insertPending hn with rfl | h
        · right
          refine ⟨e, ?_, hc.1, hns, hc.2⟩
          simp only [get_id hg]; exact hg
        · exact Or.inl h
      · exact Or.inl hn
    · exact Or.inl hn

theorem foldMember_new (g : Nat) (l : List Nat) : ∀ (db : Db) (n : Note),
    n ∈ (l.foldl (fun db id => db.signalMember g id) db).pending →
    n ∈ db.pending ∨ ∃ e, db.get n.event = some e ∧ e.group = some g ∧ isNotifySignal e.type = true ∧ e.signaled = false := by
  induction l with
  | nil => intro db n hn; exact Or.inl hn
  | cons i l ih =>
    intro db n hn
    rw [List.foldl_cons] at hn
    rcases ih _ n hn with h | ⟨e, he, h1, h2, h3⟩
    · exact signalMember_new db g i n h
    · right
      rw [signalMember_get] at he
      cases hg : db.get n.event with
      | none => rw [hg] at he; cases he
      | some x =>
        rw [hg] at he
        simp only [Option.map_some, Option.some.injEq] at he
        refine ⟨x, rfl, ?_⟩
        split at he
        · rw [← he] at h3; cases h3
        · rw [he]; exact ⟨h1, h2, h3⟩

theorem signalGroup_new (db : Db) (g : Nat) (n : Note) (hn : n ∈ (db.signalGroup g).pending) :
    n ∈ db.pending ∨ ∃ e, db.get n.event = some e ∧ e.group = some g ∧ isNotifySignal e.type = true ∧ e.signaled = false :=
  foldMember_new g _ db n hn

theorem signal_get (db : Db) (id j : Nat) {e : Event} (he : db.get id = some e) (hs : e.signaled = false) :
    (db.signal id).2.get j =
      (db.get j).map (fun x => if j = id ∨ (e.group.isSome ∧ x.group = e.group) then { x with signaled := true } else x) := by
  have hid := get_id he
  unfold Db.signal
  rw [he]
  simp only [hs, Bool.false_eq_true, if_false]
  cases hg : e.group with
  | none => simp only [signalOne_get, hid]; simp
  | some g =>
    dsimp only
    rw [signalGroup_get]
    cases hj : db.get j with
    | none => rfl
    | some x =>
      simp only [Option.map_some, Option.isSome_some, true_and]
      congr 1
      by_cases hji : j = id
      · subst hji
        rw [he] at hj; cases hj
        simp [hg]
      · simp [hji]

/-! ### Ticks -/

/-- Some visited, due, initially unsignalled timer shares the event's group. -/
def groupHit (db0 : Db) (now : Nat) (l : List Nat) (e : Event) : Bool :=
  l.any (fun m => match db0.get m with
    | some x => x.due now && !x.signaled && x.group.isSome && x.group == e.group
    | none => false)

def tickEvent (db0 : Db) (now : Nat) (l : List Nat) (e : Event) : Event :=
  { e with
    trigger := if e.id ∈ l ∧ e.due now = true then e.period.map (now + ·) else e.trigger
    signaled := e.signaled || (decide (e.id ∈ l) && e.due now) || groupHit db0 now l e }

theorem tickEvent_nil (db0 : Db) (now : Nat) (e : Event) : tickEvent db0 now [] e = e := by
  simp [tickEvent, groupHit]

theorem tickStep (db0 db : Db) (now : Nat) (l : List Nat) (i : Nat) (hi : i ∉ l)
    (h : ∀ j, db.get j = (db0.get j).map (tickEvent db0 now l)) :
    ∀ j, (db.tickOne now i).get j = (db0.get j).map (tickEvent db0 now (l ++ [i])) := by
  intro j
  cases hx : db0.get i with
  | none =>
    have hi' : db.get i = none := by rw [h, hx]; rfl
    have : db.tickOne now i = db := by unfold Db.tickOne; rw [hi']
    rw [this, h]
    cases hj : db0.get j with
    | none => rfl
    | some e =>
      have hne : e.id ≠ i := by
        rw [get_id hj]; rintro rfl; rw [hx] at hj; cases hj
      simp [tickEvent, groupHit, hx, hne]
  | some x =>
    have hxid := get_id hx
    have hcur : db.get i = some (tickEvent db0 now l x) := by rw [h, hx]; rfl
    have htrig : (tickEvent db0 now l x).trigger = x.trigger := by simp [tickEvent, hxid, hi]
    have hdue : (tickEvent db0 now l x).due now = x.due now := by
      unfold Event.due; rw [htrig]; rfl
    unfold Db.tickOne
    rw [hcur]
    simp only [hdue]
    by_cases hd : x.due now = true
    · rw [if_pos hd]
      generalize hm : db.modify i (fun e => { e with trigger := e.period.map (now + ·) }) = dbm
      have hmget : ∀ k, dbm.get k = (db.get k).map (fun e => if k = i then { e with trigger := e.period.map (now + ·) } else e) := by
        intro k; rw [← hm]; exact get_modify db i k _ (fun _ => rfl)
      have hcurm : dbm.get i = some { tickEvent db0 now l x with trigger := (tickEvent db0 now l x).period.map (now + ·) } := by
        rw [hmget, hcur]; simp
      by_cases hs : (tickEvent db0 now l x).signaled = true
      · -- already signalled
        have hsig : dbm.signal i = (.ok (), dbm) := by
          unfold Db.signal; rw [hcurm]; simp [hs]
        rw [hsig, hmget, h]
        cases hj : db0.get j with
        | none => rfl
        | some e =>
          have heid := get_id hj
          simp only [Option.map_some, Option.some.injEq]
          by_cases hji : j = i
          · subst hji
            rw [hx] at hj; cases hj
            have hs' : (x.signaled || groupHit db0 now l x) = true := by
              simpa [tickEvent, hxid, hi] using hs
            have hs'' : (x.signaled || (groupHit db0 now l x || groupHit db0 now [j] x)) = true := by
              simp at hs' ⊢; rcases hs' with h | h <;> simp [h]
            simp [tickEvent, hxid, hd, hi, hs']
          · have hne : e.id ≠ i := by rw [heid]; exact hji
            simp only [if_neg hji]
            have hgh : groupHit db0 now (l ++ [i]) e = groupHit db0 now l e := by
              have hap : groupHit db0 now (l ++ [i]) e =
                  (groupHit db0 now l e || (x.due now && !x.signaled && x.group.isSome && x.group == e.group)) := by
                simp [groupHit, hx]
              rw [hap]
              cases hc : (x.due now && !x.signaled && x.group.isSome && x.group == e.group) with
              | false => simp
              | true =>
                simp only [Bool.and_eq_true, Bool.not_eq_true', beq_iff_eq] at hc
                obtain ⟨⟨⟨_, hxs⟩, _⟩, hgr⟩ := hc
                have hs' : groupHit db0 now l x = true := by
                  simpa [tickEvent, hxid, hi, hxs] using hs
                have : groupHit db0 now l e = true := by
                  unfold groupHit at hs' ⊢; rw [← hgr]; exact hs'
                simp [this]
            simp [tickEvent, hgh, hne]
      · -- not yet signalled: signal now
        have hs : (tickEvent db0 now l x).signaled = false := by simpa using hs
        have hs' : x.signaled = false ∧ groupHit db0 now l x = false := by
          simpa [tickEvent, hxid, hi] using hs
        rw [signal_get dbm i j hcurm (by exact hs), hmget, h, Option.map_map, Option.map_map]
        cases hj : db0.get j with
        | none => rfl
        | some e =>
          have heid := get_id hj
          simp only [Option.map_some, Option.some.injEq, Function.comp]
          have hap : groupHit db0 now (l ++ [i]) e =
              (groupHit db0 now l e || (x.group.isSome && x.group == e.group)) := by
            simp [groupHit, hx, hd, hs'.1]
          by_cases hji : j = i
          · subst hji
            rw [hx] at hj; cases hj
            simp [tickEvent, hxid, hd, hi]
          · have hne : e.id ≠ i := by rw [heid]; exact hji
            simp only [if_neg hji]
            have hgr : (tickEvent db0 now l e).group = e.group := rfl
            have hgx : (tickEvent db0 now l x).group = x.group := rfl
            simp only [hgr, hgx]
            by_cases hc : (x.group.isSome && x.group == e.group) = true
            · have hc' : x.group.isSome = true ∧ e.group = x.group := by
                simp only [Bool.and_eq_true, beq_iff_eq] at hc; exact ⟨hc.1, hc.2.symm⟩
              rw [if_pos (Or.inr hc')]
              simp [tickEvent, hap, hne, hc]
            · have hc2 : ¬ (x.group.isSome = true ∧ e.group = x.group) := by
                rintro ⟨a, b⟩; apply hc; rw [a, b]; simp
              have hc1 : (x.group.isSome && x.group == e.group) = false := by simpa using hc
              rw [if_neg (by rintro (h1 | h1); exact hji h1; exact hc2 h1)]
              simp [tickEvent, hap, hne, hc1]
    · rw [if_neg hd, h]
      have hd' : x.due now = false := by simpa using hd
      cases hj : db0.get j with
      | none => rfl
      | some e =>
        have hap : groupHit db0 now (l ++ [i]) e = groupHit db0 now l e := by
          simp [groupHit, hx, hd']
        simp only [Option.map_some, Option.some.injEq]
        by_cases hji : j = i
        · subst hji
          rw [hx] at hj; cases hj
          simp [tickEvent, hd', hap]
        · have hne : e.id ≠ i := by rw [get_id hj]; exact hji
          simp [tickEvent, hap, hne]

theorem tickFold (db0 : Db) (now : Nat) (l2 : List Nat) : ∀ (l1 : List Nat) (db : Db), (l1 ++ l2).Nodup →
    (∀ j, db.get j = (db0.get j).map (tickEvent db0 now l1)) →
    ∀ j, (l2.foldl (fun db id => db.tickOne now id) db).get j = (db0.get j).map (tickEvent db0 now (l1 ++ l2)) := by
  induction l2 with
  | nil => intro l1 db _ h j; simpa using h j
  | cons i l2 ih =>
    intro l1 db hnd h j
    rw [List.foldl_cons]
    have := ih (l1 ++ [i]) (db.tickOne now i) (by simpa using hnd) (tickStep db0 db now l1 i ?_ h) j
    · simpa using this
    · intro hmem
      have := (List.nodup_append.1 hnd).2.2 i hmem i (by simp)
      exact this rfl

theorem nodup_ids {db : Db} (h : db.events.Pairwise (fun a b => a.id < b.id)) : (db.events.map (·.id)).reverse.Nodup := by
  unfold List.Nodup
  rw [List.pairwise_reverse, List.pairwise_map]
  exact h.imp (fun h => by omega)

theorem tick_get {db : Db} (h : db.events.Pairwise (fun a b => a.id < b.id)) (now j : Nat) :
    (db.tick now).get j = (db.get j).map (tickEvent db now (db.events.map (·.id)).reverse) := by
  unfold Db.tick
  have := tickFold db now (db.events.map (·.id)).reverse [] db (by simpa using nodup_ids h)
    (fun k => by
      have : (tickEvent db now []) = id := by funext e; exact tickEvent_nil db now e
      rw [this]; simp) j
  simpa using this

theorem groupHit_iff (db : Db) (now : Nat) (e : Event) :
    groupHit db now (db.events.map (·.id)).reverse e = true ↔
      ∃ m x, db.get m = some x ∧ x.due now = true ∧ x.signaled = false ∧ x.group.isSome = true ∧ x.group = e.group := by
  unfold groupHit
  rw [List.any_eq_true]
  constructor
  · rintro ⟨m, _, h⟩
    cases hm : db.get m with
    | none => rw [hm] at h; cases h
    | some x =>
      rw [hm] at h
      simp only [Bool.and_eq_true, Bool.not_eq_true', beq_iff_eq] at h
      exact ⟨m, x, hm, h.1.1.1, h.1.1.2, h.1.2, h.2⟩
  · rintro ⟨m, x, hm, h1, h2, h3, h4⟩
    refine ⟨m, mem_ids hm, ?_⟩
    rw [hm]
    rw [h4] at h3
    simp [h1, h2, h3, h4]
end Verif.Events
