import Verif.Images.Spec
namespace Verif.Images

theorem put_same (f : Nat → Option Img) (a : Nat) (v : Option Img) : put f a v a = v := if_pos rfl
theorem put_other (f : Nat → Option Img) {a x : Nat} (v : Option Img) (h : x ≠ a) : put f a v x = f x := if_neg h

/-! ### The stack and the calls that have not returned -/

def Match : List Frame → Open → Prop
  | [], o => o = []
  | .entry h _ w v :: k, o => ∃ o', o = (h, w && v, none) :: o' ∧ Match k o'
  | .unload _ .service :: k, o => Match k o
  | .unload _ (.event (.refused _ _)) :: k, o => Match k o
  | .unload _ (.event (.returned h st d)) :: k, o => ∃ w d' o', o = (h, w, some (st, d')) :: o' ∧ d = (if w then d' else none) ∧ Match k o'
  | .unload _ (.event _) :: _, _ => False

def Prevs : List Frame → Prop
  | [] => True
  | .entry _ p _ _ :: k => p = (running k).head? ∧ Prevs k
  | .unload _ _ :: k => Prevs k

structure Good (s : Sys) : Prop where
  ctx : s.contexts = running s.stack
  cur : s.current = (running s.stack).head?
  prevs : Prevs s.stack
  once : (running s.stack).Nodup
  live : ∀ h ∈ running s.stack, ∃ i, s.images h = some i ∧ i.started = true ∧ i.data = none
  fresh : ∀ h i, s.images h = some i → i.started = false → i.data = none
  known : ∀ h, s.images h ≠ none → s.log.any (isLoaded h) = true
  opened : ∃ o, replayAll [] s.log = some o ∧ Match s.stack o

/-- About to do what `why` says. -/
def Pending (s : Sys) (why : Why) : Prop := Good { s with stack := .unload 0 why :: s.stack }

theorem replayAll_append {o o' : Open} {l m : List Ev} (h : replayAll o l = some o') : replayAll o (l ++ m) = replayAll o' m := by
  induction l generalizing o with
  | nil => injection h with h; rw [h]; rfl
  | cons e l ih =>
    show (match replay o e with | some o => replayAll o (l ++ m) | none => none) = _
    have h' : (match replay o e with | some o => replayAll o l | none => none) = some o' := h
    cases hr : replay o e with
    | none => rw [hr] at h'; cases h'
    | some o1 => rw [hr] at h'; exact ih h'

theorem replay_one {o o' o2 : Open} {l : List Ev} {e : Ev} (h : replayAll o l = some o') (he : replay o' e = some o2) : replayAll o (l ++ [e]) = some o2 := by
  rw [replayAll_append h]
  show (match replay o' e with | some o => replayAll o [] | none => none) = _
  rw [he]; rfl

def neutral : Ev → Bool
  | .entered _ _ => false
  | .exited _ _ _ => false
  | .returned _ _ _ => false
  | _ => true

theorem replay_neutral {e : Ev} (h : neutral e = true) (o : Open) : replay o e = some o := by
  cases e <;> first | rfl | cases h

theorem any_append_true {l m : List Ev} {p : Ev → Bool} (h : l.any p = true) : (l ++ m).any p = true := by rw [List.any_append, h]; rfl

theorem good_say {s : Sys} (h : Good s) {e : Ev} (he : neutral e = true) : Good (s.say e) := by
  obtain ⟨o, h1, h2⟩ := h.opened
  exact ⟨h.ctx, h.cur, h.prevs, h.once, h.live, h.fresh, fun x hx => any_append_true (h.known x hx), o, replay_one h1 (replay_neutral he o), h2⟩

theorem pending_say {s : Sys} {why : Why} (h : Pending s why) {e : Ev} (he : neutral e = true) : Pending (s.say e) why := good_say h he

/-- What is left to happen happens. -/
theorem answer_good {s : Sys} {why : Why} (h : Pending s why) (st : Nat) : Good (s.answer why st) := by
  obtain ⟨o, h1, h2⟩ := h.opened
  have mk : ∀ e o', replay o e = some o' → Match s.stack o' → Good (s.say e) := fun e o' he hm =>
    ⟨h.ctx, h.cur, h.prevs, h.once, h.live, h.fresh, fun x hx => any_append_true (h.known x hx), o', replay_one h1 he, hm⟩
  cases why with
  | service => exact mk (.answered st) o rfl h2
  | event e =>
    cases e with
    | refused a b => exact mk _ o rfl h2
    | returned a b d =>
      obtain ⟨w, d', o', ho, hd, hm⟩ := h2
      refine mk _ o' ?_ hm
      show (match o with | (h', w, some (st', d')) :: r => if h' = a ∧ st' = b ∧ d = (if w then d' else none) then some r else none | _ => none) = _
      rw [ho]
      exact if_pos ⟨rfl, rfl, hd⟩
    | _ => exact h2.elim

theorem finish_good {s : Sys} {h : Nat} {why : Why} (hp : Pending s why) (hi : s.images h ≠ none) :
    ∃ s', s.finish h why = .go s' ∧ ((∀ x ∈ running s'.stack, s'.images x ≠ none) → Good s') := by
  unfold Sys.finish
  cases hh : s.images h with
  | none => exact absurd hh hi
  | some i =>
    refine ⟨_, rfl, fun hr => answer_good (why := why) ?_ SUCCESS⟩
    have hr : ∀ x ∈ running s.stack, put s.images h none x ≠ none := by
      intro x hx
      have := hr x (by cases why <;> exact hx)
      cases why <;> exact this
    refine pending_say (s := { s with images := put s.images h none }) (e := .unloaded h)
      ⟨hp.ctx, hp.cur, hp.prevs, hp.once, fun x hx => ?_, fun x j hx hj => ?_, fun x hx => ?_, hp.opened⟩ rfl
    · have hne : x ≠ h := fun e => by
        have := hr x hx
        rw [e, put_same] at this
        exact this rfl
      obtain ⟨j, h1, h2⟩ := hp.live x hx
      exact ⟨j, by dsimp only; rw [put_other _ _ hne]; exact h1, h2⟩
    · by_cases hne : x = h
      · dsimp only at hx; rw [hne, put_same] at hx; cases hx
      · dsimp only at hx; rw [put_other _ _ hne] at hx; exact hp.fresh x j hx hj
    · by_cases hne : x = h
      · dsimp only at hx; rw [hne, put_same] at hx; exact absurd rfl hx
      · dsimp only at hx; rw [put_other _ _ hne] at hx; exact hp.known x hx

theorem pending_frame {s : Sys} {why : Why} (hp : Pending s why) (h : Nat) : Good { s with stack := .unload h why :: s.stack } := by
  obtain ⟨o, h1, h2⟩ := hp.opened
  refine ⟨hp.ctx, hp.cur, hp.prevs, hp.once, hp.live, hp.fresh, hp.known, o, h1, ?_⟩
  cases why with
  | service => exact h2
  | event e => cases e <;> exact h2

theorem frame_pending {s : Sys} {why : Why} {h : Nat} {k : List Frame} (hg : Good s) (hs : s.stack = .unload h why :: k) : Pending { s with stack := k } why := by
  obtain ⟨o, h1, h2⟩ := hg.opened
  have hc := hg.ctx
  have hu := hg.cur
  have hv := hg.prevs
  have ho := hg.once
  have hl := hg.live
  rw [hs] at hc hu hv ho hl h2
  refine ⟨hc, hu, hv, ho, hl, hg.fresh, hg.known, o, h1, ?_⟩
  cases why with
  | service => exact h2
  | event e => cases e <;> exact h2

theorem unload_good {s : Sys} {why : Why} (hp : Pending s why) (h : Nat) (force : Bool) :
    ∃ s', s.unload h force why = .go s' ∧ ((∀ x ∈ running s'.stack, s'.images x ≠ none) → Good s') := by
  unfold Sys.unload
  cases hh : s.images h with
  | none => exact ⟨_, rfl, fun _ => answer_good hp _⟩
  | some i =>
    dsimp only
    have hi : s.images h ≠ none := by rw [hh]; simp
    by_cases h1 : i.started = true
    · rw [if_pos h1]
      by_cases h2 : i.unload = true
      · rw [if_pos h2]; exact ⟨_, rfl, fun _ => pending_frame hp h⟩
      · rw [if_neg h2]
        by_cases h3 : force = true
        · rw [if_pos h3]; exact finish_good hp hi
        · rw [if_neg h3]; exact ⟨_, rfl, fun _ => answer_good hp _⟩
    · rw [if_neg h1]; exact finish_good hp hi

theorem after_good {s : Sys} {e : Ev} (hp : Pending s (.event e)) (h st : Nat) (service : Bool) :
    ∃ s', s.after h st service e = .go s' ∧ ((∀ x ∈ running s'.stack, s'.images x ≠ none) → Good s') := by
  unfold Sys.after
  split
  · exact unload_good hp h true
  · exact ⟨_, rfl, fun _ => answer_good hp 0⟩

theorem good_pending {s : Sys} (h : Good s) : Pending s .service := ⟨h.ctx, h.cur, h.prevs, h.once, h.live, h.fresh, h.known, h.opened⟩
theorem good_refused {s : Sys} (h : Good s) (x st : Nat) : Pending s (.event (.refused x st)) :=
  ⟨h.ctx, h.cur, h.prevs, h.once, h.live, h.fresh, h.known, h.opened⟩

theorem innermost_running : ∀ {k : List Frame} {h : Nat} {p : Option Nat} {w v : Bool} {k' : List Frame}, innermost k = some ((h, p, w, v), k') →
    running k = h :: running k' ∧ (Prevs k → p = (running k').head? ∧ Prevs k') ∧
    ∀ o, Match k o → ∃ o', o.dropWhile (fun x => x.2.2.isSome) = (h, w && v, none) :: o' ∧ Match k' o'
  | [], _, _, _, _, _, hi => by cases hi
  | .entry h p w v :: k, _, _, _, _, _, hi => by
    cases hi
    exact ⟨rfl, fun hp => hp, fun o ⟨o', ho, hm⟩ => ⟨o', by rw [ho]; rfl, hm⟩⟩
  | .unload x why :: k, h, p, w, v, k', hi => by
    obtain ⟨h1, h2, h3⟩ := innermost_running (k := k) hi
    refine ⟨h1, h2, fun o hm => ?_⟩
    cases why with
    | service => exact h3 o hm
    | event e =>
      cases e with
      | refused a b => exact h3 o hm
      | returned a b d =>
        obtain ⟨w', d', o', ho, _, hm⟩ := hm
        obtain ⟨o2, h4, h5⟩ := h3 o' hm
        exact ⟨o2, by rw [ho, List.dropWhile_cons_of_pos (by rfl)]; exact h4, h5⟩
      | _ => exact hm.elim

theorem innermost_some : ∀ {k : List Frame} {h : Nat} {r : List Nat}, running k = h :: r → ∃ p w v k', innermost k = some ((h, p, w, v), k')
  | [], _, _, hr => by cases hr
  | .entry h p w v :: k, _, _, hr => by
    injection hr with h1 h2
    subst h1
    exact ⟨p, w, v, k, rfl⟩
  | .unload x why :: k, _, _, hr => innermost_some (k := k) hr

/-- The innermost image ends. `s` is the state with its exit data stored. -/
theorem leave_good {s0 s : Sys} (hg : Good s0) {h st : Nat} {d p : Option Nat} {w v : Bool} {k : List Frame} (hi : innermost s0.stack = some ((h, p, w, v), k))
    (hc : s.contexts = running k) (hl : s.log = s0.log) (him : ∃ i, s0.images h = some i ∧ s.images = put s0.images h (some { i with data := d })) :
    ∃ s', s.leave h st d p w v k = .go s' ∧ ((∀ x ∈ running s'.stack, s'.images x ≠ none) → Good s') := by
  obtain ⟨h1, h2, h3⟩ := innermost_running hi
  obtain ⟨h4, h5⟩ := h2 hg.prevs
  obtain ⟨o, h6, h7⟩ := hg.opened
  obtain ⟨o', h8, h9⟩ := h3 o h7
  obtain ⟨i, i1, i2⟩ := him
  have hn := hg.once
  rw [h1, List.nodup_cons] at hn
  have hs : i.started = true := by
    obtain ⟨j, j1, j2, _⟩ := hg.live h (by rw [h1]; simp)
    rw [i1] at j1; injection j1 with j1; rw [j1]; exact j2
  have hr : replay o (.exited h st d) = some ((h, w && v, some (st, d)) :: o') := by
    show (match o.dropWhile fun x => x.2.2.isSome with | (h', w, none) :: r => if h' = h then some ((h, w, some (st, d)) :: r) else none | _ => none) = _
    rw [h8]; exact if_pos rfl
  unfold Sys.leave
  refine after_good ?_ h st v
  refine ⟨hc, h4, h5, hn.2, fun x hx => ?_, fun x j hx hj => ?_, fun x hx => ?_, (h, w && v, some (st, d)) :: o', ?_, w && v, d, o', rfl, ?_, h9⟩
  · have hne : x ≠ h := fun e => hn.1 (e ▸ hx)
    obtain ⟨j, j1, j2⟩ := hg.live x (by rw [h1]; exact List.mem_cons_of_mem _ hx)
    refine ⟨j, ?_, j2⟩
    show s.images x = some j
    rw [i2, put_other _ _ hne]; exact j1
  · have hx : s.images x = some j := hx
    rw [i2] at hx
    by_cases hne : x = h
    · rw [hne, put_same] at hx
      injection hx with hx
      rw [← hx] at hj
      rw [hs] at hj; cases hj
    · rw [put_other _ _ hne] at hx; exact hg.fresh x j hx hj
  · have hx : s.images x ≠ none := hx
    rw [i2] at hx
    show (s.log ++ [_]).any _ = true
    rw [hl]
    refine any_append_true (hg.known x ?_)
    by_cases hne : x = h
    · rw [hne, i1]; simp
    · rw [put_other _ _ hne] at hx; exact hx
  · show replayAll [] (s.log ++ [_]) = _
    rw [hl]
    exact replay_one h6 hr
  · unfold Sys.data
    have e : (s.images h).bind Img.data = d := by rw [i2, put_same]; rfl
    show (if w = true ∧ v = true then (s.images h).bind Img.data else none) = _
    rw [e]
    cases w <;> cases v <;> rfl

theorem exit_good {s : Sys} (hg : Good s) (h st : Nat) (d : Option Nat) :
    ∃ s', s.exit h st d = .go s' ∧ ((∀ x ∈ running s'.stack, s'.images x ≠ none) → Good s') := by
  unfold Sys.exit
  cases hh : s.images h with
  | none => exact ⟨_, rfl, fun _ => good_say hg rfl⟩
  | some i =>
    dsimp only
    by_cases h1 : i.started = true
    · rw [if_neg (fun hn => hn h1)]
      by_cases h2 : s.current = some h
      · rw [if_neg (fun hn => hn h2)]
        have hr : ∃ r, running s.stack = h :: r := by
          have := hg.cur
          rw [h2] at this
          cases hr : running s.stack with
          | nil => rw [hr] at this; cases this
          | cons x r => rw [hr] at this; injection this with this; exact ⟨r, by rw [this]⟩
        obtain ⟨r, hr⟩ := hr
        obtain ⟨p, w, v, k, hi⟩ := innermost_some hr
        have hk : r = running k := by
          have := (innermost_running hi).1
          rw [hr] at this; injection this
        have hd : i.data = none := by
          obtain ⟨j, j1, _, j2⟩ := hg.live h (by rw [hr]; simp)
          rw [hh] at j1; injection j1 with j1; rw [j1]; exact j2
        have hctx := hg.ctx
        rw [hr, hk] at hctx
        rw [hctx]
        dsimp only
        cases d with
        | none =>
          unfold Sys.suspend
          dsimp only [Sys.store]
          rw [hi]
          dsimp only
          rw [if_pos rfl]
          refine leave_good hg hi rfl rfl ⟨i, hh, ?_⟩
          show s.images = _
          funext x
          by_cases hx : x = h
          · subst hx; rw [put_same, hh, ← hd]
          · rw [put_other _ _ hx]
        | some d =>
          unfold Sys.suspend
          dsimp only [Sys.store]
          rw [hi]
          dsimp only
          rw [if_pos rfl]
          exact leave_good hg hi rfl rfl ⟨i, hh, rfl⟩
      · rw [if_pos h2]; exact ⟨_, rfl, fun _ => good_say hg rfl⟩
    · rw [if_pos h1]; exact unload_good (good_pending hg) h true

theorem start_good {s : Sys} (hg : Good s) (h : Nat) (want service memory : Bool) :
    ∃ s', s.start h want service memory = .go s' ∧ ((∀ x ∈ running s'.stack, s'.images x ≠ none) → Good s') := by
  unfold Sys.start
  cases hh : s.images h with
  | none => exact after_good (good_refused hg _ _) _ _ _
  | some i =>
    dsimp only
    by_cases h1 : i.started = true
    · rw [if_pos h1]; exact after_good (good_refused hg _ _) _ _ _
    · rw [if_neg h1]
      by_cases h2 : memory = true
      · rw [if_neg (fun hn => hn h2)]
        have h1 : i.started = false := by cases hi : i.started with | true => exact absurd hi h1 | false => rfl
        have hnr : h ∉ running s.stack := fun hm => by
          obtain ⟨j, j1, j2, _⟩ := hg.live h hm
          rw [hh] at j1; injection j1 with j1; rw [← j1, h1] at j2; cases j2
        obtain ⟨o, o1, o2⟩ := hg.opened
        refine ⟨_, rfl, fun _ => ⟨?_, rfl, ⟨hg.cur, hg.prevs⟩, List.nodup_cons.2 ⟨hnr, hg.once⟩, fun x hx => ?_, fun x j hx hj => ?_, fun x hx => ?_,
          (h, want && service, none) :: o, replay_one o1 rfl, o, rfl, o2⟩⟩
        · show h :: s.contexts = h :: running s.stack
          rw [hg.ctx]
        · by_cases hx' : x = h
          · subst hx'; exact ⟨_, put_same _ _ _, rfl, hg.fresh x i hh h1⟩
          · rcases List.mem_cons.1 hx with hx | hx
            · exact absurd hx hx'
            · obtain ⟨j, j1, j2⟩ := hg.live x hx
              exact ⟨j, (put_other _ _ hx').trans j1, j2⟩
        · have hx : put s.images h (some { i with started := true }) x = some j := hx
          by_cases hx' : x = h
          · rw [hx', put_same] at hx; injection hx with hx; rw [← hx] at hj; cases hj
          · rw [put_other _ _ hx'] at hx; exact hg.fresh x j hx hj
        · have hx : put s.images h (some { i with started := true }) x ≠ none := hx
          refine any_append_true (hg.known x ?_)
          by_cases hx' : x = h
          · rw [hx', hh]; simp
          · rw [put_other _ _ hx'] at hx; exact hx
      · rw [if_pos h2]; exact after_good (good_refused hg _ _) _ _ _

theorem ret_good {s : Sys} (hg : Good s) (st : Nat) (hp : ∀ h why k, s.stack = .unload h why :: k → st = SUCCESS → s.images h ≠ none) :
    ∃ s', s.ret st = .go s' ∧ ((∀ x ∈ running s'.stack, s'.images x ≠ none) → Good s') := by
  unfold Sys.ret
  cases hs : s.stack with
  | nil => exact ⟨_, rfl, fun _ => hg⟩
  | cons f k =>
    cases f with
    | entry h p w v =>
      dsimp only
      have hr : running s.stack = h :: running k := by rw [hs]; rfl
      obtain ⟨i, i1, i2, _⟩ := hg.live h (by rw [hr]; simp)
      have hc : s.current = some h := by rw [hg.cur, hr]; rfl
      rw [if_pos ⟨by rw [i1]; exact i2, hc, by rw [hg.ctx, hr]; simp⟩]
      exact exit_good hg h st none
    | unload h why =>
      dsimp only
      have hq := frame_pending hg hs
      by_cases h0 : st = SUCCESS
      · rw [if_pos h0]; exact finish_good hq (hp h why k hs h0)
      · rw [if_neg h0]; exact ⟨_, rfl, fun _ => answer_good hq st⟩

theorem step_good {s : Sys} (hg : Good s) {a : Act} (hf : ∀ h app, a = .load h app → s.log.any (isLoaded h) = false)
    (hp : ∀ h why k, s.stack = .unload h why :: k → a = .ret SUCCESS → s.images h ≠ none) :
    ∃ s', s.step a = .go s' ∧ ((∀ x ∈ running s'.stack, s'.images x ≠ none) → Good s') := by
  cases a with
  | load h app =>
    have hn : s.images h = none := by
      cases hh : s.images h with
      | none => rfl
      | some i => exact absurd (hg.known h (by rw [hh]; simp)) (by rw [hf h app rfl]; simp)
    obtain ⟨o, o1, o2⟩ := hg.opened
    refine ⟨_, rfl, fun _ => ⟨hg.ctx, hg.cur, hg.prevs, hg.once, fun x hx => ?_, fun x j hx hj => ?_, fun x hx => ?_, o, replay_one o1 rfl, o2⟩⟩
    · have hx' : x ≠ h := fun e => by
        obtain ⟨j, j1, _⟩ := hg.live x hx
        rw [e, hn] at j1; cases j1
      obtain ⟨j, j1, j2⟩ := hg.live x hx
      exact ⟨j, (put_other _ _ hx').trans j1, j2⟩
    · have hx : put s.images h (some ⟨false, app, false, none⟩) x = some j := hx
      by_cases hx' : x = h
      · rw [hx', put_same] at hx; injection hx with hx; rw [← hx]
      · rw [put_other _ _ hx'] at hx; exact hg.fresh x j hx hj
    · have hx : put s.images h (some ⟨false, app, false, none⟩) x ≠ none := hx
      show (s.log ++ [_]).any _ = true
      by_cases hx' : x = h
      · rw [List.any_append, hx']; simp [isLoaded]
      · rw [put_other _ _ hx'] at hx; exact any_append_true (hg.known x hx)
  | setUnload h b =>
    have key : ∀ x j, put s.images h ((s.images h).map fun i => { i with unload := b }) x = some j →
        ∃ i, s.images x = some i ∧ i.started = j.started ∧ i.data = j.data := by
      intro x j hx
      by_cases hx' : x = h
      · subst hx'
        rw [put_same] at hx
        cases hh : s.images x with
        | none => rw [hh] at hx; cases hx
        | some i => rw [hh] at hx; injection hx with hx; exact ⟨i, rfl, by rw [← hx], by rw [← hx]⟩
      · rw [put_other _ _ hx'] at hx; exact ⟨j, hx, rfl, rfl⟩
    refine ⟨_, rfl, fun hr => ⟨hg.ctx, hg.cur, hg.prevs, hg.once, fun x hx => ?_, fun x j hx hj => ?_, fun x hx => ?_, hg.opened⟩⟩
    · have hr := hr x hx
      cases hh : put s.images h ((s.images h).map fun i => { i with unload := b }) x with
      | none => exact absurd hh hr
      | some j =>
        obtain ⟨i, i1, i2, i3⟩ := key x j hh
        obtain ⟨j', j1, j2, j3⟩ := hg.live x hx
        rw [i1] at j1; injection j1 with j1; subst j1
        exact ⟨j, hh, by rw [← i2]; exact j2, by rw [← i3]; exact j3⟩
    · obtain ⟨i, i1, i2, i3⟩ := key x j hx
      rw [← i3]; exact hg.fresh x i i1 (by rw [i2]; exact hj)
    · have hx : put s.images h ((s.images h).map fun i => { i with unload := b }) x ≠ none := hx
      cases hh : put s.images h ((s.images h).map fun i => { i with unload := b }) x with
      | none => exact absurd hh hx
      | some j =>
        obtain ⟨i, i1, _⟩ := key x j hh
        exact hg.known x (by rw [i1]; simp)
  | start h w v m => exact start_good hg h w v m
  | exit h st d => exact exit_good hg h st d
  | unload h => exact unload_good (good_pending hg) h false
  | ret st => exact ret_good hg st (fun h why k e e' => hp h why k e (by rw [e']))

theorem run_good {s : Sys} (hg : Good s) {l : List Act} (hf : Fresh l s) (hp : Polite l s) : ∃ s', s.run l = .go s' ∧ Good s' := by
  induction l generalizing s with
  | nil => exact ⟨s, rfl, hg⟩
  | cons a l ih =>
    obtain ⟨s1, h1, h2⟩ := step_good hg hf.1 hp.1
    obtain ⟨h3, h4⟩ := hp.2 s1 h1
    obtain ⟨s', h5, h6⟩ := ih (h2 h3) (hf.2 s1 h1) h4
    refine ⟨s', ?_, h6⟩
    show (match s.step a with | .go s => s.run l | .panics => .panics | .undefined => .undefined) = _
    rw [h1]; exact h5

theorem init_good : Good Sys.init := by
  refine ⟨rfl, rfl, trivial, List.nodup_nil, fun h hh => (List.not_mem_nil hh).elim, fun h i hi hs => ?_, fun h hi => ?_, [], rfl, rfl⟩
  · by_cases hx : h = 1
    · subst hx; injection hi with hi; rw [← hi]
    · have hi : put (fun _ => none) 1 (some ⟨true, false, false, none⟩) h = some i := hi
      rw [put_other _ _ hx] at hi; cases hi
  · by_cases hx : h = 1
    · subst hx; rfl
    · exact absurd (put_other (fun _ => none) (some ⟨true, false, false, none⟩) hx) hi

/-- Whatever images do, as long as none is unloaded while it runs: nothing panics or jumps to where nothing is; the calls nest; the image taken to be running is the
innermost one that has been entered and has not ended. -/
theorem calls_nest {l : List Act} (hf : Fresh l Sys.init) (hp : Polite l Sys.init) :
    ∃ s, Sys.init.run l = .go s ∧ Nested s.log ∧ s.current = (running s.stack).head? := by
  obtain ⟨s, h1, h2⟩ := run_good init_good hf hp
  obtain ⟨o, h3, _⟩ := h2.opened
  exact ⟨s, h1, by unfold Nested; rw [h3]; simp, h2.cur⟩

end Verif.Images
