import Verif.Images.Props
namespace Verif.Images

/-! ### Images are entered once -/

def calm : Ev → Bool
  | .loaded _ => false
  | .entered _ _ => false
  | _ => true

def CalmWhy : Why → Prop
  | .service => True
  | .event e => calm e = true

def CalmStack (k : List Frame) : Prop := ∀ h why, Frame.unload h why ∈ k → CalmWhy why

/-- What every step but `load` and `start` does: no image appears, none is started. -/
structure Quiet (s s' : Sys) : Prop where
  log : ∃ l, s'.log = s.log ++ l ∧ ∀ e ∈ l, calm e = true
  images : ∀ h i', s'.images h = some i' → ∃ i, s.images h = some i ∧ i.started = i'.started
  stack : CalmStack s.stack → CalmStack s'.stack

theorem Quiet.refl (s : Sys) : Quiet s s := ⟨⟨[], by simp, by simp⟩, fun _ i h => ⟨i, h, rfl⟩, fun h => h⟩

theorem Quiet.trans {a b c : Sys} (h : Quiet a b) (h' : Quiet b c) : Quiet a c := by
  obtain ⟨l, h1, h2⟩ := h.log
  obtain ⟨l', h3, h4⟩ := h'.log
  refine ⟨⟨l ++ l', by rw [h3, h1, List.append_assoc], fun e he => ?_⟩, fun x i hi => ?_, fun hs => h'.stack (h.stack hs)⟩
  · rcases List.mem_append.1 he with he | he
    · exact h2 e he
    · exact h4 e he
  · obtain ⟨j, j1, j2⟩ := h'.images x i hi
    obtain ⟨k, k1, k2⟩ := h.images x j j1
    exact ⟨k, k1, k2.trans j2⟩

theorem say_quiet (s : Sys) {e : Ev} (he : calm e = true) : Quiet s (s.say e) :=
  ⟨⟨[e], rfl, fun x hx => by rw [List.mem_singleton.1 hx]; exact he⟩, fun _ i h => ⟨i, h, rfl⟩, fun h => h⟩

theorem answer_quiet (s : Sys) {why : Why} (hw : CalmWhy why) (st : Nat) : Quiet s (s.answer why st) := by
  cases why with
  | service => exact say_quiet s rfl
  | event e => exact say_quiet s hw

theorem finish_quiet {s s' : Sys} {h : Nat} {why : Why} (hw : CalmWhy why) (hf : s.finish h why = .go s') : Quiet s s' := by
  unfold Sys.finish at hf
  cases hh : s.images h with
  | none => rw [hh] at hf; cases hf
  | some i =>
    rw [hh] at hf
    injection hf with hf
    subst hf
    refine Quiet.trans (b := { s with images := put s.images h none }) ⟨⟨[], by simp, by simp⟩, fun x j hj => ?_, fun h => h⟩
      ((say_quiet _ rfl).trans (answer_quiet _ hw _))
    by_cases hx : x = h
    · dsimp only at hj; rw [hx, put_same] at hj; cases hj
    · dsimp only at hj; rw [put_other _ _ hx] at hj; exact ⟨j, hj, rfl⟩

theorem unload_quiet {s s' : Sys} {h : Nat} {force : Bool} {why : Why} (hw : CalmWhy why) (hf : s.unload h force why = .go s') : Quiet s s' := by
  unfold Sys.unload at hf
  cases hh : s.images h with
  | none => rw [hh] at hf; injection hf with hf; subst hf; exact answer_quiet s hw _
  | some i =>
    rw [hh] at hf
    dsimp only at hf
    split at hf
    · split at hf
      · injection hf with hf; subst hf
        refine ⟨⟨[], by simp, by simp⟩, fun _ i h => ⟨i, h, rfl⟩, fun hs x why' hx => ?_⟩
        rcases List.mem_cons.1 hx with hx | hx
        · injection hx with _ hx; rw [hx]; exact hw
        · exact hs x why' hx
      · split at hf
        · exact finish_quiet hw hf
        · injection hf with hf; subst hf; exact answer_quiet s hw _
    · exact finish_quiet hw hf

theorem after_quiet {s s' : Sys} {h st : Nat} {v : Bool} {e : Ev} (he : calm e = true) (hf : s.after h st v e = .go s') : Quiet s s' := by
  unfold Sys.after at hf
  split at hf
  · exact unload_quiet (why := .event e) he hf
  · injection hf with hf; subst hf; exact say_quiet s he

theorem leave_quiet {s0 s s' : Sys} {h st : Nat} {d p : Option Nat} {w v : Bool} {k : List Frame} (hk : Quiet s0 { s with stack := k })
    (hf : s.leave h st d p w v k = .go s') : Quiet s0 s' := by
  unfold Sys.leave at hf
  refine hk.trans (Quiet.trans ?_ (after_quiet rfl hf))
  exact ⟨⟨[Ev.exited h st d], rfl, fun x hx => by rw [List.mem_singleton.1 hx]; rfl⟩, fun _ i h => ⟨i, h, rfl⟩, fun h => h⟩

theorem innermost_mem : ∀ {k : List Frame} {x : Nat × Option Nat × Bool × Bool} {k' : List Frame}, innermost k = some (x, k') → ∀ f ∈ k', f ∈ k
  | [], _, _, h => by cases h
  | .entry _ _ _ _ :: k, _, _, h => by cases h; exact fun f hf => List.mem_cons_of_mem _ hf
  | .unload _ _ :: k, _, _, h => fun f hf => List.mem_cons_of_mem _ (innermost_mem (k := k) h f hf)

theorem suspend_quiet {s0 s s' : Sys} {c st : Nat} {d : Option Nat} (hk : Quiet s0 s) (hf : s.suspend c st d = .go s') : Quiet s0 s' := by
  unfold Sys.suspend at hf
  cases hi : innermost s.stack with
  | none => rw [hi] at hf; cases hf
  | some x =>
    obtain ⟨⟨h, p, w, v⟩, k⟩ := x
    rw [hi] at hf
    dsimp only at hf
    split at hf
    · refine leave_quiet (k := k) ⟨hk.log, hk.images, fun hs x why hx => ?_⟩ hf
      exact hk.stack hs x why (innermost_mem hi _ hx)
    · cases hf

theorem exit_quiet {s s' : Sys} {h st : Nat} {d : Option Nat} (hf : s.exit h st d = .go s') : Quiet s s' := by
  unfold Sys.exit at hf
  cases hh : s.images h with
  | none => rw [hh] at hf; injection hf with hf; subst hf; exact say_quiet s rfl
  | some i =>
    rw [hh] at hf
    dsimp only at hf
    split at hf
    · exact unload_quiet (why := .service) trivial hf
    · split at hf
      · injection hf with hf; subst hf; exact say_quiet s rfl
      · have hq : Quiet s (s.store h i d) := by
          cases d with
          | none => exact Quiet.refl s
          | some d =>
            refine ⟨⟨[], by simp [Sys.store], by simp⟩, fun x j hj => ?_, fun h => h⟩
            have hj : put s.images h (some { i with data := some d }) x = some j := hj
            by_cases hx : x = h
            · rw [hx, put_same] at hj; injection hj with hj; subst hj; exact ⟨i, by rw [hx]; exact hh, rfl⟩
            · rw [put_other _ _ hx] at hj; exact ⟨j, hj, rfl⟩
        generalize s.store h i d = s1 at hf hq
        split at hf
        · injection hf with hf; subst hf; exact hq.trans (say_quiet s1 rfl)
        · next c cs _ => exact suspend_quiet (s := { s1 with contexts := cs }) ⟨hq.log, hq.images, hq.stack⟩ hf

theorem ret_quiet {s s' : Sys} {st : Nat} (hs : CalmStack s.stack) (hf : s.ret st = .go s') : Quiet s s' := by
  unfold Sys.ret at hf
  cases hk : s.stack with
  | nil => rw [hk] at hf; injection hf with hf; subst hf; exact Quiet.refl s
  | cons f k =>
    have hq : Quiet s { s with stack := k } :=
      ⟨⟨[], by simp, by simp⟩, fun _ i h => ⟨i, h, rfl⟩, fun hs x why hx => hs x why (by rw [hk]; exact List.mem_cons_of_mem _ hx)⟩
    rw [hk] at hf
    cases f with
    | entry h p w v =>
      dsimp only at hf
      split at hf
      · exact exit_quiet hf
      · exact leave_quiet hq hf
    | unload h why =>
      dsimp only at hf
      have hw : CalmWhy why := hs h why (by rw [hk]; exact List.mem_cons_self)
      split at hf
      · exact hq.trans (finish_quiet hw hf)
      · injection hf with hf; subst hf; exact hq.trans (answer_quiet _ hw _)

structure Once (s : Sys) : Prop where
  stack : CalmStack s.stack
  known : ∀ h, s.images h ≠ none → s.log.any (isLoaded h) = true
  entered : ∀ h, s.log.any (isEntered h) = true → s.log.any (isLoaded h) = true ∧ ∀ i, s.images h = some i → i.started = true
  count : ∀ h, s.log.countP (isEntered h) ≤ 1

theorem calm_any {l : List Ev} (hl : ∀ e ∈ l, calm e = true) (h : Nat) : l.any (isEntered h) = false ∧ l.countP (isEntered h) = 0 := by
  have : ∀ e ∈ l, isEntered h e = false := fun e he => by
    have := hl e he
    cases e <;> first | rfl | cases this
  refine ⟨List.any_eq_false.2 (fun e he => by rw [this e he]; simp), List.countP_eq_zero.2 (fun e he => by rw [this e he]; simp)⟩

theorem quiet_once {s s' : Sys} (ho : Once s) (hq : Quiet s s') : Once s' := by
  obtain ⟨l, h1, h2⟩ := hq.log
  refine ⟨hq.stack ho.stack, fun h hi => ?_, fun h he => ?_, fun h => ?_⟩
  · cases hh : s'.images h with
    | none => exact absurd hh hi
    | some i =>
      obtain ⟨j, j1, _⟩ := hq.images h i hh
      rw [h1]; exact any_append_true (ho.known h (by rw [j1]; simp))
  · rw [h1, List.any_append, (calm_any h2 h).1, Bool.or_false] at he
    obtain ⟨h3, h4⟩ := ho.entered h he
    refine ⟨by rw [h1]; exact any_append_true h3, fun i hi => ?_⟩
    obtain ⟨j, j1, j2⟩ := hq.images h i hi
    rw [← j2]; exact h4 j j1
  · rw [h1, List.countP_append, (calm_any h2 h).2]; exact ho.count h

theorem step_once {s s' : Sys} (ho : Once s) {a : Act} (hf : ∀ h app, a = .load h app → s.log.any (isLoaded h) = false) (hs : s.step a = .go s') : Once s' := by
  cases a with
  | load h app =>
    injection hs with hs
    subst hs
    have hn : s.log.any (isEntered h) = false := by
      cases hh : s.log.any (isEntered h) with
      | false => rfl
      | true => exact absurd (ho.entered h hh).1 (by rw [hf h app rfl]; simp)
    refine ⟨ho.stack, fun x hx => ?_, fun x hx => ?_, fun x => ?_⟩
    · show (s.log ++ [_]).any _ = true
      have hx : put s.images h (some ⟨false, app, false, none⟩) x ≠ none := hx
      by_cases hx' : x = h
      · rw [List.any_append, hx']; simp [isLoaded]
      · rw [put_other _ _ hx'] at hx; exact any_append_true (ho.known x hx)
    · have hx : (s.log ++ [Ev.loaded h]).any (isEntered x) = true := hx
      rw [List.any_append] at hx
      have hx : s.log.any (isEntered x) = true := by simpa [isEntered] using hx
      have hne : x ≠ h := fun e => by rw [e, hn] at hx; cases hx
      obtain ⟨h1, h2⟩ := ho.entered x hx
      exact ⟨any_append_true h1, fun i hi => h2 i ((put_other _ _ hne).symm.trans hi)⟩
    · show (s.log ++ [Ev.loaded h]).countP _ ≤ 1
      rw [List.countP_append]; exact ho.count x
  | setUnload h b =>
    injection hs with hs
    subst hs
    refine quiet_once ho ⟨⟨[], by simp, by simp⟩, fun x j hj => ?_, fun h => h⟩
    have hj : put s.images h ((s.images h).map fun i => { i with unload := b }) x = some j := hj
    by_cases hx : x = h
    · subst hx
      rw [put_same] at hj
      cases hh : s.images x with
      | none => rw [hh] at hj; cases hj
      | some i => rw [hh] at hj; injection hj with hj; exact ⟨i, rfl, by rw [← hj]⟩
    · rw [put_other _ _ hx] at hj; exact ⟨j, hj, rfl⟩
  | start h w v m =>
    have hs : s.start h w v m = .go s' := hs
    unfold Sys.start at hs
    cases hh : s.images h with
    | none => rw [hh] at hs; exact quiet_once ho (after_quiet rfl hs)
    | some i =>
      rw [hh] at hs
      dsimp only at hs
      split at hs
      · exact quiet_once ho (after_quiet rfl hs)
      · next h1 =>
        split at hs
        · exact quiet_once ho (after_quiet rfl hs)
        · injection hs with hs
          subst hs
          have hn : s.log.any (isEntered h) = false := by
            cases hx : s.log.any (isEntered h) with
            | false => rfl
            | true => exact absurd ((ho.entered h hx).2 i hh) h1
          refine ⟨fun x why hx => ?_, fun x hx => ?_, fun x hx => ?_, fun x => ?_⟩
          · rcases List.mem_cons.1 hx with hx | hx
            · cases hx
            · exact ho.stack x why hx
          · have hx : put s.images h (some { i with started := true }) x ≠ none := hx
            refine any_append_true (ho.known x ?_)
            by_cases hx' : x = h
            · rw [hx', hh]; simp
            · rw [put_other _ _ hx'] at hx; exact hx
          · by_cases hx' : x = h
            · subst hx'
              exact ⟨any_append_true (ho.known x (by rw [hh]; simp)), fun j hj => by
                have hj : put s.images x (some { i with started := true }) x = some j := hj
                rw [put_same] at hj; injection hj with hj; rw [← hj]⟩
            · have hx : (s.log ++ [Ev.entered h (w && v)]).any (isEntered x) = true := hx
              rw [List.any_append] at hx
              have hx : s.log.any (isEntered x) = true := by simpa [isEntered, Ne.symm hx'] using hx
              obtain ⟨h1, h2⟩ := ho.entered x hx
              exact ⟨any_append_true h1, fun j hj => h2 j ((put_other _ _ hx').symm.trans hj)⟩
          · show (s.log ++ [Ev.entered h (w && v)]).countP _ ≤ 1
            rw [List.countP_append]
            by_cases hx' : x = h
            · subst hx'
              have : s.log.countP (isEntered x) = 0 := List.countP_eq_zero.2 (List.any_eq_false.1 hn)
              rw [this, List.countP_singleton]; split <;> omega
            · have : List.countP (isEntered x) [Ev.entered h (w && v)] = 0 := by
                rw [List.countP_singleton, if_neg]; simp [isEntered, Ne.symm hx']
              rw [this]; exact ho.count x
  | exit h st d => exact quiet_once ho (exit_quiet hs)
  | unload h => exact quiet_once ho (unload_quiet (why := .service) trivial hs)
  | ret st => exact quiet_once ho (ret_quiet ho.stack hs)

theorem run_once {s : Sys} (ho : Once s) {l : List Act} (hf : Fresh l s) {s' : Sys} (hr : s.run l = .go s') : Once s' := by
  induction l generalizing s with
  | nil => injection hr with hr; rw [← hr]; exact ho
  | cons a l ih =>
    have hr : (match s.step a with | .go s => s.run l | .panics => .panics | .undefined => .undefined) = .go s' := hr
    cases hs : s.step a with
    | go s1 => rw [hs] at hr; exact ih (step_once ho hf.1 hs) (hf.2 s1 hs) hr
    | panics => rw [hs] at hr; cases hr
    | undefined => rw [hs] at hr; cases hr

/-- The entry point of an image is called at most once, whatever anyone does. -/
theorem entered_once {l : List Act} (hf : Fresh l Sys.init) {s : Sys} (hr : Sys.init.run l = .go s) (h : Nat) : s.log.countP (isEntered h) ≤ 1 :=
  (run_once (s := Sys.init) ⟨fun _ _ hx => (List.not_mem_nil hx).elim, init_good.known, (fun x hx => by cases hx), fun x => by simp [Sys.init, isEntered]⟩ hf hr).count h

/-! ### What the services do -/

/-- An image that has not been started is entered, and is then the one that is running. -/
theorem start_enters {s : Sys} {h : Nat} {i : Img} (hi : s.images h = some i) (hs : i.started = false) (want service : Bool) :
    ∃ s', s.step (.start h want service true) = .go s' ∧ s'.log = s.log ++ [.entered h (want && service)] ∧ s'.current = some h ∧
      running s'.stack = h :: running s.stack := by
  refine ⟨{ s with images := put s.images h (some { i with started := true }), current := some h, contexts := h :: s.contexts,
                   stack := .entry h s.current want service :: s.stack }.say (.entered h (want && service)), ?_, rfl, rfl, rfl⟩
  show s.start h want service true = _
  unfold Sys.start
  rw [hi]
  dsimp only
  rw [hs, if_neg (by simp), if_neg (by simp)]

/-- No one but the running image can end, by `Exit`, an image that has been started. -/
theorem exit_refused {s : Sys} {h : Nat} (hi : ∀ i, s.images h = some i → i.started = true) (hc : s.current ≠ some h) (st : Nat) (d : Option Nat) :
    s.step (.exit h st d) = .go (s.say (.answered INVALID_PARAMETER)) := by
  show s.exit h st d = _
  unfold Sys.exit
  cases hh : s.images h with
  | none => rfl
  | some i => dsimp only; rw [if_neg (fun hn => hn (hi i hh)), if_pos hc]

/-- `Exit` for an image that has not been started unloads it. -/
theorem exit_unstarted {s : Sys} {h : Nat} {i : Img} (hi : s.images h = some i) (hs : i.started = false) (st : Nat) (d : Option Nat) :
    ∃ s', s.step (.exit h st d) = .go s' ∧ s'.log = s.log ++ [.unloaded h, .answered SUCCESS] ∧ s'.images = put s.images h none ∧ s'.stack = s.stack := by
  refine ⟨(({ s with images := put s.images h none }.say (.unloaded h)).say (.answered SUCCESS)), ?_, by simp [Sys.say], rfl, rfl⟩
  show s.exit h st d = _
  unfold Sys.exit
  rw [hi]
  dsimp only
  rw [if_pos (by rw [hs]; simp)]
  unfold Sys.unload
  rw [hi]
  dsimp only
  rw [hs, if_neg (by simp)]
  unfold Sys.finish
  rw [hi]; rfl

theorem unload_unstarted {s : Sys} {h : Nat} {i : Img} (hi : s.images h = some i) (hs : i.started = false) :
    ∃ s', s.step (.unload h) = .go s' ∧ s'.log = s.log ++ [.unloaded h, .answered SUCCESS] ∧ s'.images = put s.images h none ∧ s'.stack = s.stack := by
  refine ⟨(({ s with images := put s.images h none }.say (.unloaded h)).say (.answered SUCCESS)), ?_, by simp [Sys.say], rfl, rfl⟩
  show s.unload h false .service = _
  unfold Sys.unload
  rw [hi]
  dsimp only
  rw [hs, if_neg (by simp)]
  unfold Sys.finish
  rw [hi]; rfl

/-- `UnloadImage` refuses to unload a started image without an unload function. -/
theorem unload_refused {s : Sys} {h : Nat} {i : Img} (hi : s.images h = some i) (hs : i.started = true) (hu : i.unload = false) :
    s.step (.unload h) = .go (s.say (.answered UNSUPPORTED)) := by
  show s.unload h false .service = _
  unfold Sys.unload
  rw [hi]
  dsimp only
  rw [hs, hu, if_pos rfl, if_neg (by simp), if_neg (by simp)]; rfl

/-- With an unload function, the function is asked: its error is passed on and the image stays; its success unloads the image. -/
theorem unload_asks {s : Sys} {h : Nat} {i : Img} (hi : s.images h = some i) (hs : i.started = true) (hu : i.unload = true) :
    ∃ s', s.step (.unload h) = .go s' ∧ s'.log = s.log ∧ s'.images = s.images ∧
      (∀ st, st ≠ SUCCESS → ∃ s'', s'.step (.ret st) = .go s'' ∧ s''.log = s.log ++ [.answered st] ∧ s''.images = s.images) ∧
      ∃ s'', s'.step (.ret SUCCESS) = .go s'' ∧ s''.log = s.log ++ [.unloaded h, .answered SUCCESS] ∧ s''.images = put s.images h none := by
  refine ⟨{ s with stack := .unload h .service :: s.stack }, ?_, rfl, rfl, fun st hst => ⟨s.say (.answered st), ?_, rfl, rfl⟩,
    (({ s with images := put s.images h none }.say (.unloaded h)).say (.answered SUCCESS)), ?_, by simp [Sys.say], rfl⟩
  · show s.unload h false .service = _
    unfold Sys.unload
    rw [hi]
    dsimp only
    rw [hs, hu, if_pos rfl, if_pos rfl]
  · show Sys.ret { s with stack := .unload h .service :: s.stack } st = _
    unfold Sys.ret
    dsimp only
    rw [if_neg hst]; rfl
  · show Sys.ret { s with stack := .unload h .service :: s.stack } SUCCESS = _
    unfold Sys.ret
    dsimp only
    rw [if_pos rfl]
    unfold Sys.finish
    dsimp only
    rw [hi]; rfl

/-- The running image ends, whether by `Exit` or by returning: what follows. -/
theorem ends_leave {s : Sys} (hg : Good s) {a : Act} {h st : Nat} (he : Ends s a h st) :
    ∃ i p w v k, ∃ s1 : Sys, innermost s.stack = some ((h, p, w, v), k) ∧ s.images h = some i ∧
      s1.images = put s.images h (some { i with data := dataOf a }) ∧ s1.contexts = running k ∧ s1.log = s.log ∧ s.step a = s1.leave h st (dataOf a) p w v k := by
  have hc : s.current = some h := by
    rcases he with ⟨hc, _⟩ | ⟨⟨p, w, v, k, hk⟩, _⟩
    · exact hc
    · rw [hg.cur, hk]; rfl
  have hr : ∃ r, running s.stack = h :: r := by
    have := hg.cur
    rw [hc] at this
    cases hr : running s.stack with
    | nil => rw [hr] at this; cases this
    | cons x r => rw [hr] at this; injection this with this; exact ⟨r, by rw [this]⟩
  obtain ⟨r, hr⟩ := hr
  obtain ⟨p, w, v, k, hi⟩ := innermost_some hr
  have hk : r = running k := by
    have := (innermost_running hi).1
    rw [hr] at this; injection this
  obtain ⟨i, i1, i2, i3⟩ := hg.live h (by rw [hr]; simp)
  have hctx := hg.ctx
  rw [hr, hk] at hctx
  have hsame : s.images = put s.images h (some { i with data := none }) := by
    funext x
    by_cases hx : x = h
    · subst hx; rw [put_same, i1, ← i3]
    · rw [put_other _ _ hx]
  have hx : ∀ d, s.exit h st d = { s with images := put s.images h (some { i with data := d }), contexts := running k }.leave h st d p w v k := by
    intro d
    unfold Sys.exit
    rw [i1]
    dsimp only
    rw [if_neg (fun hn => hn i2), if_neg (fun hn => hn hc)]
    rw [hctx]
    dsimp only
    cases d with
    | none =>
      unfold Sys.suspend
      dsimp only [Sys.store]
      rw [hi]
      dsimp only
      rw [if_pos rfl, ← hsame]
    | some d =>
      unfold Sys.suspend
      dsimp only [Sys.store]
      rw [hi]
      dsimp only
      rw [if_pos rfl]
  rcases he with ⟨_, d, ha⟩ | ⟨⟨p', w', v', k', hs⟩, ha⟩
  · subst ha
    exact ⟨i, p, w, v, k, { s with images := put s.images h (some { i with data := d }), contexts := running k }, hi, i1, rfl, rfl, rfl, hx d⟩
  · subst ha
    refine ⟨i, p, w, v, k, { s with images := put s.images h (some { i with data := none }), contexts := running k }, hi, i1, rfl, rfl, rfl, ?_⟩
    show s.ret st = Sys.leave _ h st none p w v k
    rw [← hx none]
    unfold Sys.ret
    rw [hs]
    dsimp only
    rw [if_pos ⟨by rw [i1]; exact i2, hc, by rw [hctx]; simp⟩]

theorem reached_good {s : Sys} (h : Reached s) : Good s := by
  obtain ⟨l, h1, h2, h3⟩ := h
  obtain ⟨s', h4, h5⟩ := run_good init_good h1 h2
  rw [h3] at h4; injection h4 with h4; rw [h4]; exact h5

/-- The running image ends: its entry point is left, the one that was running when it was started is the one that runs, and it stays loaded, started and with its
exit data, unless it has been started by `StartImage` and has failed or is an application. -/
theorem ends_stays {s : Sys} (hr : Reached s) {a : Act} {h st : Nat} (he : Ends s a h st) {i : Img} (hi : s.images h = some i)
    (hs : ¬ ByService s h ∨ st = SUCCESS ∧ i.app = false) :
    ∃ s' e, s.step a = .go s' ∧ s'.log = s.log ++ [Ev.exited h st (dataOf a), .returned h st e] ∧ running s.stack = h :: running s'.stack ∧
      s'.images = put s.images h (some { i with data := dataOf a }) := by
  have hg := reached_good hr
  obtain ⟨j, p, w, v, k, s1, h1, h2, h3, h4, h5, h6⟩ := ends_leave hg he
  rw [h2] at hi; injection hi with hi; subst hi
  have hd : ∃ e, s.step a = .go (({ s1 with stack := k, current := p }.say (Ev.exited h st (dataOf a))).say (.returned h st e)) := by
    rw [h6]
    unfold Sys.leave Sys.after
    dsimp only
    rw [if_neg]
    · exact ⟨_, rfl⟩
    · rintro ⟨hv, hx⟩
      rcases hs with hs | hs
      · exact hs ⟨p, w, k, by rw [← hv]; exact h1⟩
      · rcases hx with hx | hx
        · exact hx hs.1
        · have hx : (s1.images h).any Img.app = true := hx
          rw [h3, put_same] at hx
          have hx : j.app = true := hx
          rw [hs.2] at hx; cases hx
  obtain ⟨e, hd⟩ := hd
  refine ⟨_, e, hd, ?_, (innermost_running h1).1, h3⟩
  show s1.log ++ [_] ++ [_] = _
  rw [h5, List.append_assoc]; rfl

/-- Started by `StartImage`, and failed or an application, it is unloaded before its starter goes on, unless it has an unload function. -/
theorem ends_unloaded {s : Sys} (hr : Reached s) {a : Act} {h st : Nat} (he : Ends s a h st) {i : Img} (hi : s.images h = some i)
    (hb : ByService s h) (hs : st ≠ SUCCESS ∨ i.app = true) (hu : i.unload = false) :
    ∃ s' e, s.step a = .go s' ∧ s'.log = s.log ++ [Ev.exited h st (dataOf a), .unloaded h, .returned h st e] ∧ running s.stack = h :: running s'.stack ∧
      s'.images = put s.images h none := by
  have hg := reached_good hr
  obtain ⟨j, p, w, v, k, s1, h1, h2, h3, h4, h5, h6⟩ := ends_leave hg he
  obtain ⟨p', w', k', hb⟩ := hb
  rw [h1] at hb; injection hb with hb; injection hb with hb _; injection hb with _ hb; injection hb with _ hb; injection hb with _ hv
  subst hv
  rw [h2] at hi; injection hi with hi; subst hi
  have hst : j.started = true := by
    obtain ⟨i', i1, i2, _⟩ := hg.live h (by rw [(innermost_running h1).1]; simp)
    rw [h2] at i1; injection i1 with i1; rw [i1]; exact i2
  have hd : ∃ e, s.step a = .go ((({ s1 with stack := k, current := p, log := s1.log ++ [Ev.exited h st (dataOf a)], images := put s1.images h none }.say (.unloaded h)).say (.returned h st e))) := by
    rw [h6]
    unfold Sys.leave Sys.after
    dsimp only
    rw [if_pos]
    · unfold Sys.unload
      dsimp only [Sys.say]
      rw [h3, put_same]
      dsimp only
      rw [hst, hu, if_pos rfl, if_neg (by simp), if_pos rfl]
      unfold Sys.finish
      dsimp only
      rw [put_same]
      exact ⟨_, rfl⟩
    · refine ⟨rfl, hs.imp (fun x => x) fun hx => ?_⟩
      show (s1.images h).any Img.app = true
      rw [h3, put_same]; exact hx
  obtain ⟨e, hd⟩ := hd
  refine ⟨_, e, hd, ?_, (innermost_running h1).1, ?_⟩
  · show s1.log ++ [_] ++ [_] ++ [_] = _
    rw [h5, List.append_assoc, List.append_assoc]; rfl
  · show put s1.images h none = _
    rw [h3]
    funext x
    by_cases hx : x = h
    · subst hx; rw [put_same, put_same]
    · rw [put_other _ _ hx, put_other _ _ hx, put_other _ _ hx]

/-- With an unload function, that function is asked; it may keep the image. -/
theorem ends_asks {s : Sys} (hr : Reached s) {a : Act} {h st : Nat} (he : Ends s a h st) {i : Img} (hi : s.images h = some i)
    (hb : ByService s h) (hs : st ≠ SUCCESS ∨ i.app = true) (hu : i.unload = true) :
    ∃ s' e k, s.step a = .go s' ∧ s'.log = s.log ++ [Ev.exited h st (dataOf a)] ∧ s'.stack = .unload h (.event (.returned h st e)) :: k ∧
      running s.stack = h :: running k ∧ s'.images = put s.images h (some { i with data := dataOf a }) := by
  have hg := reached_good hr
  obtain ⟨j, p, w, v, k, s1, h1, h2, h3, h4, h5, h6⟩ := ends_leave hg he
  obtain ⟨p', w', k', hb⟩ := hb
  rw [h1] at hb; injection hb with hb; injection hb with hb _; injection hb with _ hb; injection hb with _ hb; injection hb with _ hv
  subst hv
  rw [h2] at hi; injection hi with hi; subst hi
  have hst : j.started = true := by
    obtain ⟨i', i1, i2, _⟩ := hg.live h (by rw [(innermost_running h1).1]; simp)
    rw [h2] at i1; injection i1 with i1; rw [i1]; exact i2
  have hd : ∃ e, s.step a = .go { s1 with stack := .unload h (.event (.returned h st e)) :: k, current := p, log := s1.log ++ [Ev.exited h st (dataOf a)] } := by
    rw [h6]
    unfold Sys.leave Sys.after
    dsimp only
    rw [if_pos]
    · unfold Sys.unload
      dsimp only [Sys.say]
      rw [h3, put_same]
      dsimp only
      rw [hst, hu, if_pos rfl, if_pos rfl]
      exact ⟨_, rfl⟩
    · refine ⟨rfl, hs.imp (fun x => x) fun hx => ?_⟩
      show (s1.images h).any Img.app = true
      rw [h3, put_same]; exact hx
  obtain ⟨e, hd⟩ := hd
  exact ⟨_, e, k, hd, by rw [← h5], rfl, (innermost_running h1).1, h3⟩

/-! ### What makes images go away -/

theorem answer_images (s : Sys) (why : Why) (st : Nat) : (s.answer why st).images = s.images := by cases why <;> rfl

theorem finish_gone {s s' : Sys} {h' : Nat} {why : Why} (hs : s.finish h' why = .go s') {h : Nat} (hi : s.images h ≠ none) (hn : s'.images h = none) : h' = h := by
  unfold Sys.finish at hs
  cases hh : s.images h' with
  | none => rw [hh] at hs; cases hs
  | some i =>
    rw [hh] at hs
    injection hs with hs
    subst hs
    rw [answer_images] at hn
    have hn : put s.images h' none h = none := hn
    by_cases hx : h = h'
    · exact hx.symm
    · rw [put_other _ _ hx] at hn; exact absurd hn hi

theorem unload_gone {s s' : Sys} {h' : Nat} {force : Bool} {why : Why} (hs : s.unload h' force why = .go s') {h : Nat} {i : Img} (hi : s.images h = some i)
    (hn : s'.images h = none) : h' = h ∧ (i.started = false ∨ i.started = true ∧ i.unload = false ∧ force = true) := by
  have hi' : s.images h ≠ none := by rw [hi]; simp
  unfold Sys.unload at hs
  cases hh : s.images h' with
  | none => rw [hh] at hs; injection hs with hs; subst hs; rw [answer_images, hi] at hn; cases hn
  | some j =>
    rw [hh] at hs
    dsimp only at hs
    split at hs
    · next h1 =>
      split at hs
      · injection hs with hs; subst hs; rw [hi] at hn; cases hn
      · next h2 =>
        split at hs
        · next h3 =>
          have := finish_gone hs hi' hn
          subst this
          rw [hh] at hi; injection hi with hi; subst hi
          exact ⟨rfl, .inr ⟨h1, by simpa using h2, h3⟩⟩
        · injection hs with hs; subst hs; rw [answer_images, hi] at hn; cases hn
    · next h1 =>
      have := finish_gone hs hi' hn
      subst this
      rw [hh] at hi; injection hi with hi; subst hi
      exact ⟨rfl, .inl (by simpa using h1)⟩

theorem after_gone {s s' : Sys} {h' st : Nat} {v : Bool} {e : Ev} (hs : s.after h' st v e = .go s') {h : Nat} {i : Img} (hi : s.images h = some i)
    (hn : s'.images h = none) : h' = h ∧ v = true ∧ (st ≠ SUCCESS ∨ i.app = true) ∧ (i.started = false ∨ i.started = true ∧ i.unload = false) := by
  unfold Sys.after at hs
  split at hs
  · next hc =>
    obtain ⟨h1, h2⟩ := unload_gone hs hi hn
    subst h1
    refine ⟨rfl, hc.1, hc.2.imp (fun x => x) fun hx => ?_, h2.imp (fun x => x) fun hx => ⟨hx.1, hx.2.1⟩⟩
    rw [hi] at hx; exact hx
  · injection hs with hs; subst hs
    have hn : s.images h = none := hn
    rw [hi] at hn; cases hn

/-- As long as no image is unloaded while it runs, an image goes away for one of these reasons only. -/
theorem gone_only {s s' : Sys} (hr : Reached s) {a : Act} (hs : s.step a = .go s') {h : Nat} {i : Img} (hi : s.images h = some i) (hn : s'.images h = none) :
    Cause s h i a := by
  have hg := reached_good hr
  have hi' : s.images h ≠ none := by rw [hi]; simp
  have ends : ∀ {h' st}, Ends s a h' st → Cause s h i a := by
    intro h' st he
    obtain ⟨j, p, w, v, k, s1, h1, h2, h3, h4, h5, h6⟩ := ends_leave hg he
    rw [h6] at hs
    unfold Sys.leave at hs
    have hs1 : ∃ i', s1.images h = some i' ∧ i'.app = i.app ∧ i'.unload = i.unload ∧ (h' = h → i'.started = true) := by
      rw [h3]
      by_cases hx : h = h'
      · subst hx
        rw [h2] at hi; injection hi with hi; subst hi
        refine ⟨_, put_same _ _ _, rfl, rfl, fun _ => ?_⟩
        obtain ⟨i', i1, i2, _⟩ := hg.live h (by rw [(innermost_running h1).1]; simp)
        rw [h2] at i1; injection i1 with i1; rw [i1]; exact i2
      · exact ⟨i, (put_other _ _ hx).trans hi, rfl, rfl, fun e => absurd e.symm hx⟩
    obtain ⟨i', i1, i2, i3, i4⟩ := hs1
    obtain ⟨e1, e2, e3, e4⟩ := after_gone (i := i') hs i1 hn
    subst e1
    refine .ended he ⟨p, w, k, by rw [← e2]; exact h1⟩ (by rw [← i2]; exact e3) ?_
    rcases e4 with e4 | e4
    · rw [i4 rfl] at e4; cases e4
    · rw [← i3]; exact e4.2
  cases a with
  | load h' app =>
    injection hs with hs; subst hs
    have hn : put s.images h' (some ⟨false, app, false, none⟩) h = none := hn
    by_cases hx : h = h'
    · rw [hx, put_same] at hn; cases hn
    · rw [put_other _ _ hx] at hn; exact absurd hn hi'
  | setUnload h' b =>
    injection hs with hs; subst hs
    have hn : put s.images h' ((s.images h').map fun i => { i with unload := b }) h = none := hn
    by_cases hx : h = h'
    · rw [← hx, put_same, hi] at hn; cases hn
    · rw [put_other _ _ hx] at hn; exact absurd hn hi'
  | start h' w v m =>
    have hs : s.start h' w v m = .go s' := hs
    unfold Sys.start at hs
    cases hh : s.images h' with
    | none =>
      rw [hh] at hs
      obtain ⟨e1, _⟩ := after_gone hs hi hn
      rw [e1, hi] at hh; cases hh
    | some j =>
      rw [hh] at hs
      dsimp only at hs
      split at hs
      · next h1 =>
        obtain ⟨e1, e2, _, e4⟩ := after_gone hs hi hn
        subst e1; subst e2
        rw [hi] at hh; injection hh with hh; subst hh
        refine .refused w m (.inl ?_)
        rcases e4 with e4 | e4
        · rw [h1] at e4; cases e4
        · exact e4
      · next h1 =>
        split at hs
        · next h2 =>
          obtain ⟨e1, e2, _, e4⟩ := after_gone hs hi hn
          subst e1; subst e2
          rw [hi] at hh; injection hh with hh; subst hh
          exact .refused w m (.inr ⟨by simpa using h1, by simpa using h2⟩)
        · injection hs with hs; subst hs
          have hn : put s.images h' (some { j with started := true }) h = none := hn
          by_cases hx : h = h'
          · rw [hx, put_same] at hn; cases hn
          · rw [put_other _ _ hx] at hn; exact absurd hn hi'
  | exit h' st d =>
    by_cases hc : s.current = some h'
    · exact ends (.inl ⟨hc, d, rfl⟩)
    · have hs : s.exit h' st d = .go s' := hs
      unfold Sys.exit at hs
      cases hh : s.images h' with
      | none => rw [hh] at hs; injection hs with hs; subst hs; exact absurd hn hi'
      | some j =>
        rw [hh] at hs
        dsimp only at hs
        by_cases h1 : j.started = true
        · rw [if_neg (fun hx => hx h1), if_pos hc] at hs; injection hs with hs; subst hs; exact absurd hn hi'
        · rw [if_pos h1] at hs
          obtain ⟨e1, _⟩ := unload_gone hs hi hn
          subst e1
          rw [hi] at hh; injection hh with hh; subst hh
          exact .given_up st d (by simpa using h1)
  | unload h' =>
    obtain ⟨e1, e2⟩ := unload_gone hs hi hn
    subst e1
    rcases e2 with e2 | e2
    · exact .unstarted e2
    · cases e2.2.2
  | ret st =>
    cases hk : s.stack with
    | nil =>
      have hs : s.ret st = .go s' := hs
      unfold Sys.ret at hs
      rw [hk] at hs; injection hs with hs; subst hs; exact absurd hn hi'
    | cons f k =>
      cases f with
      | entry h' p w v => exact ends (.inr ⟨⟨p, w, v, k, hk⟩, rfl⟩)
      | unload h' why =>
        have hs : s.ret st = .go s' := hs
        unfold Sys.ret at hs
        rw [hk] at hs
        dsimp only at hs
        split at hs
        · next h0 =>
          have := finish_gone hs hi' hn
          subst this
          rw [h0]
          exact .agreed why k hk
        · injection hs with hs; subst hs; rw [answer_images] at hn; exact absurd hn hi'

/-! ### Concrete histories -/

/-- For concrete histories: a check that can be run. -/
def check : List Act → Sys → Bool
  | [], _ => true
  | a :: l, s =>
    (match a with | .load h _ => !s.log.any (isLoaded h) | _ => true) &&
    (match s.stack, a with | .unload h _ :: _, .ret st => st != SUCCESS || (s.images h).isSome | _, _ => true) &&
    match s.step a with
    | .go s' => (running s'.stack).all (fun h => (s'.images h).isSome) && check l s'
    | _ => true

theorem check_ok {l : List Act} {s : Sys} (h : check l s = true) : Fresh l s ∧ Polite l s := by
  induction l generalizing s with
  | nil => exact ⟨trivial, trivial⟩
  | cons a l ih =>
    unfold check at h
    simp only [Bool.and_eq_true] at h
    obtain ⟨⟨h1, h2⟩, h3⟩ := h
    have h4 : ∀ s', s.step a = .go s' → (∀ h ∈ running s'.stack, s'.images h ≠ none) ∧ check l s' = true := by
      intro s' hs
      rw [hs] at h3
      dsimp only at h3
      simp only [Bool.and_eq_true, List.all_eq_true] at h3
      exact ⟨(fun x hx hn => by have := h3.1 x hx; rw [hn] at this; cases this), h3.2⟩
    refine ⟨⟨fun x app ha => ?_, fun s' hs => (ih (h4 s' hs).2).1⟩, fun x why k hk ha => ?_, fun s' hs => ⟨(h4 s' hs).1, (ih (h4 s' hs).2).2⟩⟩
    · subst ha; simpa using h1
    · subst ha
      rw [hk] at h2
      dsimp only at h2
      intro hn
      rw [hn] at h2
      exact absurd h2 (by decide)

/-- A driver starts an application that exits, with data for the driver, from within a third image. -/
def story : List Act :=
  [.load 2 false, .start 2 false false true, .load 3 true, .start 3 true true true, .load 4 false, .start 4 true true true, .exit 3 0 none, .ret 0,
   .exit 3 5 (some 77), .ret 0]

example : Fresh story Sys.init ∧ Polite story Sys.init := check_ok (by decide)

example : logOf (Sys.init.run story) = some
    [.loaded 1, .loaded 2, .entered 2 false, .loaded 3, .entered 3 true, .loaded 4, .entered 4 true, .answered INVALID_PARAMETER, .exited 4 0 none,
     .returned 4 0 none, .exited 3 5 (some 77), .unloaded 3, .returned 3 5 (some 77), .exited 2 0 none, .returned 2 0 none] := by decide

/-- A failed application with an unload function that refuses stays loaded. -/
example : Fresh [.load 2 true, .setUnload 2 true, .start 2 true true true, .ret 7, .ret 9] Sys.init ∧
    Polite [.load 2 true, .setUnload 2 true, .start 2 true true true, .ret 7, .ret 9] Sys.init ∧
    logOf (Sys.init.run [.load 2 true, .setUnload 2 true, .start 2 true true true, .ret 7, .ret 9]) =
      some [.loaded 1, .loaded 2, .entered 2 true, .exited 2 7 none, .returned 2 7 none] :=
  ⟨(check_ok (by decide)).1, (check_ok (by decide)).2, by decide⟩

/-! ### Findings -/

/-- `StartImage` for an image that has been started is refused, and unloads the image: here the core's own. -/
theorem second_start_unloads : logOf (Sys.init.run [.start 1 false true true]) = some [.loaded 1, .unloaded 1, .refused 1 INVALID_PARAMETER] := by decide

/-- A driver that is running is unloaded by an image it has started, which asks to start it again. When it calls `Exit` this is refused, as it is not loaded. -/
theorem running_unloaded : logOf (Sys.init.run [.load 2 false, .start 2 false true true, .load 3 false, .start 3 false true true, .start 2 false true true,
      .ret 0, .exit 2 0 none]) =
    some [.loaded 1, .loaded 2, .entered 2 false, .loaded 3, .entered 3 false, .unloaded 2, .refused 2 INVALID_PARAMETER, .exited 3 0 none, .returned 3 0 none,
      .answered INVALID_PARAMETER] := by decide

/-- An image that has had itself unloaded leaves its way out behind when it returns; the next image to call `Exit` takes it. -/
theorem stale_way_out : logOf (Sys.init.run [.load 2 false, .start 2 false true true, .load 3 false, .start 3 false true true, .start 3 false true true, .ret 0]) ≠ none ∧
    Sys.init.run [.load 2 false, .start 2 false true true, .load 3 false, .start 3 false true true, .start 3 false true true, .ret 0, .exit 2 0 none] = .undefined :=
  ⟨by decide, rfl⟩

/-- An unload function that asks for the image to be unloaded, and is called again and agrees, ends in a panic. -/
theorem unload_within_unload : Sys.init.run [.load 2 false, .setUnload 2 true, .start 2 false true true, .ret 0, .unload 2, .unload 2, .ret 0, .ret 0] = .panics := rfl

end Verif.Images
