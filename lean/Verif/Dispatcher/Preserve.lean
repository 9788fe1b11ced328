import Verif.Dispatcher.Inv
/-! The invariant survives every elementary action. -/
namespace Verif.Dispatcher
open Verif.Depex (Guid Opcode Expr)
variable {W α : Type} {dbg : Bool}

theorem Base.file {X : List Drv} {s : St W} (h : Nat) (f : FileEntry) (b : Base dbg X s) :
    Base dbg X (addFile h f s) := by
  cases f with
  | bad => exact b
  | other => exact b
  | image n dx secs =>
    simp only [addFile]
    split
    · exact b
    · exact ⟨b.once, b.facts, b.waiting, b.before, b.after, b.arch,
        fun e he u hu => Nat.lt_succ_of_lt (b.bound e he u hu), b.processed, b.history⟩
  | driver n dx rd =>
    have hne : ∀ d ∈ s.ctx.known ++ X, d.uid ≠ s.ctx.next := fun d hd => Nat.ne_of_lt (b.lt hd)
    have hnew : ∀ e ∈ s.log, e.uid ≠ some s.ctx.next := fun e he hu => Nat.lt_irrefl _ (b.bound e he _ hu)
    have hcnt : cnt s.ctx.next (s.ctx.known ++ X) = 0 := by
      refine List.countP_eq_zero.2 (fun d hd => ?_)
      simpa using hne d hd
    have hnf : Fact dbg (s.log ++ [.found s.ctx.next h n dx]) (newDriver s.ctx.next h n dx rd) := by
      refine ⟨⟨dx, by simp [newDriver], ?_⟩, ?_, ?_, fun hi => absurd rfl hi, fun _ hi => absurd rfl hi⟩
      · simp only [newDriver]
        congr 1
        funext bs
        have : ∀ l : List Ev, (∀ e ∈ l, e.uid ≠ some s.ctx.next) → ∀ ops, replay dbg s.ctx.next ops l = ops := by
          intro l
          induction l with
          | nil => intro _ _; rfl
          | cons e l ih =>
            intro hl ops
            have h1 := evolve_other (dbg := dbg) (ops := ops) (hl e (.head _))
            simp only [replay, List.foldl_cons, h1]
            exact ih (fun e he => hl e (.tail _ he)) ops
        rw [replay_snoc, this _ hnew]
        rfl
      · refine not_started_snoc (fun hs => ?_) (by intro h; cases h)
        exact hnew _ (mem_startedIn.1 hs) rfl
      · intro _
        refine not_loaded_snoc (fun hs => ?_) (by intro _ h; cases h)
        obtain ⟨sec, hs⟩ := mem_loadedIn.1 hs
        exact hnew _ hs rfl
    refine ⟨?_, ?_, ?_, b.before, b.after, ?_, ?_, ?_, b.history.snoc hnew⟩
    · intro u
      have h1 := b.once u
      simp only [addFile, Ctx.known, cnt_append, cnt_cons, cnt_nil, newDriver] at h1 hcnt ⊢
      split
      · rename_i e; subst e; omega
      · omega
    · intro d hd
      simp only [addFile, Ctx.known, List.mem_append, List.mem_singleton] at hd
      rcases hd with ((hd | rfl) | hd) | hd
      · exact (b.facts d (by simp [Ctx.known, hd])).other (fun e => hne d (by simp [Ctx.known, hd]) (by injection e with e; exact e.symm))
      · exact hnf
      · have hm : d ∈ s.ctx.known ++ X := by
          simp only [Ctx.known, List.mem_append]; exact .inl (.inr hd)
        exact (b.facts d hm).other (fun e => hne d hm (by injection e with e; exact e.symm))
      · have hm : d ∈ s.ctx.known ++ X := by
          simp only [List.mem_append]; exact .inr hd
        exact (b.facts d hm).other (fun e => hne d hm (by injection e with e; exact e.symm))
    · intro d hd hi
      simp only [addFile, Ctx.known, List.mem_append, List.mem_singleton] at hd
      rcases hd with (hd | rfl) | hd
      · exact b.waiting d (by simp [Ctx.known, hd]) hi
      · exact absurd rfl hi
      · exact b.waiting d (by simp only [Ctx.known, List.mem_append]; exact .inr hd) hi
    · exact b.arch.trans (archSeen_snoc (by intro _ h; cases h)).symm
    · exact bound_snoc b.bound (Nat.le_succ _) (by intro u hu; injection hu with hu; subst hu; exact Nat.lt_succ_self _)
    · exact processed_snoc b.processed (by intro _ h; cases h)

theorem Base.mark {X : List Drv} {s : St W} {h : Nat} (b : Base dbg X s) (hn : h ∉ s.ctx.processed) :
    Base dbg X (markProcessed h s) := by
  refine ⟨b.once, ?_, b.waiting, b.before, b.after, ?_, ?_, ?_, b.history.snoc ?_⟩
  · intro d hd
    exact (b.facts d hd).other (by intro h; cases h)
  · exact b.arch.trans (archSeen_snoc (by intro _ h; cases h)).symm
  · exact bound_snoc b.bound (Nat.le_refl _) (by intro u hu; cases hu)
  · intro x
    simp only [markProcessed, List.mem_cons, scannedIn_append, scannedIn, List.mem_append,
      b.processed, List.not_mem_nil, or_false]
    exact or_comm
  · exact fun hs => hn ((b.processed h).2 hs)

theorem updateFirst_some {p : Drv → Bool} {f : Drv → Drv} {l l' : List Drv} {u : Nat}
    (h : updateFirst p f l = (some u, l')) :
    ∃ a d b, l = a ++ d :: b ∧ l' = a ++ f d :: b ∧ p d = true ∧ d.uid = u ∧ ∀ x ∈ a, p x = false := by
  induction l generalizing l' with
  | nil => cases h
  | cons d l ih =>
    simp only [updateFirst] at h
    split at h
    · rename_i hp
      injection h with h1 h2
      injection h1 with h1
      exact ⟨[], d, l, rfl, h2.symm, hp, h1, by simp⟩
    · rename_i hp
      injection h with h1 h2
      obtain ⟨a, x, b, e1, e2, e3, e4, e5⟩ := ih (l' := (updateFirst p f l).2) (by rw [← h1])
      refine ⟨d :: a, x, b, by rw [e1]; rfl, by rw [← h2, e2]; rfl, e3, e4, ?_⟩
      intro y hy
      cases hy with
      | head => simpa using hp
      | tail _ hy => exact e5 y hy

theorem updateFirst_none {p : Drv → Bool} {f : Drv → Drv} {l : List Drv}
    (h : (updateFirst p f l).1 = none) : ∀ d ∈ l, p d = false := by
  induction l with
  | nil => intro d hd; cases hd
  | cons d l ih =>
    simp only [updateFirst] at h
    split at h
    · cases h
    · rename_i hp
      intro x hx
      cases hx with
      | head => simpa using hp
      | tail _ hx => exact ih h x hx

/-- Replacing one pending driver, with an event about it. -/
theorem Base.update {X a c : List Drv} {d d' : Drv} {s : St W} {e : Ev} (b : Base dbg X s)
    (hp : s.ctx.pending = a ++ d :: c) (hu : d'.uid = d.uid) (heu : e.uid = some d.uid)
    (hf : Fact dbg s.log d → Fact dbg (s.log ++ [e]) d')
    (hw : (d.image ≠ none → d.sec = none ∨ d.sec = some .securityViolation) →
      d'.image ≠ none → d'.sec = none ∨ d'.sec = some .securityViolation)
    (hj : Justified dbg s.log e) (hpass : ∀ p, e ≠ .pass p) (hsc : ∀ x, e ≠ .scanned x) :
    Base dbg X { s with ctx := { s.ctx with pending := a ++ d' :: c }, log := s.log ++ [e] } := by
  have hd : d ∈ s.ctx.known ++ X := by simp [Ctx.known, hp]
  have hne : ∀ x ∈ (a ++ c) ++ (s.ctx.before.map (·.2) ++ s.ctx.after.map (·.2)) ++ X, x.uid ≠ d.uid := by
    intro x hx e
    have h1 := b.once d.uid
    have h2 := cnt_pos hx e
    simp only [Ctx.known, hp, cnt_append, cnt_cons] at h1 h2
    simp at h1
    omega
  have hother : ∀ x, x ∈ s.ctx.known ++ X → x.uid ≠ d.uid → Fact dbg (s.log ++ [e]) x := by
    intro x hx hxn
    refine (b.facts x hx).other ?_
    rw [heu]
    intro h
    injection h with h
    exact hxn h.symm
  refine ⟨?_, ?_, ?_, b.before, b.after, ?_, ?_, ?_, b.history.snoc hj⟩
  · intro u
    have h1 := b.once u
    simp only [Ctx.known, hp, cnt_append, cnt_cons, hu] at h1 ⊢
    exact h1
  · intro x hx
    have hcase : x = d' ∨ x ∈ (a ++ c) ++ (s.ctx.before.map (·.2) ++ s.ctx.after.map (·.2)) ++ X := by
      simp only [Ctx.known, List.mem_append, List.mem_cons] at hx ⊢
      rcases hx with ((h | h | h) | h) | h
      · exact .inr (.inl (.inl (.inl h)))
      · exact .inl h
      · exact .inr (.inl (.inl (.inr h)))
      · exact .inr (.inl (.inr h))
      · exact .inr (.inr h)
    rcases hcase with rfl | hx
    · exact hf (b.facts d hd)
    · refine hother x ?_ (hne x hx)
      simp only [Ctx.known, hp, List.mem_append, List.mem_cons] at hx ⊢
      rcases hx with ((h | h) | h) | h
      · exact .inl (.inl (.inl h))
      · exact .inl (.inl (.inr (.inr h)))
      · exact .inl (.inr h)
      · exact .inr h
  · intro x hx hi
    simp only [Ctx.known, List.mem_append, List.mem_cons] at hx
    rcases hx with (h | h | h) | h
    · exact b.waiting x (by simp [Ctx.known, hp, h]) hi
    · subst h; exact hw (b.waiting d (by simp [Ctx.known, hp])) hi
    · exact b.waiting x (by simp [Ctx.known, hp, h]) hi
    · exact b.waiting x (by simp only [Ctx.known, List.mem_append]; exact .inr h) hi
  · exact b.arch.trans (archSeen_snoc hpass).symm
  · refine bound_snoc b.bound (Nat.le_refl _) ?_
    intro u h
    rw [heu] at h
    injection h with h
    subst h
    exact b.lt hd
  · exact processed_snoc b.processed hsc

theorem Base.noteUpdate {X : List Drv} {s : St W} (b : Base dbg X s) {p : Drv → Bool} {f : Drv → Drv}
    {ev : Nat → Ev} (hu : ∀ d, (f d).uid = d.uid) (heu : ∀ u, (ev u).uid = some u)
    (hf : ∀ d, p d = true → Fact dbg s.log d → Fact dbg (s.log ++ [ev d.uid]) (f d))
    (hw : ∀ d, (d.image ≠ none → d.sec = none ∨ d.sec = some .securityViolation) →
      (f d).image ≠ none → (f d).sec = none ∨ (f d).sec = some .securityViolation)
    (hj : ∀ u, Justified dbg s.log (ev u)) (hpass : ∀ u p, ev u ≠ .pass p) (hsc : ∀ u x, ev u ≠ .scanned x) :
    Base dbg X (noteUpdate ev s (updateFirst p f s.ctx.pending)).2 := by
  generalize h : updateFirst p f s.ctx.pending = r
  obtain ⟨o, l'⟩ := r
  cases o with
  | none => exact b
  | some u =>
    obtain ⟨a, d, c, e1, e2, e3, e4, _⟩ := updateFirst_some h
    subst e4 e2
    exact b.update e1 (hu d) (heu _) (hf d e3) (hw d) (hj _) (hpass _) (hsc _)

theorem Base.schedule {X : List Drv} {s : St W} (h : Nat) (n : Guid) (b : Base dbg X s) :
    Base dbg X (schedule h n s).2 := by
  refine b.noteUpdate (fun d => rfl) (fun u => rfl) ?_ (fun d hw => hw) (fun u => trivial)
    (by intro _ _ h; cases h) (by intro _ _ h; cases h)
  intro d _ f
  obtain ⟨dx, hf, hd⟩ := f.found
  refine ⟨⟨dx, by simp [hf], ?_⟩, not_started_snoc f.fresh (by intro h; cases h),
    fun hi => not_loaded_snoc (f.unloaded hi) (by intro _ h; cases h),
    fun hi hs => (f.cleared hi hs).append _, fun e hi hs => by
      simp only [List.mem_append]; exact .inl (f.objected e hi hs)⟩
  simp only [hd, Option.map_map]
  congr 1
  funext bs
  rw [replay_snoc]
  simp [evolve]

theorem Base.trust {X : List Drv} {s : St W} (h : Nat) (n : Guid) (b : Base dbg X s) :
    Base dbg X (trust h n s).2 := by
  unfold Dispatcher.trust
  generalize hr : updateFirst (fun d => d.fv == h && d.name == n) (fun d => { d with sec := none }) s.ctx.pending = r
  obtain ⟨o, l'⟩ := r
  cases o with
  | none => exact b
  | some u =>
    obtain ⟨a, d, c, e1, e2, e3, e4, _⟩ := updateFirst_some hr
    subst e4 e2
    refine b.update e1 rfl rfl ?_ (fun _ _ => .inl rfl) trivial (by intro _ h; cases h) (by intro _ h; cases h)
    intro f
    obtain ⟨dx, hf, hd⟩ := f.found
    refine ⟨⟨dx, by simp [hf], ?_⟩, not_started_snoc f.fresh (by intro h; cases h),
      fun hi => not_loaded_snoc (f.unloaded hi) (by intro _ h; cases h), ?_, ?_⟩
    · simp only [hd]
      congr 1
      funext bs
      rw [replay_snoc]
      rfl
    · intro hi _
      rcases b.waiting d (by simp [Ctx.known, e1]) hi with hs | hs
      · exact (f.cleared hi hs).append _
      · obtain ⟨x, y, hxy⟩ := List.append_of_mem (f.objected _ hi hs)
        exact ⟨x, _, y ++ [.trusted d.uid], by simp [hxy], .inr ⟨rfl, by simp⟩⟩
    · intro e _ hs
      cases hs

theorem Base.loaded {F : List Drv} {s : St W} {d : Drv} (hd : Nat) (sec : Option EfiError)
    (b : Base dbg (d :: F) s) (hi : d.image = none) :
    Base dbg (withImage d hd sec :: F) (s.note (.loaded d.uid sec)) := by
  have hne := b.ne
  have f := b.facts d (by simp)
  refine b.note ?_ ?_ ?_ ?_ (by intro _ h; cases h) (by intro _ h; cases h) ?_
  · intro x hx
    cases hx with
    | tail _ hx =>
      have hx : x ∈ F := hx
      refine (b.facts x (by simp [hx])).other ?_
      intro h
      injection h with h
      exact hne x (by simp [hx]) h.symm
    | head =>
      obtain ⟨dx, hf, hdx⟩ := f.found
      refine ⟨⟨dx, by simp [withImage, hf], ?_⟩, not_started_snoc f.fresh (by intro h; cases h),
        fun h => (by cases h), ?_, ?_⟩
      · simp only [withImage, hdx]
        congr 1
        funext bs
        rw [replay_snoc]
        rfl
      · intro _ hs
        simp only [withImage] at hs ⊢
        subst hs
        exact ⟨s.log, none, [], rfl, .inl rfl⟩
      · intro e _ hs
        simp only [withImage] at hs ⊢
        subst hs
        simp
  · intro u
    simp only [cnt_cons, withImage]
    exact Nat.le_refl _
  · intro x hx h
    injection h with h
    exact hne x (by simp [hx]) h.symm
  · exact f.unloaded hi
  · intro u hu
    injection hu with hu
    subst hu
    exact b.lt (by simp)

theorem Base.started {F : List Drv} {s : St W} {d : Drv} {h : Nat} (b : Base dbg (d :: F) s)
    (hi : d.image = some h) (hs : d.sec = none) (he : Eligible s.log d.uid) :
    Base dbg F (s.note (.handled d.uid .started)) := by
  have hne := b.ne
  have f := b.facts d (by simp)
  refine b.note ?_ ?_ ?_ ?_ (by intro _ h; cases h) (by intro _ h; cases h) ?_
  · intro x hx
    refine (b.facts x (by simp [hx])).other ?_
    intro h
    injection h with h
    exact hne x (by simp [hx]) h.symm
  · intro u
    simp only [cnt_cons]
    omega
  · intro x hx h
    injection h with h
    exact hne x (by simp [hx]) h.symm
  · exact ⟨f.fresh, f.cleared (by simp [hi]) hs, he⟩
  · intro u hu
    injection hu with hu
    subst hu
    exact b.lt (by simp)

theorem Base.dropped {F : List Drv} {s : St W} {d : Drv} {v : Verdict} (b : Base dbg (d :: F) s)
    (hv : v ≠ .started) : Base dbg F (s.note (.handled d.uid v)) := by
  have hne := b.ne
  refine b.note ?_ ?_ ?_ ?_ (by intro _ h; cases h) (by intro _ h; cases h) ?_
  · intro x hx
    refine (b.facts x (by simp [hx])).other ?_
    intro h
    injection h with h
    exact hne x (by simp [hx]) h.symm
  · intro u
    simp only [cnt_cons]
    omega
  · intro x hx h
    injection h with h
    exact hne x (by simp [hx]) h.symm
  · cases v <;> first | exact absurd rfl hv | trivial
  · intro u hu
    injection hu with hu
    subst hu
    exact b.lt (by simp)

theorem Base.deferred {F : List Drv} {s : St W} {d : Drv} (b : Base dbg (d :: F) s)
    (hs : d.sec = some .securityViolation) : Base dbg F (putBack d s) := by
  have hne := b.ne
  have fact : ∀ x ∈ s.ctx.known ++ F, Fact dbg (s.log ++ [.handled d.uid .deferred]) x := by
    intro x hx
    refine (b.facts x ?_).other ?_
    · simp only [List.mem_append, List.mem_cons] at hx ⊢
      exact hx.imp id .inr
    intro h
    injection h with h
    exact hne x hx h.symm
  refine ⟨?_, ?_, ?_, b.before, b.after, ?_, ?_, ?_, b.history.snoc trivial⟩
  · intro u
    have h1 := b.once u
    simp only [putBack, Ctx.known, cnt_append, cnt_cons, cnt_nil] at h1 ⊢
    omega
  · intro x hx
    simp only [putBack, Ctx.known, List.mem_append, List.mem_singleton] at hx
    rcases hx with ((h | h) | h) | h
    · exact fact x (by simp [Ctx.known, h])
    · subst h
      exact (b.facts x (by simp)).snoc (fun _ => rfl) (by intro h; cases h) (by intro _ h; cases h)
    · exact fact x (by simp only [Ctx.known, List.mem_append]; exact .inl (.inr h))
    · exact fact x (by simp only [List.mem_append]; exact .inr h)
  · intro x hx hi
    simp only [putBack, Ctx.known, List.mem_append, List.mem_singleton] at hx
    rcases hx with (h | h) | h
    · exact b.waiting x (by simp [Ctx.known, h]) hi
    · subst h; exact .inr hs
    · exact b.waiting x (by simp only [Ctx.known, List.mem_append]; exact .inr h) hi
  · exact b.arch.trans (archSeen_snoc (by intro _ h; cases h)).symm
  · refine bound_snoc b.bound (Nat.le_refl _) ?_
    intro u hu
    injection hu with hu
    subst hu
    exact b.lt (by simp)
  · exact processed_snoc b.processed (by intro _ h; cases h)

end Verif.Dispatcher
