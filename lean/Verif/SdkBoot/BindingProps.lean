import Verif.SdkBoot.Binding
/-!
C114: driver bindings.
-/
namespace Verif.SdkBoot.Binding
variable {σ : Type}

/-! ### Lemmas -/

@[simp] theorem set_same {α : Type} (f : Nat → α) (i : Nat) (v : α) : set f i v i = v := by simp [set]
theorem set_other {α : Type} {f : Nat → α} {i j : Nat} {v : α} (h : j ≠ i) : set f i v j = f j := by simp [set, h]

theorem has_iff (db : List (Nat × Nat)) (h : Nat) : has db h = true ↔ ∃ a, (h, a) ∈ db := by
  unfold has
  rw [List.any_eq_true]
  constructor
  · rintro ⟨⟨x, a⟩, hm, he⟩
    exact ⟨a, by simpa using (show (x, a) ∈ db ∧ x = h from ⟨hm, by simpa using he⟩).2 ▸ hm⟩
  · rintro ⟨a, hm⟩
    exact ⟨(h, a), hm, by simp⟩

/-- What holds in every world that is reached. -/
structure Inv (w : World σ) : Prop where
  /-- A binding's object is there. -/
  live : ∀ b x, w.binds b = some x → ∃ o, w.mem x.addr = some o
  /-- Two bindings have two objects. -/
  apart : ∀ b c x y, w.binds b = some x → w.binds c = some y → x.addr = y.addr → b = c
  /-- An uninstalled one is not with the firmware. -/
  out : ∀ b a, w.binds b = some (.uninstalled a) → ∀ h, (h, a) ∉ w.db
  /-- An installed one is, on its handle. -/
  inside : ∀ b a, w.binds b = some (.installed a) → ∃ h o, (h, a) ∈ w.db ∧ w.mem a = some o ∧
    (o.bindingHandle ≠ 0 → h = o.bindingHandle)
  /-- What the firmware has is there. -/
  fw : ∀ h a, (h, a) ∈ w.db → h ≠ 0 ∧ ∃ o, w.mem a = some o ∧ (o.bindingHandle ≠ 0 → h = o.bindingHandle)
  /-- An interface is on one handle, a handle has one interface. -/
  oneHandle : ∀ h h' a, (h, a) ∈ w.db → (h', a) ∈ w.db → h = h'
  oneFace : ∀ h a a', (h, a) ∈ w.db → (h, a') ∈ w.db → a = a'
  /-- Objects are numbered. -/
  small : ∀ a o, w.mem a = some o → o.serial < w.made
  once : ∀ a a' o o', w.mem a = some o → w.mem a' = some o' → o.serial = o'.serial → a = a'
  gone : ∀ a o, w.mem a = some o → o.serial ∉ w.dropped
  nodup : w.dropped.Nodup
  bounded : ∀ s ∈ w.dropped, s < w.made
  whole : ∀ s < w.made, s ∈ w.dropped ∨ ∃ a o, w.mem a = some o ∧ o.serial = s
  notNull : w.mem 0 = none

theorem inv_init : Inv (World.init σ) := by
  constructor <;> simp [World.init]

theorem inv_make {w : World σ} (hi : Inv w) {b addr img hdl : Nat} {d : σ} (hb : w.binds b = none)
    (ha : w.mem addr = none) (h0 : addr ≠ 0) : Inv (w.make b addr img hdl d) := by
  have hfree : ∀ c x, w.binds c = some x → x.addr ≠ addr := fun c x hc he => by
    obtain ⟨o, ho⟩ := hi.live c x hc
    rw [he, ha] at ho
    cases ho
  have hmem : ∀ a o, w.mem a = some o → (w.make b addr img hdl d).mem a = some o := fun a o ho => by
    have : a ≠ addr := fun h => by rw [h, ha] at ho; cases ho
    show set w.mem addr _ a = _
    rw [set_other this, ho]
  have hinv : ∀ a o, (w.make b addr img hdl d).mem a = some o →
      (a = addr ∧ o = ⟨img, hdl, d, w.made⟩) ∨ (a ≠ addr ∧ w.mem a = some o) := fun a o ho => by
    change set w.mem addr _ a = _ at ho
    by_cases h : a = addr
    · subst h
      rw [set_same] at ho
      exact Or.inl ⟨rfl, (Option.some.inj ho).symm⟩
    · rw [set_other h] at ho
      exact Or.inr ⟨h, ho⟩
  have hbnd : ∀ c x, (w.make b addr img hdl d).binds c = some x →
      (c = b ∧ x = .uninstalled addr) ∨ (c ≠ b ∧ w.binds c = some x) := fun c x hc => by
    change set w.binds b _ c = _ at hc
    by_cases h : c = b
    · subst h
      rw [set_same] at hc
      exact Or.inl ⟨rfl, (Option.some.inj hc).symm⟩
    · rw [set_other h] at hc
      exact Or.inr ⟨h, hc⟩
  refine { live := ?_, apart := ?_, out := ?_, inside := ?_, fw := ?_, oneHandle := hi.oneHandle,
           oneFace := hi.oneFace, small := ?_, once := ?_, gone := ?_, nodup := hi.nodup, bounded := ?_, whole := ?_,
           notNull := ?_ }
  · intro c x hc
    rcases hbnd c x hc with ⟨-, rfl⟩ | ⟨-, hc⟩
    · exact ⟨_, set_same _ _ _⟩
    · obtain ⟨o, ho⟩ := hi.live c x hc
      exact ⟨o, hmem _ _ ho⟩
  · intro c c' x y hc hc' he
    rcases hbnd c x hc with ⟨rfl, rfl⟩ | ⟨-, k⟩ <;> rcases hbnd c' y hc' with ⟨rfl, rfl⟩ | ⟨-, k'⟩
    · rfl
    · exact absurd he.symm (hfree _ _ k')
    · exact absurd he (hfree _ _ k)
    · exact hi.apart _ _ _ _ k k' he
  · intro c a hc h hm
    rcases hbnd c _ hc with ⟨-, he⟩ | ⟨-, hc⟩
    · cases he
      obtain ⟨-, o, ho, -⟩ := hi.fw h _ hm
      rw [ha] at ho
      cases ho
    · exact hi.out c a hc h hm
  · intro c a hc
    rcases hbnd c _ hc with ⟨-, he⟩ | ⟨-, hc⟩
    · cases he
    · obtain ⟨h, o, h1, h2, h3⟩ := hi.inside c a hc
      exact ⟨h, o, h1, hmem _ _ h2, h3⟩
  · intro h a hm
    obtain ⟨h1, o, h2, h3⟩ := hi.fw h a hm
    exact ⟨h1, o, hmem _ _ h2, h3⟩
  · intro a o ho
    show o.serial < w.made + 1
    rcases hinv a o ho with ⟨-, rfl⟩ | ⟨-, ho⟩
    · exact Nat.lt_succ_self _
    · exact Nat.lt_succ_of_lt (hi.small a o ho)
  · intro a a' o o' ho ho' he
    rcases hinv a o ho with ⟨rfl, rfl⟩ | ⟨-, k⟩ <;> rcases hinv a' o' ho' with ⟨rfl, rfl⟩ | ⟨-, k'⟩
    · rfl
    · have := hi.small _ _ k'
      rw [← he] at this
      exact absurd this (Nat.lt_irrefl _)
    · have := hi.small _ _ k
      rw [he] at this
      exact absurd this (Nat.lt_irrefl _)
    · exact hi.once _ _ _ _ k k' he
  · intro a o ho
    show o.serial ∉ w.dropped
    rcases hinv a o ho with ⟨-, rfl⟩ | ⟨-, ho⟩
    · exact fun h => Nat.lt_irrefl _ (hi.bounded _ h)
    · exact hi.gone a o ho
  · intro s hs
    exact Nat.lt_succ_of_lt (hi.bounded s hs)
  · intro s hs
    by_cases he : s = w.made
    · exact Or.inr ⟨addr, _, set_same _ _ _, he.symm⟩
    · rcases hi.whole s (Nat.lt_of_le_of_ne (Nat.le_of_lt_succ hs) he) with h | ⟨a, o, h1, h2⟩
      · exact Or.inl h
      · exact Or.inr ⟨a, o, hmem _ _ h1, h2⟩
  · show set w.mem addr _ 0 = none
    rw [set_other h0.symm]
    exact hi.notNull

/-- The firmware accepted an interface. -/
theorem fwInstall_ok {db db' : List (Nat × Nat)} {refuse : Option Status} {fresh h a : Nat}
    (hf : fresh ≠ 0) (hff : has db fresh = false) (he : fwInstall db refuse fresh h a = .ok db') :
    ∃ h', db' = (h', a) :: db ∧ h' ≠ 0 ∧ has db h' = false ∧ (h ≠ 0 → h' = h) := by
  unfold fwInstall at he
  cases refuse with
  | some e => cases he
  | none =>
    dsimp only at he
    split at he
    · next h0 => cases he; exact ⟨fresh, rfl, hf, hff, fun hx => absurd h0 hx⟩
    · next h0 =>
      split at he
      · cases he
      · next hh => cases he; exact ⟨h, rfl, h0, by simpa using hh, fun _ => rfl⟩

theorem fwUninstall_ok {db db' : List (Nat × Nat)} {refuse : Option Status} {h a : Nat}
    (he : fwUninstall db refuse h a = .ok db') :
    h ≠ 0 ∧ (h, a) ∈ db ∧ db' = db.filter (fun p => p != (h, a)) := by
  unfold fwUninstall at he
  cases refuse with
  | some e => cases he
  | none =>
    dsimp only at he
    split at he
    · cases he
    · next h0 =>
      split at he
      · next hm => cases he; exact ⟨h0, hm, rfl⟩
      · cases he

theorem inv_install {w : World σ} (hi : Inv w) {b a h : Nat} {o : Obj σ} (hb : w.binds b = some (.uninstalled a))
    (ho : w.mem a = some o) (h0 : h ≠ 0) (hn : has w.db h = false) (hh : o.bindingHandle ≠ 0 → h = o.bindingHandle) :
    Inv { w with db := (h, a) :: w.db, binds := set w.binds b (some (.installed a)) } := by
  have hbnd : ∀ c x, set w.binds b (some (.installed a)) c = some x →
      (c = b ∧ x = .installed a) ∨ (c ≠ b ∧ w.binds c = some x) := fun c x hc => by
    by_cases h : c = b
    · subst h
      rw [set_same] at hc
      exact Or.inl ⟨rfl, (Option.some.inj hc).symm⟩
    · rw [set_other h] at hc
      exact Or.inr ⟨h, hc⟩
  have hnew : ∀ x, (h, x) ∉ w.db := fun x hx => by
    rw [(has_iff w.db h).2 ⟨x, hx⟩] at hn
    cases hn
  refine { live := ?_, apart := ?_, out := ?_, inside := ?_, fw := ?_, oneHandle := ?_, oneFace := ?_,
           small := hi.small, once := hi.once, gone := hi.gone, nodup := hi.nodup, bounded := hi.bounded,
           whole := hi.whole, notNull := hi.notNull }
  · intro c x hc
    rcases hbnd c x hc with ⟨-, rfl⟩ | ⟨-, hc⟩
    · exact ⟨o, ho⟩
    · exact hi.live c x hc
  · intro c c' x y hc hc' he
    rcases hbnd c x hc with ⟨rfl, rfl⟩ | ⟨-, k⟩ <;> rcases hbnd c' y hc' with ⟨rfl, rfl⟩ | ⟨-, k'⟩
    · rfl
    · exact hi.apart _ _ _ _ hb k' he
    · exact hi.apart _ _ _ _ k hb he
    · exact hi.apart _ _ _ _ k k' he
  · intro c x hc h' hm
    rcases hbnd c _ hc with ⟨-, he⟩ | ⟨hne, hc⟩
    · cases he
    · rcases List.mem_cons.1 hm with he | hm
      · cases he
        exact hne (hi.apart _ _ _ _ hc hb rfl)
      · exact hi.out c x hc h' hm
  · intro c x hc
    rcases hbnd c _ hc with ⟨-, he⟩ | ⟨-, hc⟩
    · cases he
      exact ⟨h, o, List.mem_cons_self, ho, hh⟩
    · obtain ⟨h', o', h1, h2, h3⟩ := hi.inside c x hc
      exact ⟨h', o', List.mem_cons_of_mem _ h1, h2, h3⟩
  · intro h' x hm
    rcases List.mem_cons.1 hm with he | hm
    · cases he
      exact ⟨h0, o, ho, hh⟩
    · exact hi.fw h' x hm
  · intro x y z hx hy
    rcases List.mem_cons.1 hx with ex | hx <;> rcases List.mem_cons.1 hy with ey | hy
    · cases ex; cases ey; rfl
    · cases ex; exact absurd hy (hi.out b _ hb y)
    · cases ey; exact absurd hx (hi.out b _ hb x)
    · exact hi.oneHandle x y z hx hy
  · intro x y z hx hy
    rcases List.mem_cons.1 hx with ex | hx <;> rcases List.mem_cons.1 hy with ey | hy
    · cases ex; cases ey; rfl
    · cases ex; exact absurd hy (hnew z)
    · cases ey; exact absurd hx (hnew y)
    · exact hi.oneFace x y z hx hy

theorem mem_filter_ne {db : List (Nat × Nat)} {p q : Nat × Nat} :
    q ∈ db.filter (fun x => x != p) ↔ q ∈ db ∧ q ≠ p := by simp

theorem inv_uninstall {w : World σ} (hi : Inv w) {b a h : Nat} (hb : w.binds b = some (.installed a))
    (hm : (h, a) ∈ w.db) :
    Inv { w with db := w.db.filter (fun p => p != (h, a)), binds := set w.binds b (some (.uninstalled a)) } := by
  have hbnd : ∀ c x, set w.binds b (some (.uninstalled a)) c = some x →
      (c = b ∧ x = .uninstalled a) ∨ (c ≠ b ∧ w.binds c = some x) := fun c x hc => by
    by_cases h : c = b
    · subst h
      rw [set_same] at hc
      exact Or.inl ⟨rfl, (Option.some.inj hc).symm⟩
    · rw [set_other h] at hc
      exact Or.inr ⟨h, hc⟩
  refine { live := ?_, apart := ?_, out := ?_, inside := ?_, fw := ?_, oneHandle := ?_, oneFace := ?_,
           small := hi.small, once := hi.once, gone := hi.gone, nodup := hi.nodup, bounded := hi.bounded,
           whole := hi.whole, notNull := hi.notNull }
  · intro c x hc
    rcases hbnd c x hc with ⟨-, rfl⟩ | ⟨-, hc⟩
    · obtain ⟨q, hq⟩ := hi.live b _ hb
      exact ⟨q, hq⟩
    · exact hi.live c x hc
  · intro c c' x y hc hc' he
    rcases hbnd c x hc with ⟨rfl, rfl⟩ | ⟨-, k⟩ <;> rcases hbnd c' y hc' with ⟨rfl, rfl⟩ | ⟨-, k'⟩
    · rfl
    · exact hi.apart _ _ _ _ hb k' he
    · exact hi.apart _ _ _ _ k hb he
    · exact hi.apart _ _ _ _ k k' he
  · intro c x hc h' hx
    obtain ⟨hx, hne⟩ := mem_filter_ne.1 hx
    rcases hbnd c _ hc with ⟨-, he⟩ | ⟨-, hc⟩
    · cases he
      exact hne (by rw [hi.oneHandle _ _ _ hx hm])
    · exact hi.out c x hc h' hx
  · intro c x hc
    rcases hbnd c _ hc with ⟨-, he⟩ | ⟨hne, hc⟩
    · cases he
    · obtain ⟨h', o', h1, h2, h3⟩ := hi.inside c x hc
      refine ⟨h', o', mem_filter_ne.2 ⟨h1, fun he => ?_⟩, h2, h3⟩
      cases he
      exact hne (hi.apart _ _ _ _ hc hb rfl)
  · intro h' x hx
    exact hi.fw h' x (mem_filter_ne.1 hx).1
  · intro x y z hx hy
    exact hi.oneHandle x y z (mem_filter_ne.1 hx).1 (mem_filter_ne.1 hy).1
  · intro x y z hx hy
    exact hi.oneFace x y z (mem_filter_ne.1 hx).1 (mem_filter_ne.1 hy).1

theorem inv_leak {w : World σ} (hi : Inv w) (b : Nat) : Inv { w with binds := set w.binds b none } := by
  have hbnd : ∀ c x, set w.binds b none c = some x → w.binds c = some x := fun c x hc => by
    by_cases h : c = b
    · subst h
      rw [set_same] at hc
      cases hc
    · rwa [set_other h] at hc
  exact { hi with
    live := fun c x hc => hi.live c x (hbnd c x hc)
    apart := fun c c' x y hc hc' he => hi.apart c c' x y (hbnd _ _ hc) (hbnd _ _ hc') he
    out := fun c a hc => hi.out c a (hbnd _ _ hc)
    inside := fun c a hc => hi.inside c a (hbnd _ _ hc) }

theorem inv_drop {w : World σ} (hi : Inv w) {b a : Nat} {o : Obj σ} (hb : w.binds b = some (.uninstalled a))
    (ho : w.mem a = some o) :
    Inv { w with mem := set w.mem a none, binds := set w.binds b none, dropped := o.serial :: w.dropped } := by
  have hbnd : ∀ c x, set w.binds b none c = some x → c ≠ b ∧ w.binds c = some x := fun c x hc => by
    by_cases h : c = b
    · subst h
      rw [set_same] at hc
      cases hc
    · rw [set_other h] at hc
      exact ⟨h, hc⟩
  have hmem : ∀ x q, set w.mem a none x = some q → x ≠ a ∧ w.mem x = some q := fun x q hx => by
    by_cases h : x = a
    · subst h
      rw [set_same] at hx
      cases hx
    · rw [set_other h] at hx
      exact ⟨h, hx⟩
  have hfw : ∀ h x, (h, x) ∈ w.db → x ≠ a := fun h x hx he => hi.out b a hb h (he ▸ hx)
  refine { live := ?_, apart := ?_, out := ?_, inside := ?_, fw := ?_, oneHandle := hi.oneHandle,
           oneFace := hi.oneFace, small := ?_, once := ?_, gone := ?_, nodup := ?_, bounded := ?_, whole := ?_,
           notNull := ?_ }
  · intro c x hc
    obtain ⟨hne, hc⟩ := hbnd c x hc
    obtain ⟨q, hq⟩ := hi.live c x hc
    have : x.addr ≠ a := fun he => hne (hi.apart _ _ _ _ hc hb he)
    exact ⟨q, by rw [← hq]; exact set_other this⟩
  · intro c c' x y hc hc' he
    exact hi.apart _ _ _ _ (hbnd _ _ hc).2 (hbnd _ _ hc').2 he
  · intro c x hc
    exact hi.out c x (hbnd _ _ hc).2
  · intro c x hc
    obtain ⟨h, q, h1, h2, h3⟩ := hi.inside c x (hbnd _ _ hc).2
    exact ⟨h, q, h1, by rw [← h2]; exact set_other (hfw _ _ h1), h3⟩
  · intro h x hx
    obtain ⟨h1, q, h2, h3⟩ := hi.fw h x hx
    exact ⟨h1, q, by rw [← h2]; exact set_other (hfw _ _ hx), h3⟩
  · intro x q hx
    exact hi.small x q (hmem x q hx).2
  · intro x y q r hx hy he
    exact hi.once x y q r (hmem _ _ hx).2 (hmem _ _ hy).2 he
  · intro x q hx hq
    obtain ⟨hne, hx⟩ := hmem x q hx
    rcases List.mem_cons.1 hq with he | hq
    · exact hne (hi.once _ _ _ _ hx ho he)
    · exact hi.gone x q hx hq
  · exact List.nodup_cons.2 ⟨hi.gone a o ho, hi.nodup⟩
  · intro s hs
    rcases List.mem_cons.1 hs with rfl | hs
    · exact hi.small a o ho
    · exact hi.bounded s hs
  · intro s hs
    rcases hi.whole s hs with h | ⟨x, q, h1, h2⟩
    · exact Or.inl (List.mem_cons_of_mem _ h)
    · by_cases hx : x = a
      · subst hx
        rw [ho] at h1
        cases h1
        exact Or.inl (h2 ▸ List.mem_cons_self)
      · exact Or.inr ⟨x, q, by rw [← h1]; exact set_other hx, h2⟩
  · show set w.mem a none 0 = none
    unfold set
    split
    · rfl
    · exact hi.notNull

theorem inv_driver {w : World σ} (hi : Inv w) {a : Nat} {o : Obj σ} (ho : w.mem a = some o) (d : σ) :
    Inv { w with mem := set w.mem a (some { o with driver := d }) } := by
  have key : ∀ x q, set w.mem a (some { o with driver := d }) x = some q →
      ∃ p, w.mem x = some p ∧ p.serial = q.serial ∧ p.bindingHandle = q.bindingHandle := fun x q hx => by
    by_cases h : x = a
    · subst h
      rw [set_same] at hx
      cases hx
      exact ⟨o, ho, rfl, rfl⟩
    · rw [set_other h] at hx
      exact ⟨q, hx, rfl, rfl⟩
  have yek : ∀ x p, w.mem x = some p → ∃ q, set w.mem a (some { o with driver := d }) x = some q ∧
      p.serial = q.serial ∧ p.bindingHandle = q.bindingHandle := fun x p hx => by
    by_cases h : x = a
    · subst h
      rw [ho] at hx
      cases hx
      exact ⟨{ o with driver := d }, set_same _ _ _, rfl, rfl⟩
    · exact ⟨p, by rw [set_other h, hx], rfl, rfl⟩
  refine { live := ?_, apart := hi.apart, out := hi.out, inside := ?_, fw := ?_, oneHandle := hi.oneHandle,
           oneFace := hi.oneFace, small := ?_, once := ?_, gone := ?_, nodup := hi.nodup, bounded := hi.bounded,
           whole := ?_, notNull := ?_ }
  · intro c x hc
    obtain ⟨p, hp⟩ := hi.live c x hc
    obtain ⟨q, hq, -⟩ := yek _ _ hp
    exact ⟨q, hq⟩
  · intro c x hc
    obtain ⟨h, p, h1, h2, h3⟩ := hi.inside c x hc
    obtain ⟨q, hq, -, hh⟩ := yek _ _ h2
    exact ⟨h, q, h1, hq, hh ▸ h3⟩
  · intro h x hx
    obtain ⟨h1, p, h2, h3⟩ := hi.fw h x hx
    obtain ⟨q, hq, -, hh⟩ := yek _ _ h2
    exact ⟨h1, q, hq, hh ▸ h3⟩
  · intro x q hx
    obtain ⟨p, hp, hs, -⟩ := key x q hx
    exact hs ▸ hi.small x p hp
  · intro x y q r hx hy he
    obtain ⟨p, hp, hs, -⟩ := key x q hx
    obtain ⟨p', hp', hs', -⟩ := key y r hy
    exact hi.once _ _ _ _ hp hp' (by rw [hs, hs', he])
  · intro x q hx
    obtain ⟨p, hp, hs, -⟩ := key x q hx
    exact hs ▸ hi.gone x p hp
  · intro s hs
    rcases hi.whole s hs with h | ⟨x, p, h1, h2⟩
    · exact Or.inl h
    · obtain ⟨q, hq, hs', -⟩ := yek _ _ h1
      exact Or.inr ⟨x, q, hq, hs' ▸ h2⟩
  · show set w.mem a _ 0 = none
    have : (0 : Nat) ≠ a := fun h => by rw [← h, hi.notNull] at ho; cases ho
    rw [set_other this]
    exact hi.notNull

/-- A step that is allowed is never undefined, and leads to a good world. -/
theorem step_good (D : Driver σ) {w : World σ} (hi : Inv w) (op : Op σ) (ha : op.Allowed w) :
    ∃ w', w.step D op = some w' ∧ Inv w' := by
  cases op with
  | make b addr img hdl d => exact ⟨_, rfl, inv_make hi ha.1 ha.2.1 ha.2.2⟩
  | install b refuse fresh =>
    obtain ⟨hb, hf, hff⟩ := ha
    show ∃ w', (w.install b refuse fresh).map (·.2) = some w' ∧ Inv w'
    unfold World.install
    cases hx : w.binds b with
    | none => exact absurd hx hb
    | some x =>
      cases x with
      | installed a => exact ⟨w, rfl, hi⟩
      | uninstalled a =>
        obtain ⟨o, ho⟩ := hi.live b _ hx
        simp only [Bind.addr] at ho
        simp only [ho]
        cases he : fwInstall w.db refuse fresh o.bindingHandle a with
        | error e => exact ⟨w, rfl, hi⟩
        | ok db =>
          obtain ⟨h', rfl, h1, h2, h3⟩ := fwInstall_ok hf hff he
          exact ⟨_, rfl, inv_install hi hx ho h1 h2 h3⟩
  | uninstall b refuse =>
    show ∃ w', (w.uninstall b refuse).map (·.2) = some w' ∧ Inv w'
    unfold World.uninstall
    cases hx : w.binds b with
    | none => exact absurd hx ha
    | some x =>
      cases x with
      | uninstalled a => exact ⟨w, rfl, hi⟩
      | installed a =>
        obtain ⟨o, ho⟩ := hi.live b _ hx
        simp only [Bind.addr] at ho
        simp only [ho]
        cases he : fwUninstall w.db refuse o.bindingHandle a with
        | error e => exact ⟨w, rfl, hi⟩
        | ok db =>
          obtain ⟨-, h2, rfl⟩ := fwUninstall_ok he
          exact ⟨_, rfl, inv_uninstall hi hx h2⟩
  | drop b =>
    show ∃ w', w.drop b = some w' ∧ Inv w'
    unfold World.drop
    cases hx : w.binds b with
    | none => exact absurd hx ha
    | some x =>
      cases x with
      | installed a => exact ⟨_, rfl, inv_leak hi b⟩
      | uninstalled a =>
        obtain ⟨o, ho⟩ := hi.live b _ hx
        simp only [Bind.addr] at ho
        simp only [ho]
        exact ⟨_, rfl, inv_drop hi hx ho⟩
  | start h iface ctl path =>
    show ∃ w', (w.start D iface ctl path).map (·.2) = some w' ∧ Inv w'
    obtain ⟨-, o, ho, -⟩ := hi.fw h iface ha
    unfold World.start
    simp only [ho]
    exact ⟨_, rfl, inv_driver hi ho _⟩
  | stop h iface ctl n buf =>
    show ∃ w', (w.stop D iface ctl n buf).map (·.2) = some w' ∧ Inv w'
    obtain ⟨-, o, ho, -⟩ := hi.fw h iface ha
    unfold World.stop
    simp only [ho]
    exact ⟨_, rfl, inv_driver hi ho _⟩

theorem reached_inv (D : Driver σ) {w : World σ} (h : Reached D w) : Inv w := by
  induction h with
  | init => exact inv_init
  | step _ ha hs ih =>
    obtain ⟨w', hw, hi⟩ := step_good D ih _ ha
    rw [hw] at hs
    cases hs
    exact hi

/-! ### Properties -/

/-- C114. Nothing that the program and the firmware may do is ever undefined: no object is used or freed that is not
there. -/
theorem never_undefined (D : Driver σ) (w : World σ) (h : Reached D w) (op : Op σ) (ha : op.Allowed w) :
    w.step D op ≠ none := by
  obtain ⟨w', hw, -⟩ := step_good D (reached_inv D h) op ha
  rw [hw]
  exact Option.some_ne_none _

/-- C114. A binding says that it is installed exactly if the firmware has its interface. -/
theorem installed_iff (D : Driver σ) (w : World σ) (h : Reached D w) (b : Nat) (x : Bind) (hb : w.binds b = some x) :
    x.isInstalled = true ↔ ∃ hd, (hd, x.addr) ∈ w.db := by
  have hi := reached_inv D h
  cases x with
  | uninstalled a =>
    constructor
    · intro hx; cases hx
    · rintro ⟨hd, hm⟩; exact absurd hm (hi.out b a hb hd)
  | installed a =>
    obtain ⟨hd, o, hm, -⟩ := hi.inside b a hb
    exact ⟨fun _ => ⟨hd, hm⟩, fun _ => rfl⟩

/-- C114. What the firmware has is alive, on the handle it was made for, and never dropped; even if the program let go of
the binding. -/
theorem interfaces_alive (D : Driver σ) (w : World σ) (h : Reached D w) (hd a : Nat) (hm : (hd, a) ∈ w.db) :
    ∃ o, w.mem a = some o ∧ o.serial ∉ w.dropped ∧ (o.bindingHandle ≠ 0 → hd = o.bindingHandle) := by
  have hi := reached_inv D h
  obtain ⟨-, o, ho, hh⟩ := hi.fw hd a hm
  exact ⟨o, ho, hi.gone a o ho, hh⟩

/-- C114. Each object that was made is alive or was dropped, once. -/
theorem dropped_once (D : Driver σ) (w : World σ) (h : Reached D w) :
    w.dropped.Nodup ∧ ∀ s, s < w.made ↔ (s ∈ w.dropped ∨ ∃ a o, w.mem a = some o ∧ o.serial = s) := by
  have hi := reached_inv D h
  refine ⟨hi.nodup, fun s => ⟨hi.whole s, ?_⟩⟩
  rintro (hs | ⟨a, o, ho, rfl⟩)
  · exact hi.bounded s hs
  · exact hi.small a o ho

/-- C114. Installing: if the firmware refuses, its error is returned and nothing changes; if not, the firmware has the
interface on the handle of the binding. An installed binding stays as it is. -/
theorem install_effect (D : Driver σ) (w : World σ) (h : Reached D w) (b a : Nat) (o : Obj σ) (refuse : Option Status)
    (fresh : Nat) (hf : fresh ≠ 0) (hff : has w.db fresh = false) (ho : w.mem a = some o) :
    (w.binds b = some (.installed a) → w.install b refuse fresh = some (.ok (), w)) ∧
    (w.binds b = some (.uninstalled a) → ∃ r w', w.install b refuse fresh = some (r, w') ∧
      match r with
      | .error e => w' = w ∧ (refuse = some e ∨ (e = .invalidParameter ∧ ∃ a', (o.bindingHandle, a') ∈ w.db))
      | .ok _ => refuse = none ∧ w'.binds b = some (.installed a) ∧ w'.mem = w.mem ∧ w'.dropped = w.dropped ∧
        (∀ c, c ≠ b → w'.binds c = w.binds c) ∧
        ∃ hd, (o.bindingHandle ≠ 0 → hd = o.bindingHandle) ∧ w'.db = (hd, a) :: w.db ∧ ∀ x, (hd, x) ∉ w.db) := by
  have hi := reached_inv D h
  refine ⟨fun hb => ?_, fun hb => ?_⟩
  · unfold World.install; simp only [hb]
  · unfold World.install
    simp only [hb, ho]
    cases he : fwInstall w.db refuse fresh o.bindingHandle a with
    | error e =>
      refine ⟨_, _, rfl, rfl, ?_⟩
      unfold fwInstall at he
      cases refuse with
      | some e' => cases he; exact Or.inl rfl
      | none =>
        dsimp only at he
        split at he
        · cases he
        · split at he
          · next hh => cases he; exact Or.inr ⟨rfl, (has_iff _ _).1 hh⟩
          · cases he
    | ok db =>
      obtain ⟨h', rfl, h1, h2, h3⟩ := fwInstall_ok hf hff he
      have hr : refuse = none := by
        cases refuse with
        | none => rfl
        | some e => unfold fwInstall at he; cases he
      refine ⟨_, _, rfl, hr, set_same _ _ _, rfl, rfl, fun c hc => set_other hc, h', h3, rfl, fun x hx => ?_⟩
      rw [(has_iff w.db h').2 ⟨x, hx⟩] at h2
      cases h2

/-- C114. Uninstalling a binding with a handle: it fails exactly if the firmware refuses, with its error and without a
change; else the firmware has the interface no more, and the program has its driver back as the calls left it. An
uninstalled binding stays as it is. -/
theorem uninstall_effect (D : Driver σ) (w : World σ) (h : Reached D w) (b a : Nat) (o : Obj σ) (refuse : Option Status)
    (ho : w.mem a = some o) (hh : o.bindingHandle ≠ 0) :
    (w.binds b = some (.uninstalled a) → w.uninstall b refuse = some (.ok (), w)) ∧
    (w.binds b = some (.installed a) → ∃ r w', w.uninstall b refuse = some (r, w') ∧
      match r with
      | .error e => w' = w ∧ refuse = some e
      | .ok _ => refuse = none ∧ w'.binds b = some (.uninstalled a) ∧ w'.mem = w.mem ∧ w'.dropped = w.dropped ∧
        (∀ c, c ≠ b → w'.binds c = w.binds c) ∧ ∀ p, p ∈ w'.db ↔ p ∈ w.db ∧ p.2 ≠ a) := by
  have hi := reached_inv D h
  refine ⟨fun hb => ?_, fun hb => ?_⟩
  · unfold World.uninstall; simp only [hb]
  · obtain ⟨hd, o', hm, ho', hh'⟩ := hi.inside b a hb
    rw [ho] at ho'
    cases ho'
    rw [hh' hh] at hm
    unfold World.uninstall
    simp only [hb, ho]
    cases refuse with
    | some e => exact ⟨.error e, w, rfl, rfl, rfl⟩
    | none =>
      unfold fwUninstall
      rw [if_neg hh, if_pos hm]
      refine ⟨_, _, rfl, rfl, set_same _ _ _, rfl, rfl, fun c hc => set_other hc, fun p => ?_⟩
      rw [mem_filter_ne]
      constructor
      · rintro ⟨h1, h2⟩
        refine ⟨h1, fun he => h2 ?_⟩
        obtain ⟨x, y⟩ := p
        cases he
        rw [hi.oneHandle _ _ _ h1 hm]
      · rintro ⟨h1, h2⟩
        exact ⟨h1, fun he => h2 (by rw [he])⟩

/-- C114. Letting go of a binding: an uninstalled one drops its driver; an installed one goes on working. -/
theorem drop_effect (w : World σ) (b a : Nat) (o : Obj σ) (ho : w.mem a = some o) :
    (w.binds b = some (.uninstalled a) → ∃ w', w.drop b = some w' ∧ w'.dropped = o.serial :: w.dropped ∧
      w'.mem a = none ∧ (∀ x, x ≠ a → w'.mem x = w.mem x) ∧ w'.db = w.db) ∧
    (w.binds b = some (.installed a) → ∃ w', w.drop b = some w' ∧ w'.dropped = w.dropped ∧ w'.mem = w.mem ∧
      w'.db = w.db) := by
  refine ⟨fun hb => ?_, fun hb => ?_⟩
  · unfold World.drop
    simp only [hb, ho]
    exact ⟨_, rfl, rfl, set_same _ _ _, fun x hx => set_other hx, rfl⟩
  · unfold World.drop
    simp only [hb]
    exact ⟨_, rfl, rfl, rfl, rfl⟩

/-- C114. A call of the firmware through an interface it has reaches the driver of that interface, with a null pointer as
"no path" and any other as the path, and returns what the driver answers: success for yes, unsupported for no, or its
error. -/
theorem supported_answer (D : Driver σ) (w : World σ) (h : Reached D w) (hd a ctl path : Nat) (hm : (hd, a) ∈ w.db) :
    ∃ o, w.mem a = some o ∧ ∀ p, (path = 0 → p = none) → (path ≠ 0 → p = some path) →
      (D.supported o.driver ctl p = .ok true → w.supported D a ctl path = some .success) ∧
      (D.supported o.driver ctl p = .ok false → w.supported D a ctl path = some .unsupported) ∧
      (∀ e, D.supported o.driver ctl p = .error e → w.supported D a ctl path = some e) := by
  obtain ⟨o, ho, -⟩ := interfaces_alive D w h hd a hm
  refine ⟨o, ho, fun p hp hp' => ?_⟩
  have hn : nonNull path = p := by
    unfold nonNull
    split
    · next h0 => exact (hp h0).symm
    · next h0 => exact (hp' h0).symm
  unfold World.supported
  simp only [ho, hn]
  refine ⟨fun hx => ?_, fun hx => ?_, fun e hx => ?_⟩ <;> rw [hx]

/-- C114. Starting and stopping reach the driver of the interface, whose state is what the driver left, and no other
object changes. -/
theorem start_stop_answer (D : Driver σ) (w : World σ) (h : Reached D w) (hd a : Nat) (hm : (hd, a) ∈ w.db) :
    ∃ o, w.mem a = some o ∧ ∀ ctl p, p ≠ 0 →
      (∃ st w', w.start D a ctl p = some (st, w') ∧
        (∀ u, (D.start o.driver ctl (some p)).1 = .ok u → st = .success) ∧
        (∀ e, (D.start o.driver ctl (some p)).1 = .error e → st = e) ∧
        w'.mem a = some { o with driver := (D.start o.driver ctl (some p)).2 } ∧
        (∀ x, x ≠ a → w'.mem x = w.mem x) ∧ w'.db = w.db ∧ w'.binds = w.binds ∧ w'.dropped = w.dropped) ∧
      (∃ st w', w.start D a ctl 0 = some (st, w') ∧
        (∀ u, (D.start o.driver ctl none).1 = .ok u → st = .success) ∧
        (∀ e, (D.start o.driver ctl none).1 = .error e → st = e) ∧
        w'.mem a = some { o with driver := (D.start o.driver ctl none).2 }) ∧
      ∀ n, (∃ st w', w.stop D a ctl n p = some (st, w') ∧
        (∀ u, (D.stop o.driver ctl n (some p)).1 = .ok u → st = .success) ∧
        (∀ e, (D.stop o.driver ctl n (some p)).1 = .error e → st = e) ∧
        w'.mem a = some { o with driver := (D.stop o.driver ctl n (some p)).2 } ∧
        (∀ x, x ≠ a → w'.mem x = w.mem x) ∧ w'.db = w.db ∧ w'.binds = w.binds ∧ w'.dropped = w.dropped) ∧
        ∃ st w', w.stop D a ctl n 0 = some (st, w') ∧
        (∀ u, (D.stop o.driver ctl n none).1 = .ok u → st = .success) ∧
        (∀ e, (D.stop o.driver ctl n none).1 = .error e → st = e) ∧
        w'.mem a = some { o with driver := (D.stop o.driver ctl n none).2 } := by
  obtain ⟨o, ho, -⟩ := interfaces_alive D w h hd a hm
  refine ⟨o, ho, fun ctl p hp => ⟨?_, ?_, fun n => ⟨?_, ?_⟩⟩⟩
  · refine ⟨statusOf (D.start o.driver ctl (some p)).1,
      { w with mem := set w.mem a (some { o with driver := (D.start o.driver ctl (some p)).2 }) }, ?_, ?_, ?_, set_same _ _ _, fun x hx => set_other hx, rfl, rfl,
      rfl⟩
    · unfold World.start; simp only [ho, nonNull, hp, if_false]
    · intro u hu; rw [hu]; rfl
    · intro e hu; rw [hu]; rfl
  · refine ⟨statusOf (D.start o.driver ctl none).1,
      { w with mem := set w.mem a (some { o with driver := (D.start o.driver ctl none).2 }) }, ?_, ?_, ?_, set_same _ _ _⟩
    · unfold World.start; simp only [ho, nonNull, if_true]
    · intro u hu; rw [hu]; rfl
    · intro e hu; rw [hu]; rfl
  · refine ⟨statusOf (D.stop o.driver ctl n (some p)).1,
      { w with mem := set w.mem a (some { o with driver := (D.stop o.driver ctl n (some p)).2 }) }, ?_, ?_, ?_, set_same _ _ _, fun x hx => set_other hx, rfl, rfl,
      rfl⟩
    · unfold World.stop; simp only [ho, nonNull, hp, if_false]
    · intro u hu; rw [hu]; rfl
    · intro e hu; rw [hu]; rfl
  · refine ⟨statusOf (D.stop o.driver ctl n none).1,
      { w with mem := set w.mem a (some { o with driver := (D.stop o.driver ctl n none).2 }) }, ?_, ?_, ?_,
      set_same _ _ _⟩
    · unfold World.stop; simp only [ho, nonNull, if_true]
    · intro u hu; rw [hu]; rfl
    · intro e hu; rw [hu]; rfl

/-- Finding: a binding made with the null handle is installed on a handle the firmware makes, which the binding does not
keep; uninstalling it fails in every world, whatever the firmware does. -/
theorem null_handle_never_uninstalled (w : World σ) (b a : Nat) (o : Obj σ)
    (refuse : Option Status) (hb : w.binds b = some (.installed a)) (ho : w.mem a = some o)
    (hh : o.bindingHandle = 0) :
    ∃ e, w.uninstall b refuse = some (.error e, w) := by
  unfold World.uninstall
  simp only [hb, ho, hh]
  cases refuse with
  | some e => exact ⟨e, rfl⟩
  | none => exact ⟨.invalidParameter, rfl⟩

/-! ### A history that meets the hypotheses -/

/-- A driver that counts its controllers. -/
def counting : Driver Nat :=
  ⟨fun _ ctl _ => if ctl = 7 then .ok true else .ok false,
   fun n ctl _ => if ctl = 7 then (.ok (), n + 1) else (.error .unsupported, n),
   fun n _ _ _ => if n = 0 then (.error .notFound, n) else (.ok (), n - 1)⟩

/-- Runs a history. -/
def run (D : Driver σ) : World σ → List (Op σ) → Option (World σ)
  | w, [] => some w
  | w, op :: ops => (w.step D op).bind (fun w' => run D w' ops)

/-- Two bindings, one with the null handle; the first is started, uninstalled and dropped, the second is let go of. -/
def history : List (Op Nat) :=
  [.make 0 100 5 6 0, .install 0 (some (.other 9)) 1, .install 0 none 1, .start 6 100 7 0, .make 1 200 5 0 0,
   .install 1 none 1, .uninstall 1 none, .uninstall 0 none, .drop 0, .drop 1]

example : (run counting (World.init Nat) history).map
    (fun w => (w.db, w.dropped, (w.mem 100).isSome, (w.mem 200).isSome, w.binds 0, w.binds 1)) =
    some ([(1, 200)], [0], false, true, none, none) := rfl

example : (run counting (World.init Nat) (history.take 4)).map
    (fun w => (w.db, (w.mem 100).map (·.driver), w.binds 0, w.supported counting 100 7 0, w.supported counting 100 8 3)) =
    some ([(6, 100)], some 1, some (.installed 100), some .success, some .unsupported) := rfl

theorem reached_run (D : Driver σ) (b addr img hdl : Nat) (d : σ) (h0 : addr ≠ 0) :
    Reached D ((World.init σ).make b addr img hdl d) :=
  .step (op := .make b addr img hdl d) .init ⟨rfl, rfl, h0⟩ rfl

end Verif.SdkBoot.Binding
