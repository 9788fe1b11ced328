import Verif.Runtime.Spec
namespace Verif.Runtime

/-! ### Rings -/

/-- `next` leads from `a` through `l` to `b`. -/
def Seg (next : Nat → Nat) : Nat → List Nat → Nat → Prop
  | a, [], b => next a = b
  | a, x :: l, b => next a = x ∧ Seg next x l b

theorem seg_append {next : Nat → Nat} {x b : Nat} : ∀ {l : List Nat} {a : Nat}, Seg next a (l ++ [x]) b ↔ Seg next a l x ∧ next x = b
  | [], a => Iff.rfl
  | y :: l, a => by
    show (next a = y ∧ Seg next y (l ++ [x]) b) ↔ (next a = y ∧ Seg next y l x) ∧ next x = b
    rw [seg_append (l := l), and_assoc]

theorem seg_congr {f g : Nat → Nat} {b : Nat} : ∀ {l : List Nat} {a : Nat}, (∀ x ∈ a :: l, g x = f x) → Seg f a l b → Seg g a l b
  | [], a, h, hs => (h a (by simp)).trans hs
  | y :: l, a, h, hs => ⟨(h a (by simp)).trans hs.1, seg_congr (l := l) (fun x hx => h x (List.mem_cons_of_mem _ hx)) hs.2⟩

theorem put_same {α : Type} (f : Nat → α) (a : Nat) (v : α) : put f a v a = v := if_pos rfl
theorem put_other {α : Type} (f : Nat → α) {a x : Nat} (v : α) (h : x ≠ a) : put f a v x = f x := if_neg h

structure Linked (head prev : Nat) (l : List Nat) (m m' : Mem) : Prop where
  forward : Seg m'.forward prev l head
  back : Seg m'.back head l.reverse prev
  others : ∀ x, x ∉ prev :: l → m'.forward x = m.forward x
  othersBack : ∀ x, x ∉ head :: l → m'.back x = m.back x
  image : m'.image = m.image
  event : m'.event = m.event
  at_ : m'.atRuntime = m.atRuntime

theorem relink_linked {head : Nat} : ∀ {l : List Nat} {prev : Nat} {m : Mem}, (prev :: l).Nodup → head ∉ l → Linked head prev l m (relink head l prev m)
  | [], prev, m, _, _ => ⟨put_same _ _ _, put_same _ _ _, fun x hx => put_other _ _ (by simpa using hx), fun x hx => put_other _ _ (by simpa using hx), rfl, rfl, rfl⟩
  | x :: l, prev, m, hn, hh => by
    have hn' := List.nodup_cons.1 hn
    have hx := List.nodup_cons.1 hn'.2
    have ih := relink_linked (head := head) (m := m.join prev x) hn'.2 (fun h => hh (List.mem_cons_of_mem _ h))
    refine ⟨⟨?_, ih.forward⟩, ?_, ?_, ?_, ih.image, ih.event, ih.at_⟩
    · show (relink head l x (m.join prev x)).forward prev = x
      rw [ih.others prev hn'.1]
      exact put_same _ _ _
    · rw [List.reverse_cons, seg_append]
      refine ⟨ih.back, ?_⟩
      show (relink head l x (m.join prev x)).back x = prev
      rw [ih.othersBack x (by simp only [List.mem_cons, not_or]; exact ⟨fun h => hh (by simp [h]), hx.1⟩)]
      exact put_same _ _ _
    · intro y hy
      simp only [List.mem_cons, not_or] at hy
      show (relink head l x (m.join prev x)).forward y = _
      rw [ih.others y (by simp only [List.mem_cons, not_or]; exact hy.2)]
      exact put_other _ _ hy.1
    · intro y hy
      simp only [List.mem_cons, not_or] at hy
      show (relink head l x (m.join prev x)).back y = _
      rw [ih.othersBack y (by simp only [List.mem_cons, not_or]; exact ⟨hy.1, hy.2.2⟩)]
      exact put_other _ _ hy.2.1

theorem walk_seg {α : Type} {next : Nat → Nat} {entry : Nat → Option α} {head : Nat} :
    ∀ {l : List Nat} {vs : List α} {a n : Nat}, Seg next a l head → l.map entry = vs.map some → head ∉ l → vs.length < n → walk next entry head n a = some vs
  | [], [], a, n + 1, hs, _, _, _ => by unfold walk; exact if_pos hs
  | x :: l, v :: vs, a, n + 1, hs, hm, hh, hn => by
    simp only [List.map_cons, List.cons.injEq] at hm
    have hx : next a = x := hs.1
    have ih := walk_seg (n := n) hs.2 hm.2 (fun h => hh (List.mem_cons_of_mem _ h)) (by simpa using hn)
    unfold walk
    rw [hx, if_neg (fun h => hh (by simp [h])), hm.1, ih]
  | [], v :: vs, _, _, _, hm, _, _ => by cases hm
  | x :: l, [], _, _, _, hm, _, _ => by cases hm

/-! ### The state between operations -/

structure Core (d : Data) (li : List Image) (le : List Event) : Prop where
  images : d.images.map d.mem.image = li.map some
  events : d.events.map d.mem.event = le.map some
  nodupImages : d.images.Nodup
  nodupEvents : d.events.Nodup
  liveImages : ∀ x, d.mem.image x ≠ none → x ∈ d.images
  liveEvents : ∀ x, d.mem.event x ≠ none → x ∈ d.events
  apart : ∀ x, d.mem.image x = none ∨ d.mem.event x = none
  heads : d.protocol ≠ 0 → (d.mem.image (imageHead d.protocol) = none ∧ d.mem.event (imageHead d.protocol) = none)
    ∧ d.mem.image (eventHead d.protocol) = none ∧ d.mem.event (eventHead d.protocol) = none

structure Rings (d : Data) : Prop where
  image : Seg d.mem.forward (imageHead d.protocol) d.images (imageHead d.protocol)
  imageBack : Seg d.mem.back (imageHead d.protocol) d.images.reverse (imageHead d.protocol)
  event : Seg d.mem.forward (eventHead d.protocol) d.events (eventHead d.protocol)
  eventBack : Seg d.mem.back (eventHead d.protocol) d.events.reverse (eventHead d.protocol)

structure Good (d : Data) (li : List Image) (le : List Event) : Prop where
  core : Core d li le
  rings : d.protocol ≠ 0 → Rings d

theorem mem_live {α : Type} {l : List Nat} {vs : List α} {f : Nat → Option α} (h : l.map f = vs.map some) {x : Nat} (hx : x ∈ l) : f x ≠ none := by
  have : f x ∈ vs.map some := by rw [← h]; exact List.mem_map_of_mem hx
  obtain ⟨v, _, hv⟩ := List.mem_map.1 this
  rw [← hv]; simp

theorem update_good {d : Data} {li : List Image} {le : List Event} (h : Core d li le) :
    Good d.update li le ∧ d.update.protocol = d.protocol ∧ d.update.mem.atRuntime = d.mem.atRuntime := by
  unfold Data.update
  by_cases hp : d.protocol = 0
  · rw [if_pos hp]; exact ⟨⟨h, fun hh => absurd hp hh⟩, rfl, rfl⟩
  · rw [if_neg hp]
    dsimp only
    obtain ⟨⟨h1, h2⟩, h3, h4⟩ := h.heads hp
    have i1 : imageHead d.protocol ∉ d.images := fun hh => mem_live h.images hh h1
    have i2 : imageHead d.protocol ∉ d.events := fun hh => mem_live h.events hh h2
    have i3 : eventHead d.protocol ∉ d.images := fun hh => mem_live h.images hh h3
    have i4 : eventHead d.protocol ∉ d.events := fun hh => mem_live h.events hh h4
    have ne : imageHead d.protocol ≠ eventHead d.protocol := by unfold imageHead eventHead; omega
    have hd : ∀ x ∈ d.images, x ∉ d.events := fun x hx hy => by
      rcases h.apart x with hh | hh
      · exact mem_live h.images hx hh
      · exact mem_live h.events hy hh
    have l1 := relink_linked (m := d.mem) (List.nodup_cons.2 ⟨i1, h.nodupImages⟩) i1
    have l2 := relink_linked (m := relink (imageHead d.protocol) d.images (imageHead d.protocol) d.mem) (List.nodup_cons.2 ⟨i4, h.nodupEvents⟩) i4
    have ei := l2.image.trans l1.image
    have ee := l2.event.trans l1.event
    have far : ∀ x ∈ imageHead d.protocol :: d.images, x ∉ eventHead d.protocol :: d.events := by
      intro x hx hy
      rcases List.mem_cons.1 hx with rfl | hx
      · rcases List.mem_cons.1 hy with hy | hy
        · exact ne hy
        · exact i2 hy
      · rcases List.mem_cons.1 hy with rfl | hy
        · exact i3 hx
        · exact hd x hx hy
    refine ⟨⟨⟨?_, ?_, h.nodupImages, h.nodupEvents, ?_, ?_, ?_, ?_⟩, fun _ => ⟨?_, ?_, l2.forward, l2.back⟩⟩, rfl, l2.at_.trans l1.at_⟩
    · dsimp only; rw [ei]; exact h.images
    · dsimp only; rw [ee]; exact h.events
    · dsimp only; rw [ei]; exact h.liveImages
    · dsimp only; rw [ee]; exact h.liveEvents
    · dsimp only; rw [ei, ee]; exact h.apart
    · dsimp only; rw [ei, ee]; exact h.heads
    · exact seg_congr (fun x hx => l2.others x (far x hx)) l1.forward
    · refine seg_congr (fun x hx => l2.othersBack x (far x ?_)) l1.back
      rcases List.mem_cons.1 hx with hx | hx
      · exact hx ▸ List.mem_cons_self
      · exact List.mem_cons_of_mem _ (List.mem_reverse.1 hx)

theorem map_put {α : Type} {l : List Nat} {f : Nat → Option α} {a : Nat} (v : Option α) (h : a ∉ l) : l.map (put f a v) = l.map f :=
  List.map_congr_left fun x hx => put_other _ _ (fun hh => h (hh ▸ hx))

theorem filter_dropped {α : Type} {f : Nat → Option α} (p : α → Bool) {L : List Nat} : ∀ {l : List Nat} {vs : List α}, (∀ x ∈ l, x ∈ L) → l.map f = vs.map some →
    (l.filter fun a => !(f a).any p).map (dropped L f p) = (vs.filter fun v => !p v).map some
  | [], [], _, _ => rfl
  | x :: l, v :: vs, hL, hm => by
    simp only [List.map_cons, List.cons.injEq] at hm
    have ih := filter_dropped p (L := L) (fun y hy => hL y (List.mem_cons_of_mem _ hy)) hm.2
    have ha : (f x).any p = p v := by rw [hm.1]; rfl
    cases hp : p v with
    | true => rw [List.filter_cons_of_neg (by rw [ha, hp]; decide), List.filter_cons_of_neg (by rw [hp]; decide)]; exact ih
    | false =>
      rw [List.filter_cons_of_pos (by rw [ha, hp]; decide), List.filter_cons_of_pos (by rw [hp]; decide), List.map_cons, List.map_cons, ih]
      congr 1
      unfold dropped
      rw [if_neg (by rw [ha, hp]; simp), hm.1]
  | [], v :: vs, _, hm => by cases hm
  | x :: l, [], _, hm => by cases hm

theorem dropped_live {α : Type} {f : Nat → Option α} {p : α → Bool} {L : List Nat} (h : ∀ x, f x ≠ none → x ∈ L) {x : Nat} (hx : dropped L f p x ≠ none) :
    x ∈ L.filter fun a => !(f a).any p := by
  unfold dropped at hx
  split at hx
  · exact absurd rfl hx
  · rename_i hc
    refine List.mem_filter.2 ⟨h x hx, ?_⟩
    cases ha : (f x).any p with
    | true => exact absurd ⟨h x hx, ha⟩ hc
    | false => rfl

theorem dropped_none {α : Type} {f : Nat → Option α} {p : α → Bool} {L : List Nat} {x : Nat} (h : f x = none) : dropped L f p x = none := by
  unfold dropped
  split
  · rfl
  · exact h

/-- What an operation does to what should be found. -/
theorem step_good {d : Data} {li : List Image} {le : List Event} (h : Good d li le) {o : Op} (ho : o.Proper d) :
    Good (d.step o) (images [o] li) (events [o] le) ∧ (d.step o).protocol = protocol [o] d.protocol := by
  have hc := h.core
  cases o with
  | notify p =>
    obtain ⟨h0, h1, h2⟩ := ho
    obtain ⟨k1, k2, _⟩ := update_good (d := { d with protocol := p })
      ⟨hc.images, hc.events, hc.nodupImages, hc.nodupEvents, hc.liveImages, hc.liveEvents, hc.apart, fun _ => ⟨h1, h2⟩⟩
    exact ⟨k1, k2⟩
  | addEvent a e ty tpl f g c =>
    cases f with
    | none => exact ⟨h, rfl⟩
    | some f =>
      obtain ⟨f1, f2, f3⟩ := ho
      have ha : a ∉ d.events := fun hh => mem_live hc.events hh f2
      obtain ⟨k1, k2, _⟩ := update_good (li := li)
        (le := le ++ [⟨if g = some GROUP_VIRTUAL_ADDRESS_CHANGE then VIRTUAL_ADDRESS_CHANGE else ty, tpl, f, c.getD 0, e⟩])
        (d := { d with events := d.events ++ [a], mem := { d.mem with
            event := put d.mem.event a (some ⟨if g = some GROUP_VIRTUAL_ADDRESS_CHANGE then VIRTUAL_ADDRESS_CHANGE else ty, tpl, f, c.getD 0, e⟩)
            forward := put d.mem.forward a 0, back := put d.mem.back a 0 } }) (by
          refine ⟨hc.images, ?_, hc.nodupImages, ?_, hc.liveImages, ?_, ?_, ?_⟩
          · dsimp only
            rw [List.map_append, List.map_append, map_put _ ha, hc.events]
            simp [put_same]
          · exact List.nodup_append.2 ⟨hc.nodupEvents, by simp, by rintro x hx y hy rfl; simp only [List.mem_singleton] at hy; exact ha (hy ▸ hx)⟩
          · intro x hx
            dsimp only at hx ⊢
            by_cases hxa : x = a
            · simp [hxa]
            · rw [put_other _ _ hxa] at hx
              exact List.mem_append_left _ (hc.liveEvents x hx)
          · intro x
            dsimp only
            by_cases hxa : x = a
            · exact Or.inl (hxa ▸ f1)
            · rw [put_other _ _ hxa]; exact hc.apart x
          · intro hp
            obtain ⟨g1, g2, g3⟩ := hc.heads hp
            obtain ⟨n1, n2⟩ := f3 hp
            dsimp only
            rw [put_other _ _ n1.symm, put_other _ _ n2.symm]
            exact ⟨g1, g2, g3⟩)
      exact ⟨k1, k2⟩
  | addImage a i =>
    obtain ⟨f1, f2, f3⟩ := ho
    have ha : a ∉ d.images := fun hh => mem_live hc.images hh f1
    obtain ⟨k1, k2, _⟩ := update_good (li := li ++ [i]) (le := le)
      (d := { d with images := d.images ++ [a], mem := { d.mem with
          image := put d.mem.image a (some i), forward := put d.mem.forward a 0, back := put d.mem.back a 0 } }) (by
        refine ⟨?_, hc.events, ?_, hc.nodupEvents, ?_, hc.liveEvents, ?_, ?_⟩
        · dsimp only
          rw [List.map_append, List.map_append, map_put _ ha, hc.images]
          simp [put_same]
        · exact List.nodup_append.2 ⟨hc.nodupImages, by simp, by rintro x hx y hy rfl; simp only [List.mem_singleton] at hy; exact ha (hy ▸ hx)⟩
        · intro x hx
          dsimp only at hx ⊢
          by_cases hxa : x = a
          · simp [hxa]
          · rw [put_other _ _ hxa] at hx
            exact List.mem_append_left _ (hc.liveImages x hx)
        · intro x
          dsimp only
          by_cases hxa : x = a
          · exact Or.inr (hxa ▸ f2)
          · rw [put_other _ _ hxa]; exact hc.apart x
        · intro hp
          obtain ⟨g1, g2, g3⟩ := hc.heads hp
          obtain ⟨n1, n2⟩ := f3 hp
          dsimp only
          rw [put_other _ _ n1.symm, put_other _ _ n2.symm]
          exact ⟨g1, g2, g3⟩)
    exact ⟨k1, k2⟩
  | removeEvent e =>
    obtain ⟨k1, k2, _⟩ := update_good (li := li) (le := le.filter fun x => !decide (x.event = e))
      (d := { d with events := d.events.filter fun a => !(d.mem.event a).any (fun x : Event => decide (x.event = e))
                     mem := { d.mem with event := dropped d.events d.mem.event fun x : Event => decide (x.event = e) } }) (by
        refine ⟨hc.images, filter_dropped _ (fun _ hx => hx) hc.events, hc.nodupImages, hc.nodupEvents.sublist List.filter_sublist, hc.liveImages,
          fun x hx => dropped_live hc.liveEvents hx, ?_, ?_⟩
        · intro x
          rcases hc.apart x with hh | hh
          · exact Or.inl hh
          · exact Or.inr (dropped_none hh)
        · intro hp
          obtain ⟨⟨g1, g2⟩, g3, g4⟩ := hc.heads hp
          exact ⟨⟨g1, dropped_none g2⟩, g3, dropped_none g4⟩)
    refine ⟨?_, k2⟩
    have : events [.removeEvent e] le = le.filter fun x => !decide (x.event = e) := by
      show le.filter (fun x => decide (x.event ≠ e)) = _
      simp only [decide_not, ne_eq]
    rw [this]; exact k1
  | removeImage hd =>
    obtain ⟨k1, k2, _⟩ := update_good (li := li.filter fun x => !decide (x.handle = hd)) (le := le)
      (d := { d with images := d.images.filter fun a => !(d.mem.image a).any (fun x : Image => decide (x.handle = hd))
                     mem := { d.mem with image := dropped d.images d.mem.image fun x : Image => decide (x.handle = hd) } }) (by
        refine ⟨filter_dropped _ (fun _ hx => hx) hc.images, hc.events, hc.nodupImages.sublist List.filter_sublist, hc.nodupEvents,
          fun x hx => dropped_live hc.liveImages hx, hc.liveEvents, ?_, ?_⟩
        · intro x
          rcases hc.apart x with hh | hh
          · exact Or.inl (dropped_none hh)
          · exact Or.inr hh
        · intro hp
          obtain ⟨⟨g1, g2⟩, g3, g4⟩ := hc.heads hp
          exact ⟨⟨dropped_none g1, g2⟩, dropped_none g3, g4⟩)
    refine ⟨?_, k2⟩
    have : images [.removeImage hd] li = li.filter fun x => !decide (x.handle = hd) := by
      show li.filter (fun x => decide (x.handle ≠ hd)) = _
      simp only [decide_not, ne_eq]
    rw [this]; exact k1
  | finalize =>
    show Good (d.finalize) li le ∧ d.finalize.protocol = d.protocol
    unfold Data.finalize
    split
    · exact ⟨h, rfl⟩
    · exact ⟨⟨⟨hc.images, hc.events, hc.nodupImages, hc.nodupEvents, hc.liveImages, hc.liveEvents, hc.apart, hc.heads⟩,
        fun hp => ⟨(h.rings hp).image, (h.rings hp).imageBack, (h.rings hp).event, (h.rings hp).eventBack⟩⟩, rfl⟩

theorem images_cons (o : Op) (ops : List Op) (l : List Image) : images (o :: ops) l = images ops (images [o] l) := by cases o <;> rfl
theorem events_cons (o : Op) (ops : List Op) (l : List Event) : events (o :: ops) l = events ops (events [o] l) := by
  cases o with
  | addEvent a e ty tpl f g c => cases f <;> rfl
  | _ => rfl
theorem protocol_cons (o : Op) (ops : List Op) (p : Nat) : protocol (o :: ops) p = protocol ops (protocol [o] p) := by cases o <;> rfl

theorem run_good {d : Data} {li : List Image} {le : List Event} (h : Good d li le) {ops : List Op} (ho : Allowed ops d) :
    Good (d.run ops) (images ops li) (events ops le) ∧ (d.run ops).protocol = protocol ops d.protocol := by
  induction ops generalizing d li le with
  | nil => exact ⟨h, rfl⟩
  | cons o ops ih =>
    obtain ⟨h1, h2⟩ := step_good h ho.1
    obtain ⟨h3, h4⟩ := ih h1 ho.2
    rw [images_cons, events_cons, protocol_cons, ← h2]
    exact ⟨h3, h4⟩

theorem good_finds {d : Data} {li : List Image} {le : List Event} (h : Good d li le) (hp : d.protocol ≠ 0) :
    Finds d.mem.forward d.mem.back d.mem.image (imageHead d.protocol) li ∧ Finds d.mem.forward d.mem.back d.mem.event (eventHead d.protocol) le := by
  obtain ⟨⟨h1, h2⟩, h3, h4⟩ := h.core.heads hp
  have i1 : imageHead d.protocol ∉ d.images := fun hh => mem_live h.core.images hh h1
  have i4 : eventHead d.protocol ∉ d.events := fun hh => mem_live h.core.events hh h4
  refine ⟨fun n hn => ⟨walk_seg (h.rings hp).image h.core.images i1 hn, ?_⟩, fun n hn => ⟨walk_seg (h.rings hp).event h.core.events i4 hn, ?_⟩⟩
  · exact walk_seg (h.rings hp).imageBack (by rw [List.map_reverse, List.map_reverse, h.core.images]) (by simpa using i1) (by simpa using hn)
  · exact walk_seg (h.rings hp).eventBack (by rw [List.map_reverse, List.map_reverse, h.core.events]) (by simpa using i4) (by simpa using hn)

theorem new_good {m : Mem} (hi : ∀ x, m.image x = none) (he : ∀ x, m.event x = none) : Good (Data.new m) [] [] :=
  ⟨⟨rfl, rfl, List.nodup_nil, List.nodup_nil, fun x hx => absurd (hi x) hx, fun x hx => absurd (he x) hx, fun x => Or.inl (hi x), fun hh => absurd rfl hh⟩,
    fun hh => absurd rfl hh⟩

/-- After any history, whether images and events came before or after the protocol: the protocol installed last leads, in both directions, to exactly
the images that are loaded and the events that are not closed, in the order they were added, and nothing else is kept in memory. -/
theorem runtime_lists {m : Mem} (hi : ∀ x, m.image x = none) (he : ∀ x, m.event x = none) {ops : List Op} (ho : Allowed ops (Data.new m)) :
    let d := (Data.new m).run ops
    (protocol ops 0 ≠ 0 →
      Finds d.mem.forward d.mem.back d.mem.image (imageHead (protocol ops 0)) (images ops [])
      ∧ Finds d.mem.forward d.mem.back d.mem.event (eventHead (protocol ops 0)) (events ops []))
    ∧ (∀ a i, d.mem.image a = some i → i ∈ images ops []) ∧ ∀ a e, d.mem.event a = some e → e ∈ events ops [] := by
  obtain ⟨h1, h2⟩ := run_good (new_good hi he) ho
  have h2 : ((Data.new m).run ops).protocol = protocol ops 0 := h2
  refine ⟨fun hp => ?_, fun a i ha => ?_, fun a e ha => ?_⟩
  · rw [← h2] at hp ⊢
    exact good_finds h1 hp
  · have : ((Data.new m).run ops).mem.image a ∈ (images ops []).map some := by
      rw [← h1.core.images]
      exact List.mem_map_of_mem (h1.core.liveImages a (by rw [ha]; simp))
    rw [ha] at this
    simpa using this
  · have : ((Data.new m).run ops).mem.event a ∈ (events ops []).map some := by
      rw [← h1.core.events]
      exact List.mem_map_of_mem (h1.core.liveEvents a (by rw [ha]; simp))
    rw [ha] at this
    simpa using this

/-- Ending boot services tells the protocol, if there is one, and changes no list. -/
theorem finalize_tells (d : Data) (hp : d.protocol ≠ 0) : d.finalize.mem.atRuntime d.protocol = true ∧ d.finalize.mem.forward = d.mem.forward
    ∧ d.finalize.mem.back = d.mem.back ∧ d.finalize.mem.image = d.mem.image ∧ d.finalize.mem.event = d.mem.event
    ∧ ∀ p, p ≠ d.protocol → d.finalize.mem.atRuntime p = d.mem.atRuntime p := by
  unfold Data.finalize
  rw [if_neg hp]
  exact ⟨put_same _ _ _, rfl, rfl, rfl, rfl, fun p h => put_other _ _ h⟩

/-- An event without a function is refused. -/
theorem event_refused (d : Data) (a e ty tpl : Nat) (g c : Option Nat) : d.addEvent a e ty tpl none g c = (.err .invalidParameter, d) := rfl

theorem event_accepted (d : Data) (a e ty tpl f : Nat) (g c : Option Nat) : (d.addEvent a e ty tpl (some f) g c).1 = .ok () := rfl

/-! ### A history -/

def noMem : Mem := ⟨fun _ => 0, fun _ => 0, fun _ => none, fun _ => none, fun _ => false⟩

def history : List Op :=
  [.addImage 0x100 ⟨0x10000, 0x1000, 0, 1⟩, .addEvent 0x200 0x8000000000000001 0x40000200 8 (some 0x10100) none none, .addImage 0x300 ⟨0x20000, 0x1000, 0, 2⟩,
    .notify 0x1000, .addEvent 0x400 0x8000000000000002 0x200 16 (some 0x10200) (some GROUP_VIRTUAL_ADDRESS_CHANGE) (some 5), .removeImage 1,
    .addImage 0x100 ⟨0x30000, 0x1000, 0, 3⟩, .removeEvent 0x8000000000000001, .finalize]

theorem history_allowed : Allowed history (Data.new noMem) := by
  refine ⟨⟨rfl, rfl, fun hh => absurd rfl hh⟩, ⟨rfl, rfl, fun hh => absurd rfl hh⟩, ⟨rfl, rfl, fun hh => absurd rfl hh⟩, ⟨by decide, ⟨rfl, rfl⟩, rfl, rfl⟩,
    ⟨rfl, rfl, fun _ => ⟨by decide, by decide⟩⟩, trivial, ⟨rfl, rfl, fun _ => ⟨by decide, by decide⟩⟩, trivial, trivial, trivial⟩

example : let d := (Data.new noMem).run history
    walk d.mem.forward d.mem.image 0x1000 3 0x1000 = some [⟨0x20000, 0x1000, 0, 2⟩, ⟨0x30000, 0x1000, 0, 3⟩]
    ∧ walk d.mem.back d.mem.event 0x1010 3 0x1010 = some [⟨0x60000202, 16, 0x10200, 5, 0x8000000000000002⟩] := by
  obtain ⟨h, _⟩ := runtime_lists (m := noMem) (fun _ => rfl) (fun _ => rfl) history_allowed
  obtain ⟨h1, h2⟩ := h (by decide)
  exact ⟨(h1 3 (by decide)).1, (h2 3 (by decide)).2⟩

end Verif.Runtime
