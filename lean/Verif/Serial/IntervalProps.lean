import Verif.Serial.Spec
/-!
What merging intervals gives.
-/
namespace Verif.Serial

/-- What is asked of a kind of interval: `remake` changes the start and the length and nothing else. -/
structure Lawful {α : Type} (K : Kind α) : Prop where
  start : ∀ d s n, K.start (K.remake d s n) = s
  length : ∀ d s n, K.length (K.remake d s n) = n
  same : ∀ d s n s' n', K.remake (K.remake d s n) s' n' = K.remake d s' n'
  self : ∀ d, K.remake d (K.start d) (K.length d) = d

theorem alloc_lawful : Lawful ALLOC := ⟨fun _ _ _ => rfl, fun _ _ _ => rfl, fun _ _ _ _ _ => rfl, fun _ => rfl⟩
theorem res_lawful : Lawful RES := ⟨fun _ _ _ => rfl, fun _ _ _ => rfl, fun _ _ _ _ _ => rfl, fun _ => rfl⟩

theorem insert_perm {α : Type} (le : α → α → Bool) (x : α) (l : List α) : (insertBy le x l).Perm (x :: l) := by
  induction l with
  | nil => exact List.Perm.refl _
  | cons y l ih =>
    unfold insertBy
    split
    · exact List.Perm.refl _
    · exact (ih.cons y).trans (List.Perm.swap x y l)

theorem sort_perm {α : Type} (le : α → α → Bool) (l : List α) : (sortBy le l).Perm l := by
  induction l with
  | nil => exact List.Perm.refl _
  | cons x l ih => exact (insert_perm le x _).trans (ih.cons x)

theorem sort_sorted {α : Type} {le : α → α → Bool} (trans : ∀ a b c, le a b = true → le b c = true → le a c = true) (total : ∀ a b, (le a b || le b a) = true) (l : List α) :
    (sortBy le l).Pairwise fun a b => le a b = true := by
  have ins : ∀ (x : α) (l : List α), l.Pairwise (fun a b => le a b = true) → (insertBy le x l).Pairwise fun a b => le a b = true := by
    intro x l
    induction l with
    | nil => exact fun _ => List.pairwise_singleton _ _
    | cons y l ih =>
      intro h
      obtain ⟨h1, h2⟩ := List.pairwise_cons.1 h
      unfold insertBy
      split
      · next hxy =>
        refine List.pairwise_cons.2 ⟨fun z hz => ?_, h⟩
        rcases List.mem_cons.1 hz with rfl | hz
        · exact hxy
        · exact trans _ _ _ hxy (h1 z hz)
      · next hxy =>
        refine List.pairwise_cons.2 ⟨fun z hz => ?_, ih h2⟩
        rcases List.mem_cons.1 ((insert_perm le x l).mem_iff.1 hz) with rfl | hz
        · have := total z y
          rw [Bool.or_eq_true] at this
          exact this.resolve_left hxy
        · exact h1 z hz
  induction l with
  | nil => exact List.Pairwise.nil
  | cons x l ih => exact ins x _ ih

section
variable {α : Type} {K : Kind α}

theorem stop_ends {dbg : Bool} {d : α} (h : Ends K d) : K.stop dbg d = some (K.start d + K.length d) := by
  unfold Ends at h
  unfold Kind.stop add64
  rw [if_pos h]

/-- Two intervals touch or overlap. -/
def Meet (K : Kind α) (a b : α) : Prop :=
  (K.start a < K.start b + K.length b ∧ K.start b < K.start a + K.length a) ∨ K.start a + K.length a = K.start b ∨ K.start b + K.length b = K.start a

/-- The interval from the lower start to the higher end. -/
def hull (K : Kind α) (a b : α) : α :=
  K.remake a (min (K.start a) (K.start b)) (max (K.start a + K.length a) (K.start b + K.length b) - min (K.start a) (K.start b))

theorem tryMerge_ends {dbg : Bool} {a b : α} (ha : Ends K a) (hb : Ends K b) :
    (Meet K a b → K.tryMerge dbg a b = some (some (hull K a b))) ∧ (¬ Meet K a b → K.tryMerge dbg a b = some none) := by
  have hc : (overlaps (K.start a) (K.start a + K.length a) (K.start b) (K.start b + K.length b) ||
      adjacent (K.start a) (K.start a + K.length a) (K.start b) (K.start b + K.length b)) = true ↔ Meet K a b := by
    unfold overlaps adjacent Meet
    simp
  have hm : K.merge dbg a b = some (hull K a b) := by
    unfold Kind.merge
    rw [stop_ends ha, stop_ends hb]
    show (sub64 dbg _ _).bind _ = _
    unfold sub64
    rw [if_pos (by omega)]
    rfl
  constructor
  · intro h
    unfold Kind.tryMerge
    rw [stop_ends ha, stop_ends hb]
    show (if _ then _ else _) = _
    rw [if_pos (hc.2 h), hm]
    rfl
  · intro h
    unfold Kind.tryMerge
    rw [stop_ends ha, stop_ends hb]
    show (if _ then _ else _) = _
    rw [if_neg (fun hh => h (hc.1 hh))]
    rfl

theorem hull_start (L : Lawful K) (a b : α) : K.start (hull K a b) = min (K.start a) (K.start b) := L.start _ _ _

theorem hull_end (L : Lawful K) (a b : α) : K.start (hull K a b) + K.length (hull K a b) = max (K.start a + K.length a) (K.start b + K.length b) := by
  unfold hull
  rw [L.start, L.length]
  omega

theorem hull_ends (L : Lawful K) {a b : α} (ha : Ends K a) (hb : Ends K b) : Ends K (hull K a b) := by
  unfold Ends at *
  rw [hull_end L]
  omega

/-- `x` is `d` with another length. -/
def Grown (K : Kind α) (d x : α) : Prop := ∃ n, x = K.remake d (K.start d) n

theorem covered_hull (L : Lawful K) {a b : α} (h : Meet K a b) (l : List α) (x : Nat) : Covered K (hull K a b :: l) x ↔ Covered K (a :: b :: l) x := by
  unfold Covered
  simp only [List.mem_cons, exists_eq_or_imp]
  rw [hull_end L, hull_start L]
  unfold Meet at h
  constructor
  · rintro (hh | hh)
    · by_cases h1 : K.start a ≤ x ∧ x < K.start a + K.length a
      · exact Or.inl h1
      · exact Or.inr (Or.inl (by omega))
    · exact Or.inr (Or.inr hh)
  · rintro (hh | hh | hh)
    · exact Or.inl (by omega)
    · exact Or.inl (by omega)
    · exact Or.inr hh

theorem loop_ends {dbg : Bool} (L : Lawful K) : ∀ (ds : List α) (last : α), Ends K last → (∀ d ∈ ds, Ends K d) →
    ∃ r, K.mergeLoop dbg last ds = some r ∧ (∀ x, Covered K r x ↔ Covered K (last :: ds) x) ∧ (∀ x ∈ r, Ends K x) := by
  intro ds
  induction ds with
  | nil => exact fun last h _ => ⟨[last], rfl, fun x => Iff.rfl, fun x hx => by rw [List.mem_singleton.1 hx]; exact h⟩
  | cons d ds ih =>
    intro last hl hd
    have hdd := hd d List.mem_cons_self
    have hds : ∀ x ∈ ds, Ends K x := fun x hx => hd x (List.mem_cons_of_mem _ hx)
    by_cases hm : Meet K last d
    · obtain ⟨r, hr, hc, he⟩ := ih (hull K last d) (hull_ends L hl hdd) hds
      refine ⟨r, ?_, fun x => (hc x).trans (covered_hull L hm ds x), he⟩
      unfold Kind.mergeLoop
      rw [(tryMerge_ends hl hdd).1 hm]
      exact hr
    · obtain ⟨r, hr, hc, he⟩ := ih d hdd hds
      refine ⟨last :: r, ?_, fun x => ?_, ?_⟩
      · unfold Kind.mergeLoop
        rw [(tryMerge_ends hl hdd).2 hm]
        show (K.mergeLoop dbg d ds).bind _ = _
        rw [hr]
        rfl
      · unfold Covered at hc ⊢
        have hcx := hc x
        simp only [List.mem_cons, exists_eq_or_imp] at hcx ⊢
        rw [hcx]
      · intro x hx
        rcases List.mem_cons.1 hx with rfl | hx
        · exact hl
        · exact he x hx

theorem covered_perm {l r : List α} (h : l.Perm r) (x : Nat) : Covered K l x ↔ Covered K r x :=
  ⟨fun ⟨d, hd, hx⟩ => ⟨d, h.mem_iff.1 hd, hx⟩, fun ⟨d, hd, hx⟩ => ⟨d, h.mem_iff.2 hd, hx⟩⟩

theorem all_ends (L : Lawful K) (dbg : Bool) {l : List α} (h : ∀ d ∈ l, Ends K d) :
    ∃ r, K.mergeAll dbg l = some r ∧ (∀ x, Covered K r x ↔ Covered K l x) ∧ (∀ x ∈ r, Ends K x) := by
  have hp := sort_perm K.le l
  unfold Kind.mergeAll
  cases hs : sortBy K.le l with
  | nil =>
    rw [hs] at hp
    refine ⟨[], rfl, fun x => covered_perm hp x, fun x hx => (List.not_mem_nil hx).elim⟩
  | cons d ds =>
    rw [hs] at hp
    obtain ⟨r, hr, hc, he⟩ := loop_ends (dbg := dbg) L ds d (h d (hp.mem_iff.1 List.mem_cons_self)) (fun x hx => h x (hp.mem_iff.1 (List.mem_cons_of_mem _ hx)))
    exact ⟨r, hr, fun x => (hc x).trans (covered_perm hp x), he⟩

/-- Sorted by start, the loop leaves gaps. -/
theorem loop_apart {dbg : Bool} (L : Lawful K) : ∀ (ds : List α) (last : α), Ends K last → (∀ d ∈ ds, Ends K d) →
    (last :: ds).Pairwise (fun a b => K.start a ≤ K.start b) → ∀ r, K.mergeLoop dbg last ds = some r →
    Apart K r ∧ (∀ x ∈ r, K.start last ≤ K.start x) ∧ ∀ x ∈ r, ∃ d ∈ last :: ds, Grown K d x := by
  intro ds
  induction ds with
  | nil =>
    intro last _ _ _ r hr
    have hr : some [last] = some r := hr
    cases hr
    refine ⟨List.pairwise_singleton _ _, fun x hx => by rw [List.mem_singleton.1 hx]; exact Nat.le_refl _, fun x hx => ⟨last, List.mem_cons_self, K.length last, ?_⟩⟩
    rw [List.mem_singleton.1 hx, L.self]
  | cons d ds ih =>
    intro last hl hd hs r hr
    have hdd := hd d List.mem_cons_self
    have hds : ∀ x ∈ ds, Ends K x := fun x hx => hd x (List.mem_cons_of_mem _ hx)
    obtain ⟨hs1, hs2⟩ := List.pairwise_cons.1 hs
    have hld := hs1 d List.mem_cons_self
    unfold Kind.mergeLoop at hr
    by_cases hm : Meet K last d
    · rw [(tryMerge_ends hl hdd).1 hm] at hr
      have hst : K.start (hull K last d) = K.start last := by rw [hull_start L]; omega
      have hsorted : (hull K last d :: ds).Pairwise (fun a b => K.start a ≤ K.start b) :=
        List.pairwise_cons.2 ⟨fun x hx => by rw [hst]; exact hs1 x (List.mem_cons_of_mem _ hx), (List.pairwise_cons.1 hs2).2⟩
      obtain ⟨h1, h2, h3⟩ := ih (hull K last d) (hull_ends L hl hdd) hds hsorted r hr
      refine ⟨h1, fun x hx => by rw [← hst]; exact h2 x hx, fun x hx => ?_⟩
      obtain ⟨y, hy, n, hn⟩ := h3 x hx
      rcases List.mem_cons.1 hy with rfl | hy
      · refine ⟨last, List.mem_cons_self, n, ?_⟩
        rw [hn, hst]
        exact L.same _ _ _ _ _
      · exact ⟨y, List.mem_cons_of_mem _ (List.mem_cons_of_mem _ hy), n, hn⟩
    · rw [(tryMerge_ends hl hdd).2 hm] at hr
      cases hq : K.mergeLoop dbg d ds with
      | none =>
        have hr : (K.mergeLoop dbg d ds).bind (fun q => some (last :: q)) = some r := hr
        rw [hq] at hr
        simp at hr
      | some q =>
        have hr : (K.mergeLoop dbg d ds).bind (fun q => some (last :: q)) = some r := hr
        rw [hq] at hr
        have hr : some (last :: q) = some r := hr
        cases hr
        obtain ⟨h1, h2, h3⟩ := ih d hdd hds hs2 q hq
        have hgap : K.start last + K.length last < K.start d := by
          unfold Meet at hm
          omega
        refine ⟨List.pairwise_cons.2 ⟨fun x hx => Nat.lt_of_lt_of_le hgap (h2 x hx), h1⟩, fun x hx => ?_, fun x hx => ?_⟩
        · rcases List.mem_cons.1 hx with rfl | hx
          · exact Nat.le_refl _
          · exact Nat.le_trans hld (h2 x hx)
        · rcases List.mem_cons.1 hx with rfl | hx
          · exact ⟨x, List.mem_cons_self, K.length x, (L.self x).symm⟩
          · obtain ⟨y, hy, n, hn⟩ := h3 x hx
            exact ⟨y, List.mem_cons_of_mem _ hy, n, hn⟩

/-- Sorted by an order that goes by start. -/
theorem all_apart (L : Lawful K) {dbg : Bool} {l : List α} (h : ∀ d ∈ l, Ends K d) (trans : ∀ a b c, K.le a b = true → K.le b c = true → K.le a c = true)
    (total : ∀ a b, (K.le a b || K.le b a) = true) (start : ∀ a b, a ∈ l → b ∈ l → K.le a b = true → K.start a ≤ K.start b) {r : List α}
    (hr : K.mergeAll dbg l = some r) : Apart K r ∧ ∀ x ∈ r, ∃ d ∈ l, Grown K d x := by
  have hp := sort_perm K.le l
  have hs := sort_sorted trans total l
  unfold Kind.mergeAll at hr
  cases he : sortBy K.le l with
  | nil =>
    rw [he] at hr
    have hr : some [] = some r := hr
    cases hr
    exact ⟨List.Pairwise.nil, fun x hx => (List.not_mem_nil hx).elim⟩
  | cons d ds =>
    rw [he] at hr hp hs
    have hm : ∀ x ∈ d :: ds, x ∈ l := fun x hx => hp.mem_iff.1 hx
    have hs' : (d :: ds).Pairwise (fun a b => K.start a ≤ K.start b) := hs.imp_of_mem fun ha hb hab => start _ _ (hm _ ha) (hm _ hb) hab
    obtain ⟨h1, -, h3⟩ := loop_apart (dbg := dbg) L ds d (h d (hm d List.mem_cons_self)) (fun x hx => h x (hm x (List.mem_cons_of_mem _ hx))) hs' r hr
    refine ⟨h1, fun x hx => ?_⟩
    obtain ⟨y, hy, g⟩ := h3 x hx
    exact ⟨y, hm y hy, g⟩

theorem assigned {β : Type} [DecidableEq β] (R : α → β → Prop) : ∀ (r : List α) (l : List β), (∀ x ∈ r, ∃ e ∈ l, R x e) →
    r.Pairwise (fun x y => ∀ e, R x e → ¬ R y e) → r.length ≤ l.length := by
  intro r
  induction r with
  | nil => exact fun l _ _ => Nat.zero_le _
  | cons x r ih =>
    intro l h hp
    obtain ⟨hp1, hp2⟩ := List.pairwise_cons.1 hp
    obtain ⟨e, he, hx⟩ := h x List.mem_cons_self
    have := ih (l.erase e) (fun y hy => by
      obtain ⟨f, hf, hyf⟩ := h y (List.mem_cons_of_mem _ hy)
      exact ⟨f, (List.mem_erase_of_ne (fun hfe : f = e => hp1 y hy e hx (hfe ▸ hyf))).2 hf, hyf⟩) hp2
    rw [List.length_erase_of_mem he] at this
    have : l.length ≠ 0 := fun h0 => by rw [List.length_eq_zero_iff.1 h0] at he; exact List.not_mem_nil he
    rw [List.length_cons]
    omega

/-- Intervals with gaps between them are the fewest that cover what they cover. -/
theorem apart_fewest [DecidableEq α] {r l : List α} (hr : Apart K r) (hne : ∀ x ∈ r, 0 < K.length x) (hc : ∀ x, Covered K l x ↔ Covered K r x) : r.length ≤ l.length := by
  refine assigned (fun x e => K.start e ≤ K.start x ∧ K.start x < K.start e + K.length e ∧ ∀ y, K.start e ≤ y ∧ y < K.start e + K.length e → Covered K r y) r l (fun x hx => ?_) ?_
  · obtain ⟨e, he, h1, h2⟩ := (hc (K.start x)).2 ⟨x, hx, Nat.le_refl _, by have := hne x hx; omega⟩
    exact ⟨e, he, h1, h2, fun y hy => (hc y).1 ⟨e, he, hy.1, hy.2⟩⟩
  · -- an interval over two starts would cover the end of the first
    refine List.Pairwise.imp_of_mem (R := fun a b => K.start a + K.length a < K.start b) ?_ hr
    intro x y hx hy hxy e he1 he2
    obtain ⟨z, hz, hz1, hz2⟩ := he1.2.2 (K.start x + K.length x) ⟨by have := hne x hx; omega, by omega⟩
    have hsep : ∀ (r : List α), Apart K r → ∀ a ∈ r, ∀ b ∈ r, a = b ∨ K.start a + K.length a < K.start b ∨ K.start b + K.length b < K.start a := by
      intro r
      induction r with
      | nil => exact fun _ a ha => (List.not_mem_nil ha).elim
      | cons c r ih =>
        intro h a ha b hb
        obtain ⟨h1, h2⟩ := List.pairwise_cons.1 h
        rcases List.mem_cons.1 ha with rfl | ha' <;> rcases List.mem_cons.1 hb with rfl | hb'
        · exact Or.inl rfl
        · exact Or.inr (Or.inl (h1 b hb'))
        · exact Or.inr (Or.inr (h1 a ha'))
        · exact ih h2 a ha' b hb'
    rcases hsep r hr x hx z hz with rfl | h | h
    · omega
    · omega
    · omega

end

/-! ### The two kinds -/

theorem res_trans (a b c : ResSer) : RES.le a b = true → RES.le b c = true → RES.le a c = true := by
  unfold RES
  simp only
  split <;> split <;> split <;> simp only [decide_eq_true_eq] <;> omega

theorem res_total (a b : ResSer) : (RES.le a b || RES.le b a) = true := by
  unfold RES
  simp only [Bool.or_eq_true]
  split <;> split <;> simp only [decide_eq_true_eq] <;> omega

theorem res_start (a b : ResSer) : RES.le a b = true → RES.start a ≤ RES.start b := by
  unfold RES
  simp only
  split <;> simp only [decide_eq_true_eq] <;> omega

/-- Merging resource descriptors that end below the end of the address space gives intervals that cover exactly the same addresses, with gaps between them, lowest first; each has the
owner, type and attributes of a descriptor that starts where it does. -/
theorem resources_merge (dbg : Bool) {l : List ResSer} (h : ∀ d ∈ l, d.start + d.length < 2 ^ 64) :
    ∃ r, RES.mergeAll dbg l = some r ∧ (∀ a, Covered RES r a ↔ Covered RES l a) ∧ Apart RES r ∧
      ∀ x ∈ r, ∃ d ∈ l, x.start = d.start ∧ x.owner = d.owner ∧ x.type = d.type ∧ x.attr = d.attr := by
  obtain ⟨r, hr, hc, -⟩ := all_ends res_lawful dbg h
  obtain ⟨h1, h2⟩ := all_apart res_lawful h res_trans res_total (fun a b _ _ => res_start a b) hr
  refine ⟨r, hr, hc, h1, fun x hx => ?_⟩
  obtain ⟨d, hd, n, e⟩ := h2 x hx
  exact ⟨d, hd, by rw [e]; rfl, by rw [e]; rfl, by rw [e]; rfl, by rw [e]; rfl⟩

/-- No list of descriptors that covers the same addresses is shorter, when the descriptors are not empty. -/
theorem resources_fewest {dbg : Bool} {l r : List ResSer} (h : ∀ d ∈ l, d.start + d.length < 2 ^ 64) (hne : ∀ d ∈ l, 0 < d.length) (hr : RES.mergeAll dbg l = some r)
    {other : List ResSer} (hc : ∀ a, Covered RES other a ↔ Covered RES l a) : r.length ≤ other.length := by
  obtain ⟨r', hr', hc', hap, -⟩ := resources_merge dbg h
  rw [hr] at hr'
  cases hr'
  obtain ⟨-, hg⟩ := all_apart res_lawful h res_trans res_total (fun a b _ _ => res_start a b) hr
  refine apart_fewest hap (fun x hx => ?_) (fun a => (hc a).trans (hc' a).symm)
  obtain ⟨d, hd, n, e⟩ := hg x hx
  refine Nat.pos_of_ne_zero fun h0 => ?_
  -- the start of an input interval is covered, and by the result only in `x`
  obtain ⟨z, hz, hz1, hz2⟩ := (hc' d.start).2 ⟨d, hd, Nat.le_refl _, by have := hne d hd; show d.start < d.start + d.length; omega⟩
  have hxs : x.start = d.start := by rw [e]; rfl
  have h0 : x.length = 0 := h0
  have hz1 : z.start ≤ d.start := hz1
  have hz2 : d.start < z.start + z.length := hz2
  have hsep : ∀ (r : List ResSer), Apart RES r → ∀ a ∈ r, ∀ b ∈ r, a = b ∨ a.start + a.length < b.start ∨ b.start + b.length < a.start := by
    intro r
    induction r with
    | nil => exact fun _ a ha => (List.not_mem_nil ha).elim
    | cons c r ih =>
      intro h a ha b hb
      obtain ⟨h1, h2⟩ := List.pairwise_cons.1 h
      rcases List.mem_cons.1 ha with rfl | ha' <;> rcases List.mem_cons.1 hb with rfl | hb'
      · exact Or.inl rfl
      · exact Or.inr (Or.inl (h1 b hb'))
      · exact Or.inr (Or.inr (h1 a ha'))
      · exact ih h2 a ha' b hb'
  rcases hsep r hap x hx z hz with rfl | h | h
  · omega
  · omega
  · omega

theorem chars_total : ∀ a b : List Char, (leChars a b || leChars b a) = true
  | [], b => rfl
  | _ :: _, [] => rfl
  | a :: x, b :: y => by
    unfold leChars
    by_cases h1 : a.toNat < b.toNat
    · rw [if_pos h1]; rfl
    · by_cases h2 : b.toNat < a.toNat
      · rw [if_neg h1, if_pos h2, if_pos h2]; rfl
      · rw [if_neg h1, if_neg h2, if_neg h2, if_neg h1]
        exact chars_total x y

theorem chars_antisymm : ∀ a b : List Char, leChars a b = true → leChars b a = true → a = b
  | [], [] => fun _ _ => rfl
  | [], _ :: _ => fun _ h => by simp [leChars] at h
  | _ :: _, [] => fun h _ => by simp [leChars] at h
  | a :: x, b :: y => by
    unfold leChars
    by_cases h1 : a.toNat < b.toNat
    · rw [if_pos h1, if_neg (by omega), if_pos h1]
      exact fun _ h => by simp at h
    · by_cases h2 : b.toNat < a.toNat
      · rw [if_neg h1, if_pos h2]
        exact fun h => by simp at h
      · rw [if_neg h1, if_neg h2, if_neg h2, if_neg h1]
        intro h h'
        rw [chars_antisymm x y h h', show a = b from Char.toNat_inj.1 (by omega)]

theorem chars_trans : ∀ a b c : List Char, leChars a b = true → leChars b c = true → leChars a c = true
  | [], _, _ => fun _ _ => rfl
  | _ :: _, [], _ => fun h => by simp [leChars] at h
  | _ :: _, _ :: _, [] => fun _ h => by simp [leChars] at h
  | a :: x, b :: y, c :: z => by
    have ih := chars_trans x y z
    unfold leChars
    split
    · split
      · intros; rw [if_pos (by omega)]
      · split
        · intro _ h; simp at h
        · intros; rw [if_pos (by omega)]
    · split
      · intro h; simp at h
      · split
        · intros; rw [if_pos (by omega)]
        · split
          · intro _ h; simp at h
          · rw [if_neg (by omega), if_neg (by omega)]
            exact ih

theorem alloc_le_same {a b : AllocSer} (h : a.name = b.name) :
    ALLOC.le a b = true ↔ a.base < b.base ∨ a.base = b.base ∧ (a.length < b.length ∨ a.length = b.length ∧ a.type ≤ b.type) := by
  unfold ALLOC
  simp only
  rw [if_neg (fun hh => hh h)]
  split
  · simp only [decide_eq_true_eq]; omega
  · split <;> simp only [decide_eq_true_eq] <;> omega

theorem alloc_le_other {a b : AllocSer} (h : a.name ≠ b.name) : ALLOC.le a b = leChars a.name b.name := by
  unfold ALLOC
  simp only
  rw [if_pos h]

theorem alloc_total (a b : AllocSer) : (ALLOC.le a b || ALLOC.le b a) = true := by
  by_cases hn : a.name = b.name
  · rw [Bool.or_eq_true, alloc_le_same hn, alloc_le_same hn.symm]
    omega
  · rw [alloc_le_other hn, alloc_le_other (fun h => hn h.symm)]
    exact chars_total _ _

theorem alloc_trans (a b c : AllocSer) : ALLOC.le a b = true → ALLOC.le b c = true → ALLOC.le a c = true := by
  by_cases h1 : a.name = b.name
  · by_cases h2 : b.name = c.name
    · rw [alloc_le_same h1, alloc_le_same h2, alloc_le_same (h1.trans h2)]
      omega
    · rw [alloc_le_other h2, alloc_le_other (fun h => h2 (h1.symm.trans h)), h1]
      exact fun _ h => h
  · by_cases h2 : b.name = c.name
    · rw [alloc_le_other h1, alloc_le_other (fun h => h1 (h.trans h2.symm)), ← h2]
      exact fun h _ => h
    · rw [alloc_le_other h1, alloc_le_other h2]
      by_cases h3 : a.name = c.name
      · intro ha hb
        rw [← h3] at hb
        exact absurd (chars_antisymm _ _ ha hb) h1
      · rw [alloc_le_other h3]
        exact chars_trans _ _ _

/-- Merging memory allocations gives intervals that cover exactly the same addresses. -/
theorem allocations_merge (dbg : Bool) {l : List AllocSer} (h : ∀ d ∈ l, d.base + d.length < 2 ^ 64) :
    ∃ r, ALLOC.mergeAll dbg l = some r ∧ ∀ a, Covered ALLOC r a ↔ Covered ALLOC l a := by
  obtain ⟨r, hr, hc, -⟩ := all_ends alloc_lawful dbg h
  exact ⟨r, hr, hc⟩

/-- With gaps between them, lowest first, if the allocations have one name. In general this is false: `names_overlap`. -/
theorem allocations_apart_partial {dbg : Bool} {l r : List AllocSer} (h : ∀ d ∈ l, d.base + d.length < 2 ^ 64) {name : List Char} (hn : ∀ d ∈ l, d.name = name)
    (hr : ALLOC.mergeAll dbg l = some r) : Apart ALLOC r ∧ ∀ x ∈ r, ∃ d ∈ l, x.base = d.base ∧ x.name = d.name ∧ x.type = d.type := by
  obtain ⟨h1, h2⟩ := all_apart alloc_lawful h alloc_trans alloc_total (fun a b ha hb => by
    rw [alloc_le_same ((hn a ha).trans (hn b hb).symm)]
    show _ → a.base ≤ b.base
    omega) hr
  refine ⟨h1, fun x hx => ?_⟩
  obtain ⟨d, hd, n, e⟩ := h2 x hx
  exact ⟨d, hd, by rw [e]; rfl, by rw [e]; rfl, by rw [e]; rfl⟩

/-- An interval that does not end below the end of the address space stops a checked build, unless it is the only one. -/
theorem overflow_panics {α : Type} {K : Kind α} {l : List α} (h2 : 2 ≤ l.length) {d : α} (hd : d ∈ l) (hend : ¬ Ends K d) : K.mergeAll true l = none := by
  have hstop : ∀ {d : α}, ¬ Ends K d → K.stop true d = none := fun {d} h => by
    unfold Ends at h
    unfold Kind.stop add64
    rw [if_neg h]
    rfl
  have loop : ∀ (ds : List α) (last : α), (∃ d ∈ ds, ¬ Ends K d) → K.mergeLoop true last ds = none := by
    intro ds
    induction ds with
    | nil => rintro last ⟨d, hd, -⟩; exact (List.not_mem_nil hd).elim
    | cons e ds ih =>
      rintro last ⟨d, hd, hend⟩
      unfold Kind.mergeLoop
      cases ht : K.tryMerge true last e with
      | none => rfl
      | some m =>
        have he : Ends K e := by
          refine Classical.byContradiction fun he => ?_
          unfold Kind.tryMerge at ht
          rw [hstop he] at ht
          cases hs : K.stop true last with
          | none => rw [hs] at ht; simp at ht
          | some x => rw [hs] at ht; simp at ht
        have hin : ∃ d ∈ ds, ¬ Ends K d := by
          rcases List.mem_cons.1 hd with rfl | hd
          · exact absurd he hend
          · exact ⟨d, hd, hend⟩
        cases m with
        | some x => exact ih x hin
        | none =>
          show (K.mergeLoop true e ds).bind _ = none
          rw [ih e hin]
          rfl
  have hp := sort_perm K.le l
  unfold Kind.mergeAll
  cases hs : sortBy K.le l with
  | nil => rw [hs] at hp; rw [← hp.length_eq] at h2; simp at h2
  | cons a ds =>
    rw [hs] at hp
    rcases List.mem_cons.1 (hp.mem_iff.2 hd) with rfl | hin
    · cases ds with
      | nil => rw [← hp.length_eq] at h2; simp at h2
      | cons e ds =>
        show K.mergeLoop true d (e :: ds) = none
        unfold Kind.mergeLoop Kind.tryMerge
        rw [hstop hend]
        rfl
    · exact loop ds a ⟨d, hin, hend⟩

/-- `contains` says whether every address of an interval, which is not empty, is in another. -/
theorem contains_iff {α : Type} {K : Kind α} (dbg : Bool) {a b : α} (ha : Ends K a) (hb : Ends K b) (hne : 0 < K.length b) :
    ∃ v, K.contains dbg a b = some v ∧ (v = true ↔ ∀ x, K.start b ≤ x ∧ x < K.start b + K.length b → K.start a ≤ x ∧ x < K.start a + K.length a) := by
  refine ⟨_, by unfold Kind.contains; rw [stop_ends ha, stop_ends hb]; rfl, ?_⟩
  rw [Bool.and_eq_true, decide_eq_true_eq, decide_eq_true_eq]
  constructor
  · intro h x hx
    omega
  · intro h
    have h1 := h (K.start b) (by omega)
    have h2 := h (K.start b + K.length b - 1) (by omega)
    omega

/-- `length` is the length. -/
theorem size_is {α : Type} {K : Kind α} (dbg : Bool) {a : α} (ha : Ends K a) : K.size dbg a = some (K.length a) := by
  unfold Kind.size
  rw [stop_ends ha]
  show sub64 dbg (K.start a + K.length a) (K.start a) = _
  unfold sub64
  rw [if_pos (by omega), Nat.add_sub_cancel_left]

/-- Two intervals that are not empty are merged exactly when no address lies between them that neither has: then together they are the addresses from one end to the other. -/
theorem merged_iff {α : Type} {K : Kind α} (L : Lawful K) (dbg : Bool) {a b : α} (ha : Ends K a) (hb : Ends K b) (h1 : 0 < K.length a) (h2 : 0 < K.length b) :
    (∃ m, K.tryMerge dbg a b = some (some m)) ↔ ∃ s n, ∀ x, (s ≤ x ∧ x < s + n) ↔ Covered K [a, b] x := by
  have hcov : ∀ x, Covered K [a, b] x ↔ (K.start a ≤ x ∧ x < K.start a + K.length a) ∨ (K.start b ≤ x ∧ x < K.start b + K.length b) := fun x => by
    unfold Covered
    simp only [List.mem_cons, List.not_mem_nil, or_false, exists_eq_or_imp, exists_eq_left]
  constructor
  · rintro ⟨m, hm⟩
    by_cases h : Meet K a b
    · refine ⟨K.start (hull K a b), K.length (hull K a b), fun x => ?_⟩
      have := covered_hull L h [] x
      rw [← this]
      unfold Covered
      simp
    · rw [(tryMerge_ends ha hb).2 h] at hm
      simp at hm
  · rintro ⟨s, n, h⟩
    refine ⟨hull K a b, (tryMerge_ends ha hb).1 ?_⟩
    unfold Meet
    have e1 := h (K.start a); have e2 := h (K.start b); have e3 := h (K.start a + K.length a); have e4 := h (K.start b + K.length b)
    rw [hcov] at e1 e2 e3 e4
    omega

/-! ### Cases -/

def resAt (s n : Nat) : ResSer := ⟨"o".toList, 0, 7, s, n⟩

/-- Three descriptors, two of which touch. -/
example : RES.mergeAll true [resAt 0x5000 0x1000, resAt 0x1000 0x1000, resAt 0x2000 0x800] = some [resAt 0x1000 0x1800, resAt 0x5000 0x1000] := by decide +kernel

example : ∀ d ∈ [resAt 0x5000 0x1000, resAt 0x1000 0x1000, resAt 0x2000 0x800], d.start + d.length < 2 ^ 64 ∧ 0 < d.length := by decide

example : ALLOC.mergeAll false [⟨"a".toList, 0x2000, 0x1000, 4⟩, ⟨"a".toList, 0, 0x1000, 4⟩, ⟨"a".toList, 0x800, 0x1000, 4⟩] =
    some [⟨"a".toList, 0, 0x1800, 4⟩, ⟨"a".toList, 0x2000, 0x1000, 4⟩] := by decide +kernel

/-- Finding: allocations are sorted by name first, so that intervals that overlap stay apart in the list when something else is sorted between them. -/
theorem names_overlap :
    let l : List AllocSer := [⟨"a".toList, 0x1000, 0x1000, 4⟩, ⟨"b".toList, 0x9000, 0x1000, 4⟩, ⟨"c".toList, 0x1800, 0x1000, 4⟩]
    ALLOC.mergeAll true l = some l := by decide +kernel

/-- Finding: allocations of different names and memory types are merged; the result has the name and the type of the first. -/
theorem names_lost : ALLOC.mergeAll true [⟨"a".toList, 0x1000, 0x1000, 4⟩, ⟨"b".toList, 0x2000, 0x1000, 7⟩] = some [⟨"a".toList, 0x1000, 0x2000, 4⟩] := by decide +kernel

/-- Finding: so are resources of different owners, types and attributes. -/
theorem types_lost : RES.mergeAll true [⟨"a".toList, 0, 7, 0x1000, 0x1000⟩, ⟨"b".toList, 1, 0, 0x2000, 0x1000⟩] = some [⟨"a".toList, 0, 7, 0x1000, 0x2000⟩] := by decide +kernel

/-- Finding: an interval that reaches the end of the address space is lost in a release build when it is merged. -/
theorem last_page_lost : RES.mergeAll false [resAt (2 ^ 64 - 0x2000) 0x1000, resAt (2 ^ 64 - 0x1000) 0x1000] = some [resAt (2 ^ 64 - 0x2000) 0x1000] := by decide +kernel

/-- Finding: an empty interval apart from the others is kept, so the result is not always the shortest. -/
theorem empty_kept : RES.mergeAll true [resAt 0x1000 0x1000, resAt 0x5000 0] = some [resAt 0x1000 0x1000, resAt 0x5000 0] := by decide +kernel

end Verif.Serial
