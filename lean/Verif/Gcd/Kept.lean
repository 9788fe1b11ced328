import Verif.Gcd.AllocProps
/-!
What a call can do to one address, and memory kept for an owner: freeing with ownership preserved leaves a range that requests
of other owners are not given, until somebody takes it by its address.
-/
namespace Verif.Gcd

variable {nodeSize : Nat} {g g' : Gcd} {ty : MemType} {shift len image addr : Nat} {device : Option Nat}

/-- What a call may do to the state of an address it covers. -/
inductive Does (a : Nat) (c : Cell) : Op → Cell → Prop
  | nothing (op : Op) : Does a c op c
  | add {ty : MemType} {base len caps caps' attrs : Nat} : base ≤ a → a < base + len → c.allocated = false → c.type = .nonExistent →
      ty ≠ .nonExistent → Does a c (.add ty base len caps) { c with type := ty, caps := caps', attrs := attrs }
  | remove {base len : Nat} : base ≤ a → a < base + len → c.allocated = false → c.type ≠ .nonExistent →
      Does a c (.remove base len) { c with type := .nonExistent, caps := 0 }
  | allocate {at_ : AllocType} {ty : MemType} {shift len image addr : Nat} {device : Option Nat} : addr ≤ a → a < addr + len →
      at_.Admits addr len → c.allocated = false → c.type = ty → c.type ≠ .nonExistent →
      (at_.chooses = true → c.image = 0 ∨ c.image = image) →
      Does a c (.allocate at_ ty shift len image device) { c with allocated := true, image := image, device := device.getD c.device }
  | free {base len attrs : Nat} {p : Bool} : base ≤ a → a < base + len → c.allocated = true →
      Does a c (.free base len p) { c with allocated := false, image := if p then c.image else 0, device := 0, attrs := attrs }
  | setAttributes {base len attrs : Nat} : base ≤ a → a < base + len → Does a c (.setAttributes base len attrs) { c with attrs := attrs }
  | setCapabilities {base len caps : Nat} : base ≤ a → a < base + len → Does a c (.setCapabilities base len caps) { c with caps := caps }

theorem cell_update {a base n : Nat} {c x x' : Cell} {op : Op} (hc : cellAt g.blocks a = some c) (hu : Uniform g.blocks base n x)
    (hup : Updated g.blocks g'.blocks base n x') (hd : base ≤ a → a < base + n → c = x → Does a c op x') :
    ∃ c', cellAt g'.blocks a = some c' ∧ Does a c op c' := by
  rw [hup a]
  by_cases ha : base ≤ a ∧ a < base + n
  · rw [if_pos ha]
    have := hu.2 a ha.1 ha.2
    rw [hc] at this
    injection this with this
    exact ⟨_, rfl, hd ha.1 ha.2 this⟩
  · rw [if_neg ha]; exact ⟨c, hc, .nothing op⟩

theorem cell_effect {a base n : Nat} {c : Cell} {op : Op} {tr : Cell → Option Cell} {r : Ret Unit} (hc : cellAt g.blocks a = some c)
    (he : Effect g base n tr r) (ht : ∀ c', tr c = some c' → base ≤ a → a < base + n → Does a c op c') :
    ∃ c', cellAt r.2.blocks a = some c' ∧ Does a c op c' := by
  cases he with
  | err er => exact ⟨c, hc, .nothing op⟩
  | ok x x' g' h1 h2 h3 h4 h5 h6 => exact cell_update hc h2 h4 fun p q e => ht x' (e ▸ h3) p q

/-- Every call does one of these things to an address, whatever its result. -/
theorem step_does {a : Nat} {c : Cell} (hr : Reachable nodeSize g) (hc : cellAt g.blocks a = some c) {op : Op} (ho : op.InRange) :
    ∃ c', cellAt (g.step nodeSize op).blocks a = some c' ∧ Does a c op c' := by
  have hi := (reachable_inv hr).inv
  cases op with
  | add ty base len caps =>
    have hne : g.blocks ≠ [] := by
      intro h
      rw [h] at hc; cases hc
    simp only [Gcd.step]
    rw [add_eq (cap_of_ne hr hne)]
    refine cell_effect hc (addSpace_effect hi ho.2.1) fun c' h p q => ?_
    obtain ⟨h1, h2, h3, h4⟩ := addTr_some h
    rw [h4]; exact .add p q h1 h2 h3
  | remove base len =>
    refine cell_effect hc (removeSpace_effect hi ho.2) fun c' h p q => ?_
    obtain ⟨h1, h2, h3⟩ := removeTr_some h
    rw [h3]; exact .remove p q h1 h2
  | allocate at_ ty shift len image device =>
    have he := allocate_spec (at_ := at_) (ty := ty) (image := image) (device := device) hi ho.2.1 ho.1 fun a ha => by
      have := ho.2.2
      rw [ha] at this
      exact this
    show ∃ c', cellAt (g.allocate at_ ty shift len image device).2.blocks a = some c' ∧ _
    revert he
    generalize g.allocate at_ ty shift len image device = r
    intro he
    cases he with
    | err er _ => exact ⟨c, hc, .nothing _⟩
    | ok addr x g' a1 a2 a3 a4 a5 a6 a7 a8 a9 a10 a11 =>
      obtain ⟨b1, b2, b3, b4, d, b5, b6⟩ := a7
      have hd := uniform_unique b5 a2
      subst hd
      exact cell_update hc a2 a8 fun p q e => by subst e; exact .allocate p q b2 a3 b6 a4 a6
  | free base len preserve =>
    show ∃ c', cellAt (g.freeSpace base len preserve).2.blocks a = some c' ∧ _
    unfold Gcd.freeSpace
    split
    · exact ⟨c, hc, .nothing _⟩
    · have he := freeWorker_spec (base := base) (preserve := preserve) hi ho.2
      revert he
      generalize g.freeWorker base len preserve = r
      intro he
      cases he with
      | err er _ => exact ⟨c, hc, .nothing _⟩
      | ok x x' g' a1 _ _ a2 a3 a4 a5 a6 a7 =>
        obtain ⟨f1, f2, f3⟩ := freeTr_some a3
        exact cell_update hc a2 a5 fun p q e => by subst e; rw [f3]; exact .free p q f1
      | part x x' er g' a1 _ _ a2 a3 a4 _ a5 a6 a7 =>
        obtain ⟨f1, f2, f3⟩ := freeTr_some a3
        exact cell_update hc a2 a5 fun p q e => by subst e; rw [f3]; exact .free p q f1
  | setAttributes base len attrs =>
    refine cell_effect hc (setAttributes_effect hi ho.2.1) fun c' h p q => ?_
    rw [(attrTr_some h).2.2]; exact .setAttributes p q
  | setCapabilities base len caps =>
    refine cell_effect hc (setCapabilities_effect hi ho.2.1) fun c' h p q => ?_
    rw [(capsTr_some h).2.2]; exact .setCapabilities p q
  | lock => exact ⟨c, hc, .nothing _⟩
  | unlock => exact ⟨c, hc, .nothing _⟩
  | prioritize32 b => exact ⟨c, hc, .nothing _⟩

/-- A property of the state of an address that none of the calls breaks. -/
theorem run_keeps {a : Nat} {c : Cell} {P : Cell → Prop} (hr : Reachable nodeSize g) (hc : cellAt g.blocks a = some c) (hP : P c)
    {ops : List Op} (ho : ∀ op ∈ ops, Op.InRange op) (hk : ∀ op ∈ ops, ∀ c c', Does a c op c' → P c → P c') :
    ∃ c', cellAt (g.run nodeSize ops).blocks a = some c' ∧ P c' := by
  induction ops generalizing g c with
  | nil => exact ⟨c, hc, hP⟩
  | cons op ops ih =>
    obtain ⟨c1, h1, h2⟩ := step_does hr hc (ho op (by simp))
    exact ih (reachable_run hr (ops := [op]) (by simpa using ho op (by simp))) h1 (hk op (by simp) _ _ h2 hP)
      (fun o h => ho o (by simp [h])) (fun o h => hk o (by simp [h]))

/-- Every address of the range is kept for `image`, whether it is allocated or not. -/
def Kept (g : Gcd) (addr len image : Nat) : Prop :=
  ∀ a, addr ≤ a → a < addr + len → ∃ c, cellAt g.blocks a = some c ∧ c.image = image

/-- The calls that can take memory in the range from its owner: giving back memory in it without keeping the ownership, and
somebody else's request for addresses in it. -/
def Op.Takes (lo sz im : Nat) : Op → Prop
  | .free base len false => Overlap lo sz base len
  | .allocate (.address a) _ _ len image _ => image ≠ im ∧ Overlap lo sz a len
  | _ => False

theorem does_kept {lo sz im a : Nat} {c c' : Cell} {op : Op} (h1 : lo ≤ a) (h2 : a < lo + sz) (him : im ≠ 0) (hd : Does a c op c')
    (ht : ¬ op.Takes lo sz im) (hc : c.image = im) : c'.image = im := by
  cases hd with
  | nothing => exact hc
  | add => exact hc
  | remove => exact hc
  | setAttributes => exact hc
  | setCapabilities => exact hc
  | @free base len attrs p p1 p2 p3 =>
    cases p with
    | true => exact hc
    | false => exact absurd ⟨a, h1, h2, p1, p2⟩ ht
  | @allocate at_ ty shift len image addr device p1 p2 p3 p4 p5 p6 p7 =>
    show image = im
    cases at_ with
    | bottomUp m => rcases p7 rfl with h | h <;> omega
    | topDown m => rcases p7 rfl with h | h <;> omega
    | address b =>
      have hb : addr = b := p3
      subst hb
      by_cases he : image = im
      · exact he
      · exact absurd ⟨he, a, h1, h2, p1, p2⟩ ht

/-- Memory kept for an owner stays so, through any calls but those. -/
theorem kept_run {lo sz im : Nat} (hr : Reachable nodeSize g) (hk : Kept g lo sz im) (him : im ≠ 0) {ops : List Op}
    (ho : ∀ op ∈ ops, Op.InRange op) (ht : ∀ op ∈ ops, ¬ op.Takes lo sz im) : Kept (g.run nodeSize ops) lo sz im := by
  intro a h1 h2
  obtain ⟨c, hc, hi⟩ := hk a h1 h2
  exact run_keeps (P := fun c => c.image = im) hr hc hi ho fun op hop c c' hd => does_kept h1 h2 him hd (ht op hop)

/-- A request that leaves the choice of the address open is never given memory kept for somebody else. -/
theorem choice_avoids_kept {lo sz im : Nat} (hr : Reachable nodeSize g) (hk : Kept g lo sz im) (him : im ≠ 0) (hne : image ≠ im)
    {at_ : AllocType} (hch : at_.chooses = true) (hq : ReqOk at_ shift len)
    (h : g.allocate at_ ty shift len image device = (.ok addr, g')) : ¬ Overlap lo sz addr len := by
  rintro ⟨a, h1, h2, h3, h4⟩
  obtain ⟨_, _, _, _, _, c, hu, _, _, _, _, h5, _⟩ := allocate_ok hr hq h
  obtain ⟨d, hd, hi⟩ := hk a h1 h2
  rw [hu.2 a h3 h4] at hd
  injection hd with hd
  subst hd
  rcases h5 hch with h | h <;> omega

/-- The type of allocated memory, and whom it is allocated to, change only by freeing it. -/
theorem allocated_run {lo sz im : Nat} (hr : Reachable nodeSize g)
    (hl : ∀ a, lo ≤ a → a < lo + sz → ∃ c, cellAt g.blocks a = some c ∧ c.allocated = true ∧ c.image = im ∧ c.type = ty) {ops : List Op}
    (ho : ∀ op ∈ ops, Op.InRange op) (hfree : ∀ b n p, Op.free b n p ∈ ops → ¬ Overlap lo sz b n) {a : Nat} (h1 : lo ≤ a) (h2 : a < lo + sz) :
    ∃ c, cellAt (g.run nodeSize ops).blocks a = some c ∧ c.allocated = true ∧ c.image = im ∧ c.type = ty := by
  obtain ⟨c, hc, hP⟩ := hl a h1 h2
  refine run_keeps (P := fun c => c.allocated = true ∧ c.image = im ∧ c.type = ty) hr hc hP ho fun op hop c c' hd ⟨q1, q2, q3⟩ => ?_
  cases hd with
  | nothing => exact ⟨q1, q2, q3⟩
  | setAttributes => exact ⟨q1, q2, q3⟩
  | setCapabilities => exact ⟨q1, q2, q3⟩
  | add _ _ hf => rw [q1] at hf; cases hf
  | remove _ _ hf => rw [q1] at hf; cases hf
  | allocate _ _ _ hf => rw [q1] at hf; cases hf
  | free p1 p2 _ => exact absurd ⟨a, h1, h2, p1, p2⟩ (hfree _ _ _ hop)

end Verif.Gcd
