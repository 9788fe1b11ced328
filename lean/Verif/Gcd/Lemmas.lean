import Verif.Gcd.Model
import Verif.Gcd.Change
import Verif.Base.Props
namespace Verif.Gcd

/-- What holds of the memory space between calls. -/
structure Inv (g : Gcd) : Prop where
  pos : 0 < g.max
  lt : g.max ≤ 2 ^ 63
  map : (g.cap = 0 ∧ g.blocks = []) ∨ (g.cap = SLOTS ∧ Good g.blocks g.max ∧ g.blocks.length ≤ SLOTS)

theorem Inv.ltW {g : Gcd} (h : Inv g) : g.max < W := by
  have := h.lt
  unfold W; omega

/-- `g'` is `g` with another block map. -/
def SameBut (g g' : Gcd) : Prop := g' = { g with blocks := g'.blocks }

theorem sameBut_refl (g : Gcd) : SameBut g g := rfl

theorem sameBut_mk (g : Gcd) (l : List (Block Cell)) : SameBut g { g with blocks := l } := rfl

theorem SameBut.trans {g g' g'' : Gcd} (h1 : SameBut g g') (h2 : SameBut g' g'') : SameBut g g'' := by
  unfold SameBut at *
  rw [h2, h1]

theorem SameBut.max {g g' : Gcd} (h : SameBut g g') : g'.max = g.max := by rw [h]
theorem SameBut.cap {g g' : Gcd} (h : SameBut g g') : g'.cap = g.cap := by rw [h]
theorem SameBut.locked {g g' : Gcd} (h : SameBut g g') : g'.locked = g.locked := by rw [h]

/-- `tr` is accepted on the whole range. -/
def Accepts (g : Gcd) (base len : Nat) (tr : Cell → Option Cell) : Prop := ∃ c c', Uniform g.blocks base len c ∧ tr c = some c'

/-- How a change of a range of memory can end. -/
inductive MemChange (g : Gcd) (base len : Nat) (tr : Cell → Option Cell) (onErr : Cell → BlockErr → EfiError) : Ret Unit → Prop
  | ok (c c' : Cell) (g' : Gcd) : g.cap = SLOTS → Uniform g.blocks base len c → tr c = some c' →
      Updated g.blocks g'.blocks base len c' → SameBut g g' → Inv g' → g'.blocks.length ≤ g.blocks.length + 2 →
      MemChange g base len tr onErr (.ok (), g')
  | full : Accepts g base len tr → SLOTS < g.blocks.length + 2 → MemChange g base len tr onErr (.err .outOfResources, g)
  | invalid (c : Cell) : Uniform g.blocks base len c → tr c = none →
      MemChange g base len tr onErr (.err (onErr c .invalidStateTransition), g)
  | outside (c : Cell) : (∀ c, ¬ Uniform g.blocks base len c) → MemChange g base len tr onErr (.err (onErr c .blockOutsideRange), g)
  | empty : g.blocks = [] → MemChange g base len tr onErr (.err .notFound, g)

theorem uniform_nil {σ : Type} {base len : Nat} {c : σ} : ¬ Uniform ([] : List (Block σ)) base len c := by
  intro h
  have := h.2 base (Nat.le_refl _) (by have := h.1; omega)
  cases this

theorem change_spec {g : Gcd} {base len : Nat} {tr : Cell → Option Cell} {onErr : Cell → BlockErr → EfiError} (hi : Inv g)
    (hl : len < W) : MemChange g base len tr onErr (g.change base len tr onErr) := by
  rcases hi.map with ⟨hc, hb⟩ | ⟨hc, hg, hlen⟩
  · have : g.change base len tr onErr = (.err .notFound, g) := by
      unfold Gcd.change changeAt
      rw [hb, seek_nil]
      simp only []
      cases g; simp_all
    rw [this]
    exact .empty hb
  · have h := changeAt_spec (cap := g.cap) (base := base) (len := len) (tr := tr) (onErr := onErr) hl hi.ltW hi.pos hg
    have hself : ({ g with blocks := g.blocks } : Gcd) = g := rfl
    unfold Gcd.change
    revert h
    generalize changeAt g.cap g.blocks base len tr onErr = r
    intro h
    cases h with
    | ok c c' l h1 h2 h3 h4 h5 h6 =>
      refine .ok c c' { g with blocks := l } hc h1 h2 h4 (sameBut_mk g l) ⟨hi.pos, hi.lt, Or.inr ⟨hc, h3, ?_⟩⟩ h6
      rw [hc] at h5; exact h5 hlen
    | full c c' h1 h2 h3 => rw [hc] at h3; exact .full ⟨c, c', h1, h2⟩ h3
    | invalid c h1 h2 => exact .invalid c h1 h2
    | outside c h1 => exact .outside c h1

/-- The same, leaving out which error it was. -/
theorem change_cases {g : Gcd} {base len : Nat} {tr : Cell → Option Cell} {onErr : Cell → BlockErr → EfiError} (hi : Inv g)
    (hl : len < W) :
    (∃ c c' g', g.change base len tr onErr = (.ok (), g') ∧ g.cap = SLOTS ∧ Uniform g.blocks base len c ∧ tr c = some c' ∧
      Updated g.blocks g'.blocks base len c' ∧ SameBut g g' ∧ Inv g' ∧ g'.blocks.length ≤ g.blocks.length + 2) ∨
    (∃ er, g.change base len tr onErr = (.err er, g) ∧ (Accepts g base len tr → SLOTS < g.blocks.length + 2)) := by
  have h := change_spec (base := base) (tr := tr) (onErr := onErr) hi hl
  revert h
  generalize g.change base len tr onErr = r
  intro h
  cases h with
  | ok c c' g' h1 h2 h3 h4 h5 h6 h7 => exact .inl ⟨c, c', g', rfl, h1, h2, h3, h4, h5, h6, h7⟩
  | full h1 h2 => exact .inr ⟨_, rfl, fun _ => h2⟩
  | invalid c h1 h2 =>
    refine .inr ⟨_, rfl, fun ⟨d, d', h3, h4⟩ => ?_⟩
    rw [uniform_unique h1 h3] at h2
    rw [h2] at h4; cases h4
  | outside c h1 => exact .inr ⟨_, rfl, fun ⟨d, d', h3, h4⟩ => absurd h3 (h1 d)⟩
  | empty h1 => exact .inr ⟨_, rfl, fun ⟨d, d', h3, h4⟩ => absurd (h1 ▸ h3) uniform_nil⟩

theorem addw_le {g : Gcd} (hi : Inv g) {base len : Nat} {c : Cell} (hu : Uniform g.blocks base len c) :
    base + len ≤ g.max ∧ addw base len = base + len := by
  rcases hi.map with ⟨_, hb⟩ | ⟨_, hg, _⟩
  · rw [hb] at hu; exact absurd hu uniform_nil
  · have := uniform_bounds hg.tiles hu
    have := hi.ltW
    exact ⟨by assumption, by unfold addw; exact Nat.mod_eq_of_lt (by omega)⟩

/-! ### The searches -/

/-- `tr` with ownership respected. -/
theorem allocTr_some {image : Nat} {device : Option Nat} {respect : Bool} {c c' : Cell} (h : allocTr image device respect c = some c') :
    c.allocated = false ∧ c.type ≠ .nonExistent ∧ c.type ≠ .unaccepted ∧ (respect = true → c.image = 0 ∨ c.image = image) ∧
      c' = { c with allocated := true, image := image, device := device.getD c.device } := by
  unfold allocTr at h
  split at h
  · rename_i h1
    split at h
    · cases h
    · rename_i h2
      injection h with h
      refine ⟨h1.1, h1.2.1, h1.2.2, fun hr => ?_, h.symm⟩
      exact Decidable.not_not.1 fun hn => h2 ⟨hr, hn⟩
  · cases h

theorem allocTr_ok {image : Nat} {device : Option Nat} {respect : Bool} {c : Cell} (h1 : c.allocated = false)
    (h2 : c.type ≠ .nonExistent) (h3 : c.type ≠ .unaccepted) (h4 : respect = true → c.image = 0 ∨ c.image = image) :
    allocTr image device respect c = some { c with allocated := true, image := image, device := device.getD c.device } := by
  unfold allocTr
  rw [if_pos ⟨h1, h2, h3⟩, if_neg (fun h => h.2 (h4 h.1))]

theorem maskShl_and {a s : Nat} (ha : a < W) (hs : s < 64) : a &&& maskShl s = a - a % 2 ^ s := by
  have hW : W = 2 ^ s * 2 ^ (64 - s) := by unfold W; rw [← Nat.pow_add]; congr 1; omega
  have h1 : maskShl s = W - 2 ^ s := by
    unfold maskShl
    rw [Nat.mod_eq_of_lt hs]
    have h2 : (W - 1) * 2 ^ s = W * (2 ^ s - 1) + (W - 2 ^ s) := by
      have hp := Nat.two_pow_pos s
      have hle : 2 ^ s ≤ W := by rw [hW]; exact Nat.le_mul_of_pos_right _ (Nat.two_pow_pos _)
      obtain ⟨p, hp'⟩ : ∃ p, 2 ^ s = p + 1 := ⟨2 ^ s - 1, by omega⟩
      rw [hp'] at hle ⊢
      rw [Nat.sub_mul, Nat.mul_add]
      simp only [Nat.add_sub_cancel, Nat.mul_one, Nat.one_mul]
      omega
    have hp := Nat.two_pow_pos s
    have hWpos : 0 < W := by unfold W; exact Nat.two_pow_pos _
    rw [h2, Nat.mul_add_mod, Nat.mod_eq_of_lt (by omega)]
  rw [h1]
  have hp := Nat.two_pow_pos s
  have hlt : 2 ^ s < 2 ^ 64 := Nat.pow_lt_pow_right (by omega) hs
  have h3 : W - 2 ^ s = Base.compl 64 (2 ^ s - 1) := by
    apply Nat.eq_of_testBit_eq
    intro i
    have : W - 2 ^ s = 2 ^ 64 - ((2 ^ s - 1) + 1) := by unfold W; omega
    rw [this, Nat.testBit_two_pow_sub_succ (by omega)]
    unfold Base.compl
    rw [Nat.testBit_xor, Nat.testBit_two_pow_sub_one, Nat.testBit_two_pow_sub_one]
    by_cases h1 : i < 64 <;> by_cases h2 : i < s <;> simp [h1, h2] <;> omega
  rw [h3]
  exact Base.and_compl (w := 64) ha

end Verif.Gcd
