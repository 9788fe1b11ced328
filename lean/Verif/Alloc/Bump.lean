import Verif.Alloc.Growth
/-!
A heap that meets the contract assumed of `linked_list_allocator` (`HeapOk`), so that the hypotheses of the theorems are met by
something one can run. It serves every request from the rest of its one hole by the rule of the crate (`fresh` in `HeapOk`)
and never uses again what is given back.
-/
namespace Verif.Alloc
open Verif.Gcd
open Verif.Hob (Mem)

/-- Where the crate puts a block in a hole at `cur` -/
def placeAt (cur : Nat) (l : Layout) : Nat := if cur % l.align = 0 then cur else (cur + 16 + l.align - 1) / l.align * l.align

def bump : Heap where
  σ := Nat × Nat
  init := fun b n m => ((b, b + n), m)
  alloc := fun s m l =>
    if placeAt s.1 l + held l.size = s.2 ∨ placeAt s.1 l + held l.size + 16 ≤ s.2 then
      some (placeAt s.1 l, (placeAt s.1 l + held l.size, s.2), m)
    else none
  free := fun s m _ _ => (s, m)

theorem placeAt_ok {cur : Nat} {l : Layout} (hv : l.Valid) : cur ≤ placeAt cur l ∧ placeAt cur l % l.align = 0 := by
  have hpos := hv.pos
  unfold placeAt
  split
  · rename_i h; exact ⟨Nat.le_refl _, h⟩
  · refine ⟨?_, Nat.mul_mod_left _ _⟩
    have h1 := Nat.div_add_mod (cur + 16 + l.align - 1) l.align
    have h2 := Nat.mod_lt (cur + 16 + l.align - 1) hpos
    rw [Nat.mul_comm] at h1
    omega

def bumpOk : HeapOk bump where
  Inv := fun s b t L _ => s.2 = t ∧ b ≤ s.1 ∧ s.1 ≤ t ∧
    (∀ x ∈ L, x.1 % x.2.align = 0 ∧ b ≤ x.1 ∧ x.1 < s.1 ∧ x.1 + x.2.size ≤ s.1) ∧ L.Pairwise Apart
  inside := fun h x hx => by
    obtain ⟨h1, h2, h3, h4, _⟩ := h
    obtain ⟨a1, a2, a3, a4⟩ := h4 x hx
    exact ⟨a1, a2, by omega, by omega⟩
  apart := fun h => h.2.2.2.2
  init := fun {b n m} _ _ _ => ⟨rfl, Nat.le_refl b, Nat.le_add_right b n, by simp, List.Pairwise.nil⟩
  initFrame := fun _ => rfl
  alloc := fun {s b t L m l p s' m'} h hv hx => by
    obtain ⟨h1, h2, h3, h4, h5⟩ := h
    obtain ⟨p1, p2⟩ := placeAt_ok (cur := s.1) hv
    simp only [bump] at hx
    have hh : l.size ≤ held l.size ∧ 16 ≤ held l.size := by unfold held; omega
    split at hx
    · rename_i hc
      simp only [Option.some.injEq, Prod.mk.injEq] at hx
      obtain ⟨rfl, rfl, rfl⟩ := hx
      refine ⟨h1, by simp only; omega, by simp only; omega, ?_, List.pairwise_cons.2 ⟨?_, h5⟩⟩
      · intro x hx
        rcases List.mem_cons.1 hx with rfl | hx
        · exact ⟨p2, by simp only; omega, by simp only; omega, by simp only; omega⟩
        · obtain ⟨a1, a2, a3, a4⟩ := h4 x hx
          exact ⟨a1, a2, by simp only; omega, by simp only; omega⟩
      · intro x hx
        obtain ⟨a1, a2, a3, a4⟩ := h4 x hx
        exact apart_of (.inr (by simp only; omega))
    · cases hx
  allocFrame := fun {s b t L m l p s' m' a} _ _ hx _ => by
    simp only [bump] at hx
    split at hx
    · injection hx with hx
      injection hx with _ hx
      injection hx with _ hx
      rw [hx]
    · cases hx
  free := fun {s b t L m p l} h hm => by
    obtain ⟨h1, h2, h3, h4, h5⟩ := h
    exact ⟨h1, h2, h3, fun x hx => h4 x (List.mem_of_mem_erase hx), h5.sublist List.erase_sublist⟩
  freeFrame := fun _ _ _ => rfl
  stable := fun h _ => h
  fresh := fun {b n m l p} _ _ _ hp hfit => by
    have e : placeAt b l = p := by
      unfold placeAt
      rcases hp with ⟨rfl, h⟩ | ⟨h, rfl⟩
      · rw [if_pos h]
      · rw [if_neg h]
    simp only [bump, e]
    rw [if_pos (by unfold held; exact hfit)]
    rfl

/-- A system with this heap; the GCD leaves attributes alone. -/
def demoEnv : Env := { H := bump, node := 64, gcdNode := 64, protect := fun g _ _ => g }

def demoEnvOk : EnvOk demoEnv where
  heap := bumpOk
  node8 := rfl
  nodePos := by decide
  nodeSmall := by decide
  protect := fun g _ _ => ⟨[], by simp, rfl⟩
  protectLock := fun _ _ _ => rfl

end Verif.Alloc
