import Verif.ImageMem.Props
/-!
C64, whatever goes wrong: what protecting and unprotecting an image can at most do, for any state of the memory and any failures of the
page table; and the stack and the buffer of an image.
-/
namespace Verif.ImageMem
open Verif.Gcd Verif.Paging

variable {ns : Nat} {dbg : Bool} {f : Faults} {m m' : Mem} {base align : Nat} {r : Outcome EfiError Unit}

/-- The section, with its rounded size if it has one, ends in the memory space. -/
def Section.Fits (s : Section) (base align : Nat) (m : Mem) : Prop :=
  s.size < 2 ^ 32 ∧ base + s.address < m.gcd.max ∧ ∀ n, s.Spans align n → n < 2 ^ 32 → base + s.address + n ≤ m.gcd.max

/-- A page changed by protecting the section: it lies in the section and is mapped read-only or not executable; executable only if the
section holds code. -/
def ProtectedPage (s : Section) (base align p : Nat) (x : Option Nat) : Prop :=
  (s.Has base align (p * 4096) ∧ s.Has base align (p * 4096 + 4095)) ∧
    (x = none ∨ ∃ a, x = some a ∧ (a.testBit 14 = true ∨ a.testBit 17 = true) ∧ (a.testBit 14 = false → s.IsCode))

theorem logged_some {x : Option (Outcome EfiError Unit × Mem)} (h : logged x = some (r, m')) :
    ∃ r', x = some (r', m') ∧ (r' = .panic ↔ r = .panic) := by
  unfold logged at h
  rcases x with _ | ⟨r1, m1⟩
  · cases h
  · cases r1 <;> (injection h with h; injection h with h1 h2; subst h1; subst h2)
    · exact ⟨_, rfl, by simp⟩
    · exact ⟨_, rfl, by simp⟩
    · exact ⟨_, rfl, by simp⟩

theorem alignUp_some {s : Section} {n : Nat} (hs : s.size < 2 ^ 32) (h : Base.alignUp 32 s.size align = .ok n) : s.Spans align n ∧ n < 2 ^ 32 := by
  by_cases hk : ∃ j, align = 2 ^ j
  · obtain ⟨q, hq, e⟩ := (Base.alignUp_spec 32 s.size align hs).1 hk
    rw [h] at e
    split at e
    · injection e with e; subst e; exact ⟨hq, by assumption⟩
    · cases e
  · rw [(Base.alignUp_spec 32 s.size align hs).2 hk] at h; cases h

theorem after_refl {E : Nat → Option Nat → Prop} (hm : MemOk ns m) : After ns E m m :=
  ⟨hm, rfl, rfl, fun t h => ⟨t, h, fun _ => Or.inl rfl⟩⟩

theorem after_mono {E E' : Nat → Option Nat → Prop} (h : After ns E m m') (hE : ∀ p x, E p x → E' p x) : After ns E' m m' :=
  ⟨h.ok, h.max, h.dflt, fun t' ht' => by
    obtain ⟨t, e, k⟩ := h.pages t' ht'
    refine ⟨t, e, fun p => ?_⟩
    rcases k p with k | k | k
    · exact Or.inl k
    · exact Or.inr (Or.inl k)
    · exact Or.inr (Or.inr (hE _ _ k))⟩

theorem mapped_bits {x k a : Nat} {s : Section} (hx : Access s x) (h : mappingFor (x ||| k) = some a) :
    (a.testBit 14 = true ∨ a.testBit 17 = true) ∧ (a.testBit 14 = false → s.IsCode) := by
  unfold mappingFor at h
  split at h
  · cases h
  injection h with h
  have e1 : Nat.testBit 0x2701F 14 = true := by decide
  have e2 : Nat.testBit 0x2701F 17 = true := by decide
  rw [← h, Nat.testBit_and, Nat.testBit_or, Nat.testBit_and, Nat.testBit_or, e1, e2]
  simp only [Bool.and_true]
  rcases hx.cases with ⟨q, e⟩ | ⟨q, e⟩ | ⟨q, e⟩
  · subst e; exact ⟨Or.inr (by simp [show Nat.testBit 0x20000 17 = true by decide]), fun _ => q⟩
  · subst e; exact ⟨Or.inl (by simp [show Nat.testBit 0x24000 14 = true by decide]), fun h => by simp [show Nat.testBit 0x24000 14 = true by decide] at h⟩
  · subst e; exact ⟨Or.inl (by simp [show Nat.testBit 0x4000 14 = true by decide]), fun h => by simp [show Nat.testBit 0x4000 14 = true by decide] at h⟩

theorem protectSection_after {s : Section} (hm : MemOk ns m) (hfit : s.Fits base align m)
    (h : protectSection dbg ns base align m s f = some (r, m')) (hp : r ≠ .panic) : After ns (ProtectedPage s base align) m m' := by
  obtain ⟨hs, hlt, hfit⟩ := hfit
  have hW := (reachable_inv hm.reach).inv.ltW
  have hadd : addw base s.address = base + s.address := by
    unfold addw; exact Nat.mod_eq_of_lt (by omega)
  unfold protectSection at h
  rw [if_neg (by omega), hadd] at h
  obtain ⟨d, hd, _, _, _, hdc⟩ := descriptor_contains hm.reach hm.some hlt
  rw [hd] at h
  dsimp only at h
  have hdW := reachable_wide hm.reach _ _ hdc
  have hdC := Caps.reachable_wide hm.reach _ _ hdc
  have hx := access_of s
  have hxW : sectionAccess s.flags < W := by rcases hx.value with h | h | h <;> rw [h] <;> decide
  have skip : ∀ o : Outcome EfiError Unit, some (o, m) = some (r, m') → After ns (ProtectedPage s base align) m m' := fun o h => by
    injection h with h; injection h with _ h; subst h; exact after_refl hm
  rcases hal : Base.alignUp 32 s.size align with n | e | _
  · rw [hal] at h
    dsimp only at h
    obtain ⟨hn, hn32⟩ := alignUp_some hs hal
    have hle := hfit n hn hn32
    have a1 : After ns (ProtectedPage s base align) m (m.setCapabilities (base + s.address) n (sectionAccess s.flags ||| d.st.caps)).2 :=
      After.step (op := .setCapabilities (base + s.address) n (sectionAccess s.flags ||| d.st.caps)) hm
        ⟨by omega, by omega, or_lt hxW hdC⟩
    obtain ⟨r', hstep, hr'⟩ := logged_some h
    have hW2 := or_lt hxW (andNot_lt (b := MEMORY_ACCESS_MASK) hdW)
    have a2 := step_after (c := .setAttributes (base + s.address) n (sectionAccess s.flags ||| andNot d.st.attrs MEMORY_ACCESS_MASK)) a1.ok ⟨by rw [a1.max]; exact hle, hW2⟩ hstep (fun e => hp (hr'.1 e))
    refine a1.trans (after_mono a2 ?_)
    rintro p x ⟨q1, q2, q3⟩
    refine ⟨⟨(has_iff hn).2 (by omega), (has_iff hn).2 (by omega)⟩, ?_⟩
    subst q3
    cases hmf : mappingFor (sectionAccess s.flags ||| andNot d.st.attrs MEMORY_ACCESS_MASK) with
    | none => exact Or.inl rfl
    | some a => exact Or.inr ⟨a, rfl, mapped_bits hx hmf⟩
  · rw [hal] at h; exact skip _ h
  · rw [hal] at h; exact skip _ h

/-- C64 (protect, whatever goes wrong): the pages whose mapping changed lie in one of the sections each, or are no longer mapped. A page of
a section that was mapped is not both writable and executable, and executable only if that section holds code. (The sections end in
the memory space; `ProtectedPage`. The result is never an error; `r ≠ .panic`: no failed assertion.) -/
theorem protect_changes_only {l : List (Section × Faults)} (hm : MemOk ns m) (hfit : ∀ p ∈ l, p.1.Fits base align m)
    (h : protect dbg ns base align l m = some (r, m')) (hp : r ≠ .panic) {t' : Table} (ht' : m'.table = some t') :
    ∃ t, m.table = some t ∧ ∀ p, t' p = t p ∨ t' p = none ∨ ∃ q ∈ l, ProtectedPage q.1 base align p (t' p) := by
  suffices hs : After ns (fun p x => ∃ q ∈ l, ProtectedPage q.1 base align p x) m m' from hs.pages t' ht'
  unfold protect at h
  clear ht' t'
  induction l generalizing m with
  | nil => injection h with h; injection h with _ h; subst h; exact after_refl hm
  | cons q l ih =>
    obtain ⟨s, f⟩ := q
    unfold eachSection at h
    rcases hx : protectSection dbg ns base align m s f with _ | ⟨r1, m1⟩
    · rw [hx] at h; cases h
    rw [hx] at h
    have one : r1 ≠ .panic → After ns (fun p x => ∃ q ∈ (s, f) :: l, ProtectedPage q.1 base align p x) m m1 := fun hr1 =>
      after_mono (protectSection_after hm (hfit _ List.mem_cons_self) hx hr1) fun p x hE => ⟨(s, f), List.mem_cons_self, hE⟩
    cases r1 with
    | ok u =>
      have a1 := one (by simp)
      have := ih a1.ok (fun p hp => by
        obtain ⟨k1, k2, k3⟩ := hfit p (List.mem_cons_of_mem _ hp)
        exact ⟨k1, by rw [a1.max]; exact k2, fun n h1 h2 => by rw [a1.max]; exact k3 n h1 h2⟩) h
      exact a1.trans (after_mono this fun p x ⟨q, hq, hE⟩ => ⟨q, List.mem_cons_of_mem _ hq, hE⟩)
    | err e => injection h with h; injection h with _ h2; subst h2; exact one (by simp)
    | panic => injection h with h; injection h with h _; exact absurd h.symm hp

theorem unprotectSection_after {s : Section} (hm : MemOk ns m) (hfit : s.Fits base align m)
    (h : unprotectSection dbg ns base align m s f = some (r, m')) (hp : r ≠ .panic) :
    After ns (fun _ x => ∀ a, x = some a → a.testBit 14 = true) m m' := by
  obtain ⟨hs, hlt, hfit⟩ := hfit
  have hW := (reachable_inv hm.reach).inv.ltW
  have hadd : addw base s.address = base + s.address := by
    unfold addw; exact Nat.mod_eq_of_lt (by omega)
  unfold unprotectSection at h
  rw [if_neg (by omega), hadd] at h
  obtain ⟨d, hd, _, _, _, hdc⟩ := descriptor_contains hm.reach hm.some hlt
  rw [hd] at h
  dsimp only at h
  have hdW := reachable_wide hm.reach _ _ hdc
  have skip : ∀ o : Outcome EfiError Unit, some (o, m) = some (r, m') → After ns (fun _ x => ∀ a, x = some a → a.testBit 14 = true) m m' := fun o h => by
    injection h with h; injection h with _ h; subst h; exact after_refl hm
  rcases hal : Base.alignUp 32 s.size align with n | e | _
  · rw [hal] at h
    dsimp only at h
    obtain ⟨hn, hn32⟩ := alignUp_some hs hal
    obtain ⟨r', hstep, hr'⟩ := logged_some h
    have hW2 := or_lt (andNot_lt (b := MEMORY_ATTRIBUTE_MASK) hdW) (show MEMORY_XP < W by decide)
    have a2 := step_after (c := .setAttributes (base + s.address) n (andNot d.st.attrs MEMORY_ATTRIBUTE_MASK ||| MEMORY_XP)) hm ⟨hfit n hn hn32, hW2⟩ hstep (fun e => hp (hr'.1 e))
    refine after_mono a2 ?_
    rintro p x ⟨q1, q2, q3⟩ a ha
    rw [q3] at ha
    unfold mappingFor at ha
    split at ha
    · cases ha
    injection ha with ha
    rw [← ha, Nat.testBit_and, Nat.testBit_or]
    have e1 : Nat.testBit 0x2701F 14 = true := by decide
    have e2 : MEMORY_XP.testBit 14 = true := by decide
    rw [e1, e2]; simp
  · rw [hal] at h; exact skip _ h
  · rw [hal] at h; exact skip _ h

/-- C64 (remove, whatever goes wrong): removing the protections makes no page executable. -/
theorem unprotect_never_executable {l : List (Section × Faults)} (hm : MemOk ns m) (hfit : ∀ p ∈ l, p.1.Fits base align m)
    (h : unprotect dbg ns base align l m = some (r, m')) (hp : r ≠ .panic) {p : Nat} (hx : Executable m' p) : Executable m p := by
  suffices hs : After ns (fun _ x => ∀ a, x = some a → a.testBit 14 = true) m m' by
    obtain ⟨t', a, e1, e2, e3⟩ := hx
    obtain ⟨t, e, k⟩ := hs.pages t' e1
    rcases k p with k | k | k
    · exact ⟨t, a, e, by rw [← k]; exact e2, e3⟩
    · rw [k] at e2; cases e2
    · rw [k a e2] at e3; cases e3
  unfold unprotect at h
  clear hx
  induction l generalizing m with
  | nil => injection h with h; injection h with _ h; subst h; exact after_refl hm
  | cons q l ih =>
    obtain ⟨s, f⟩ := q
    unfold eachSection at h
    rcases hx : unprotectSection dbg ns base align m s f with _ | ⟨r1, m1⟩
    · rw [hx] at h; cases h
    rw [hx] at h
    have one := fun hr1 => unprotectSection_after hm (hfit _ List.mem_cons_self) hx hr1
    cases r1 with
    | ok u =>
      have a1 := one (by simp)
      exact a1.trans (ih a1.ok (fun p hp => by
        obtain ⟨k1, k2, k3⟩ := hfit p (List.mem_cons_of_mem _ hp)
        exact ⟨k1, by rw [a1.max]; exact k2, fun n h1 h2 => by rw [a1.max]; exact k3 n h1 h2⟩) h)
    | err e => injection h with h; injection h with _ h2; subst h2; exact one (by simp)
    | panic => injection h with h; injection h with h _; exact absurd h.symm hp

end Verif.ImageMem
