import Verif.Paging.Lemmas
namespace Verif.Paging
open Verif.Gcd

variable {ns : Nat}

theorem rangeOk_iff {base len : Nat} : rangeOk base len = true ↔ base % 4096 = 0 ∧ len % 4096 = 0 ∧ len ≠ 0 := by
  unfold rangeOk; simp

theorem inPages_iff {base len p : Nat} (h1 : base % 4096 = 0) (h2 : len % 4096 = 0) :
    InPages base len p ↔ base / 4096 ≤ p ∧ p < base / 4096 + len / 4096 := by
  unfold InPages
  omega

theorem set_apply {t : Table} {base len : Nat} {x : Option Nat} (h1 : base % 4096 = 0) (h2 : len % 4096 = 0) (p : Nat) :
    t.set base len x p = if InPages base len p then x else t p := by
  unfold Table.set
  by_cases h : InPages base len p
  · rw [if_pos h, if_pos ((inPages_iff h1 h2).1 h)]
  · rw [if_neg h, if_neg (fun c => h ((inPages_iff h1 h2).2 c))]

theorem all_iff {t : Table} {base len : Nat} {x : Option Nat} (h1 : base % 4096 = 0) (h2 : len % 4096 = 0) :
    t.all base len x = true ↔ ∀ p, InPages base len p → t p = x := by
  unfold Table.all
  rw [List.all_eq_true]
  simp only [List.mem_range, decide_eq_true_eq]
  constructor
  · intro h p hp
    have hp := (inPages_iff h1 h2).1 hp
    have := h (p - base / 4096) (by omega)
    rwa [show base / 4096 + (p - base / 4096) = p by omega] at this
  · intro h i hi
    exact h _ ((inPages_iff h1 h2).2 (by omega))

/-- What the answers of a query mean. -/
theorem query_cases (t : Table) (base len : Nat) :
    (∃ a, t.query base len = .mapped a ∧ rangeOk base len = true ∧ ∀ p, InPages base len p → t p = some a) ∨
    (t.query base len = .unmapped ∧ rangeOk base len = true ∧ ∀ p, InPages base len p → t p = none) ∨
    (t.query base len = .failed ∧ (rangeOk base len = false ∨
      ¬ ∃ x, ∀ p, InPages base len p → t p = x)) := by
  unfold Table.query
  by_cases hr : rangeOk base len = true
  · rw [if_neg (by rw [hr]; simp)]
    obtain ⟨r1, r2, r3⟩ := rangeOk_iff.1 hr
    have hin : InPages base len (base / 4096) := (inPages_iff r1 r2).2 (by omega)
    cases hx : t (base / 4096) with
    | none =>
      dsimp only
      by_cases ha : t.all base len none = true
      · rw [if_pos ha]; exact Or.inr (Or.inl ⟨rfl, hr, (all_iff r1 r2).1 ha⟩)
      · rw [if_neg ha]
        refine Or.inr (Or.inr ⟨rfl, Or.inr fun ⟨x, h⟩ => ?_⟩)
        have := h _ hin
        rw [hx] at this; subst this
        exact ha ((all_iff r1 r2).2 h)
    | some a =>
      dsimp only
      by_cases ha : t.all base len (some a) = true
      · rw [if_pos ha]; exact Or.inl ⟨a, rfl, hr, (all_iff r1 r2).1 ha⟩
      · rw [if_neg ha]
        refine Or.inr (Or.inr ⟨rfl, Or.inr fun ⟨x, h⟩ => ?_⟩)
        have := h _ hin
        rw [hx] at this; subst this
        exact ha ((all_iff r1 r2).2 h)
  · rw [if_pos (by simpa using hr)]
    exact Or.inr (Or.inr ⟨rfl, Or.inl (by simpa using hr)⟩)

theorem testBit_mask (a i : Nat) (h : Nat.testBit 0x2701F i = true) : (a &&& 0x2701F).testBit i = a.testBit i := by
  rw [Nat.testBit_and, h, Bool.and_true]

theorem ptMask : PT_MASK = 0x2701F := by decide

theorem rp_iff (a : Nat) : a &&& MEMORY_RP = MEMORY_RP ↔ a.testBit 13 = true := by
  have hrp : MEMORY_RP = 2 ^ 13 := by decide
  rw [hrp]
  constructor
  · intro h
    have := congrArg (fun n => n.testBit 13) h
    rw [Nat.testBit_and, Nat.testBit_two_pow] at this
    simpa using this
  · intro h
    apply Nat.eq_of_testBit_eq
    intro i
    rw [Nat.testBit_and, Nat.testBit_two_pow]
    by_cases hi : 13 = i
    · subst hi; simp [h]
    · simp [hi]

theorem rp_want (attrs : Nat) : (attrs &&& PT_MASK) &&& MEMORY_RP = MEMORY_RP ↔ attrs.testBit 13 = true := by
  rw [rp_iff, ptMask, testBit_mask _ _ (by decide)]

/-- The table after the change, page by page. -/
def Table.Becomes (t t' : Table) (base len : Nat) (x : Option Nat) : Prop :=
  ∀ p, t' p = if InPages base len p then x else t p

theorem becomes_refl {t : Table} {base len : Nat} {x : Option Nat} (h : ∀ p, InPages base len p → t p = x) : t.Becomes t base len x := by
  intro p
  by_cases hp : InPages base len p
  · rw [if_pos hp, h p hp]
  · rw [if_neg hp]

/-- How a change of the page table can end: the pages are as wanted, or nothing changed and there is an error. -/
inductive Paged (ns : Nat) (m : Mem) (t : Table) (base len attrs : Nat) : Outcome EfiError Unit × Mem → Prop
  | done (m' : Mem) (t' : Table) : rangeOk base len = true → m'.table = some t' → t.Becomes t' base len (mappingFor attrs) →
      m'.dflt = m.dflt → m'.refusals = m.refusals → Quiet ns m.gcd m'.gcd → m.signals ≤ m'.signals →
      (∀ p a, InPages base len p → mappingFor attrs = some a → a &&& 0x101F ≠ 0 →
        (∀ b, t p = some b → a &&& 0x101F ≠ b &&& 0x101F) → m.signals < m'.signals) →
      Paged ns m t base len attrs (.ok (), m')
  | failed (e : EfiError) (m' : Mem) : e ≠ .notReady → m'.table = m.table → m'.dflt = m.dflt → m'.refusals = m.refusals →
      Quiet ns m.gcd m'.gcd → m'.signals = m.signals → Paged ns m t base len attrs (.err e, m')
  | panic (m' : Mem) : Paged ns m t base len attrs (.panic, m')

theorem PtError.efi_ne (e : PtError) : e.efi ≠ .notReady := by cases e <;> simp [PtError.efi]

theorem unmap_cases {f : Faults} {m : Mem} {t : Table} {base len : Nat} (hr : Reachable ns m.gcd) :
    (∃ g', m.unmap f t base len = (.ok (), { m with gcd := g', table := some (t.set base len none) }) ∧ Quiet ns m.gcd g' ∧
      rangeOk base len = true) ∨
    (∃ g' e, m.unmap f t base len = (.err e, { m with gcd := g' }) ∧ Quiet ns m.gcd g' ∧
      (rangeOk base len = false ∨ f.fail base ≠ none)) ∨
    (m.unmap f t base len = (.panic, m) ∧ f.refill base = true) := by
  unfold Mem.unmap
  cases hx : m.refill f base with
  | none =>
    refine Or.inr (Or.inr ⟨rfl, ?_⟩)
    unfold Mem.refill at hx
    split at hx
    · assumption
    · cases hx
  | some m1 =>
    obtain ⟨e1, q⟩ := refill_quiet hr hx
    dsimp only
    by_cases hok : rangeOk base len = true
    · rw [if_neg (by rw [hok]; simp)]
      cases hf : f.fail base with
      | none => refine Or.inl ⟨m1.gcd, ?_, q, hok⟩; dsimp only; rw [e1]
      | some e => exact Or.inr (Or.inl ⟨m1.gcd, e, by dsimp only; rw [← e1], q, Or.inr (by simp)⟩)
    · rw [if_pos (by simpa using hok)]
      exact Or.inr (Or.inl ⟨m1.gcd, .other, by rw [← e1], q, Or.inl (by simpa using hok)⟩)

theorem map_cases {f : Faults} {m : Mem} {t : Table} {base len attrs : Nat} (hr : Reachable ns m.gcd) :
    (∃ g', m.map f t base len attrs = (.ok (), { m with gcd := g', table := some (t.set base len (some attrs)) }) ∧
      Quiet ns m.gcd g' ∧ rangeOk base len = true) ∨
    (∃ g' e, m.map f t base len attrs = (.err e, { m with gcd := g' }) ∧ Quiet ns m.gcd g' ∧
      (rangeOk base len = false ∨ f.fail base ≠ none)) ∨
    (m.map f t base len attrs = (.panic, m) ∧ f.refill base = true) := by
  unfold Mem.map
  cases hx : m.refill f base with
  | none =>
    refine Or.inr (Or.inr ⟨rfl, ?_⟩)
    unfold Mem.refill at hx
    split at hx
    · assumption
    · cases hx
  | some m1 =>
    obtain ⟨e1, q⟩ := refill_quiet hr hx
    dsimp only
    by_cases hok : rangeOk base len = true
    · rw [if_neg (by rw [hok]; simp)]
      cases hf : f.fail base with
      | none => refine Or.inl ⟨m1.gcd, ?_, q, hok⟩; dsimp only; rw [e1]
      | some e => exact Or.inr (Or.inl ⟨m1.gcd, e, by dsimp only; rw [← e1], q, Or.inr (by simp)⟩)
    · rw [if_pos (by simpa using hok)]
      exact Or.inr (Or.inl ⟨m1.gcd, .other, by rw [← e1], q, Or.inl (by simpa using hok)⟩)

theorem mappingFor_rp {attrs : Nat} (h : attrs.testBit 13 = true) : mappingFor attrs = none := by
  unfold mappingFor; rw [if_pos h]

theorem mappingFor_some {attrs : Nat} (h : ¬ attrs.testBit 13 = true) : mappingFor attrs = some (attrs &&& PT_MASK) := by
  unfold mappingFor; rw [if_neg h, ptMask]

theorem dbg_paged {m m' : Mem} {t : Table} {base len attrs : Nat} {dbg : Bool} {r : Outcome EfiError Unit}
    (h : Paged ns m t base len attrs (r, m')) : Paged ns m t base len attrs (dbgFail dbg r, m') := by
  unfold dbgFail
  split
  · exact .panic _
  · exact h

theorem cacheMask : CACHE_ATTRIBUTE_MASK = 0x101F := rfl

theorem applyPaging_spec {dbg : Bool} {f : Faults} {m : Mem} {t : Table} {base len attrs : Nat} {old : Option Nat}
    (hr : Reachable ns m.gcd) (ht : m.table = some t) (hok : rangeOk base len = true) (hold : ∀ p, InPages base len p → t p = old) :
    Paged ns m t base len attrs (m.applyPaging dbg f t base len (attrs &&& PT_MASK) old) := by
  obtain ⟨r1, r2, r3⟩ := rangeOk_iff.1 hok
  unfold Mem.applyPaging
  by_cases hrp : attrs.testBit 13 = true
  · rw [if_pos ((rp_want attrs).2 hrp)]
    cases old with
    | none =>
      refine dbg_paged (.done m t hok ht ?_ rfl rfl (.refl hr) (Nat.le_refl _) ?_)
      · rw [mappingFor_rp hrp]; exact becomes_refl hold
      · intro p a _ h; rw [mappingFor_rp hrp] at h; cases h
    | some b =>
      rcases unmap_cases (f := f) (t := t) (base := base) (len := len) hr with ⟨g', e, q, _⟩ | ⟨g', er, e, q, _⟩ | ⟨e, _⟩
      · rw [e]
        refine .done _ _ hok rfl ?_ rfl rfl q (Nat.le_refl _) ?_
        · rw [mappingFor_rp hrp]; exact fun p => set_apply r1 r2 p
        · intro p a _ h; rw [mappingFor_rp hrp] at h; cases h
      · rw [e]
        exact dbg_paged (.failed _ _ (by simp) rfl rfl rfl q rfl)
      · rw [e]; exact .panic _
  · rw [if_neg (fun h => hrp ((rp_want attrs).1 h))]
    rcases map_cases (f := f) (t := t) (base := base) (len := len) (attrs := attrs &&& PT_MASK) hr with
      ⟨g', e, q, _⟩ | ⟨g', er, e, q, _⟩ | ⟨e, _⟩
    · rw [e]
      refine .done _ _ hok rfl ?_ rfl rfl q (Nat.le_add_right _ _) ?_
      · rw [mappingFor_some hrp]; exact fun p => set_apply r1 r2 p
      · intro p a hp h hne hch
        rw [mappingFor_some hrp] at h
        injection h with h
        subst h
        dsimp only
        have hcc : cacheChanged old (attrs &&& PT_MASK) = true := by
          unfold cacheChanged
          cases old with
          | none => exact decide_eq_true hne
          | some b =>
            have := hch b (hold p hp)
            exact decide_eq_true (p := _ ∧ _) ⟨fun e => this e.symm, hne⟩
        rw [hcc]
        simp
    · rw [e]
      exact dbg_paged (.failed _ _ (PtError.efi_ne er) rfl rfl rfl q rfl)
    · rw [e]; exact .panic _

theorem setPaging_spec {dbg : Bool} {f : Faults} {m : Mem} {t : Table} {base len attrs : Nat}
    (hr : Reachable ns m.gcd) (ht : m.table = some t) (hto : TableOk m) :
    Paged ns m t base len attrs (m.setPaging dbg f base len attrs) := by
  unfold Mem.setPaging
  rw [ht]
  dsimp only
  rcases query_cases t base len with ⟨a, e, hok, h⟩ | ⟨e, hok, h⟩ | ⟨e, _⟩
  · rw [e]
    dsimp only
    by_cases ha : a = attrs &&& PT_MASK
    · rw [if_pos ha]
      obtain ⟨r1, r2, r3⟩ := rangeOk_iff.1 hok
      have hin : InPages base len (base / 4096) := (inPages_iff r1 r2).2 (by omega)
      have hb := hto t _ a ht (h _ hin)
      have hrp : ¬ attrs.testBit 13 = true := by
        rw [ha, ptMask, testBit_mask _ _ (by decide)] at hb
        rw [hb]; simp
      refine .done m t hok ht ?_ rfl rfl (.refl hr) (Nat.le_refl _) ?_
      · rw [mappingFor_some hrp, ← ha]; exact becomes_refl h
      · intro p x hp hx hne hch
        rw [mappingFor_some hrp, ← ha] at hx
        injection hx with hx
        subst hx
        exact absurd rfl (hch _ (h p hp))
    · rw [if_neg ha]
      exact applyPaging_spec hr ht hok h
  · rw [e]
    exact applyPaging_spec hr ht hok h
  · rw [e]
    exact dbg_paged (.failed _ _ (by simp) rfl rfl rfl (.refl hr) rfl)

end Verif.Paging
