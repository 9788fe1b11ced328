import Verif.Paging.InitTable
import Verif.Paging.Props
import Verif.Paging.Accepted
import Verif.Paging.SyncProps
namespace Verif.Paging
open Verif.Gcd

variable {ns : Nat} {dbg : Bool} {fs : Nat → Faults}

/-- The attributes that the last of the calls that cover address `a` sets. -/
def lastSet : List SetCall → Nat → Option Nat
  | [], _ => none
  | c :: l, a =>
    match lastSet l a with
    | some x => some x
    | none => if c.base ≤ a ∧ a < c.base + c.len then some c.attrs else none

theorem lastSet_append (l1 l2 : List SetCall) (a : Nat) :
    lastSet (l1 ++ l2) a = match lastSet l2 a with
      | some x => some x
      | none => lastSet l1 a := by
  induction l1 with
  | nil => simp only [List.nil_append, lastSet]; cases lastSet l2 a <;> rfl
  | cons c l ih =>
    simp only [List.cons_append, lastSet, ih]
    cases h2 : lastSet l2 a with
    | some x => rfl
    | none => rfl

theorem lastSet_snoc (l : List SetCall) (c : SetCall) (a : Nat) :
    lastSet (l ++ [c]) a = if c.base ≤ a ∧ a < c.base + c.len then some c.attrs else lastSet l a := by
  rw [lastSet_append]
  simp only [lastSet]
  by_cases h : c.base ≤ a ∧ a < c.base + c.len
  · simp only [if_pos h]
  · simp only [if_neg h]

/-- The mapping that attributes ask for; none if no attributes were set. -/
def mappingFrom (x : Option Nat) : Option Nat := x.bind mappingFor

/-- `m` is `m0` with an empty page table after the calls, all of which succeeded. -/
structure Done (m0 m : Mem) (l : List SetCall) : Prop where
  table : ∃ t, m.table = some t ∧ ∀ p, t p = mappingFrom (lastSet l (p * 4096))
  cells : ∀ a c, cellAt m0.gcd.blocks a = some c → ∃ c', cellAt m.gcd.blocks a = some c' ∧ c'.type = c.type ∧ c'.caps = c.caps ∧
    c'.attrs = (lastSet l a).getD c.attrs ∧ (c.allocated = true → c'.allocated = true ∧ c'.image = c.image)
  aligned : ∀ c ∈ l, c.len = 0 ∨ (c.base % 4096 = 0 ∧ c.len % 4096 = 0)
  back : ∀ a c', cellAt m.gcd.blocks a = some c' → ∃ c, cellAt m0.gcd.blocks a = some c
  supported : ∀ a, lastSet l a ≠ none → ∃ c, cellAt m0.gcd.blocks a = some c ∧ c.type ≠ .nonExistent

/-- The attributes mean something to the page table, and the range is in the memory space. -/
def SetCall.Fits (max : Nat) (c : SetCall) : Prop := c.base + c.len ≤ max ∧ c.attrs < W ∧ c.attrs &&& 0x2701F ≠ 0

/-- What is known about the state after some calls, whether they succeeded or not. -/
structure Adv (ns : Nat) (l : List SetCall) (s s' : Init) : Prop where
  ok : MemOk ns s'.mem
  max : s'.mem.gcd.max = s.mem.gcd.max
  calls : s'.calls = s.calls ++ l
  failed : s.failed ≤ s'.failed
  refusals : s.mem.refusals ≤ s'.mem.refusals
  pages : ∀ t', s'.mem.table = some t' → ∃ t, s.mem.table = some t ∧ ∀ p, t' p = t p ∨
    ∃ c ∈ l, t' p = mappingFor c.attrs ∧ c.base ≤ p * 4096 ∧ p * 4096 + 4096 ≤ c.base + c.len
  done : s'.failed = s.failed → s'.mem.refusals = s.mem.refusals → ∀ m0 l0, Done m0 s.mem l0 → Done m0 s'.mem (l0 ++ l)

theorem Adv.refl {s : Init} (h : MemOk ns s.mem) : Adv ns [] s s where
  ok := h
  max := rfl
  calls := by rw [List.append_nil]
  failed := Nat.le_refl _
  refusals := Nat.le_refl _
  pages := fun t ht => ⟨t, ht, fun _ => Or.inl rfl⟩
  done := fun _ _ m0 l0 hd => by rw [List.append_nil]; exact hd

theorem Adv.trans {s s1 s2 : Init} {l1 l2 : List SetCall} (h1 : Adv ns l1 s s1) (h2 : Adv ns l2 s1 s2) : Adv ns (l1 ++ l2) s s2 where
  ok := h2.ok
  max := h2.max.trans h1.max
  calls := by rw [h2.calls, h1.calls, List.append_assoc]
  failed := Nat.le_trans h1.failed h2.failed
  refusals := Nat.le_trans h1.refusals h2.refusals
  pages := fun t2 e2 => by
    obtain ⟨t1, e1, k1⟩ := h2.pages t2 e2
    obtain ⟨t, e, k⟩ := h1.pages t1 e1
    refine ⟨t, e, fun p => ?_⟩
    rcases k1 p with h | ⟨c, hc, h⟩
    · rcases k p with h' | ⟨c, hc, h', h''⟩
      · exact Or.inl (h.trans h')
      · exact Or.inr ⟨c, List.mem_append_left _ hc, h.trans h', h''⟩
    · exact Or.inr ⟨c, List.mem_append_right _ hc, h⟩
  done := fun hf hr m0 l0 hd => by
    have := h1.failed; have := h2.failed; have := h1.refusals; have := h2.refusals
    rw [← List.append_assoc]
    exact h2.done (by omega) (by omega) m0 _ (h1.done (by omega) (by omega) m0 l0 hd)

theorem done_snoc {m0 m m' : Mem} {l : List SetCall} {c : SetCall} (hr : Reachable ns m.gcd) (hd : Done m0 m l) (hmask : c.attrs &&& 0x2701F ≠ 0)
    (hp : Part ns m m' c.attrs c.base (c.base + c.len)) : Done m0 m' (l ++ [c]) := by
  have hal : c.len = 0 ∨ (c.base % 4096 = 0 ∧ c.len % 4096 = 0) := by
    rcases hp.aligned with h | h
    · exact Or.inl (by omega)
    · exact Or.inr ⟨h.1, by omega⟩
  refine ⟨?_, fun a x hx => ?_, fun x hx => ?_, fun a x hx => ?_, fun a ha => ?_⟩
  · obtain ⟨t, ht, hpg⟩ := hd.table
    obtain ⟨t', ht', hset⟩ := hp.table t ht
    refine ⟨t', ht', fun p => ?_⟩
    rw [hset.2 (by rw [ptMask]; exact hmask) p, lastSet_snoc, Nat.add_sub_cancel_left, hpg]
    by_cases hc : c.base ≤ p * 4096 ∧ p * 4096 < c.base + c.len
    · rw [if_pos (by unfold InPages; omega), if_pos hc]; rfl
    · rw [if_neg (by unfold InPages; omega), if_neg hc]
  · obtain ⟨c1, h1, h2, h3, h4, h5⟩ := hd.cells a x hx
    obtain ⟨c2, k1, k2, k3, k4, k5⟩ := hp.face a c1 h1
    refine ⟨c2, k1, k2.trans h2, k3.trans h3, ?_, fun hx => ?_⟩
    · rw [k4, h4, lastSet_snoc]
      split <;> rfl
    · have := h5 hx
      have k := k5 this.1
      exact ⟨k.1, k.2.trans this.2⟩
  · rcases List.mem_append.1 hx with hx | hx
    · exact hd.aligned x hx
    · simp only [List.mem_singleton] at hx; subst hx; exact hal
  · obtain ⟨y, hy⟩ := later_cell hr hp.later hp.ne hx
    exact hd.back a y hy
  · rw [lastSet_snoc] at ha
    by_cases hc : c.base ≤ a ∧ a < c.base + c.len
    · obtain ⟨x, hx, hne, _⟩ := hp.supported a hc.1 hc.2
      obtain ⟨y, h0⟩ := hd.back a x hx
      obtain ⟨c1, h1, h2, _⟩ := hd.cells a y h0
      rw [hx] at h1; injection h1 with h1; subst h1
      exact ⟨y, h0, by rw [← h2]; exact hne⟩
    · rw [if_neg hc] at ha
      exact hd.supported a ha

theorem call_adv {s s' : Init} {c : SetCall} {onErr : Init → Progress} (hm : MemOk ns s.mem) (hfit : c.Fits s.mem.gcd.max)
    (he : ∀ s1, onErr s1 = .at s' → s' = { s1 with failed := s1.failed + 1 }) (h : s.call dbg fs c onErr = .at s') :
    Adv ns [c] s s' := by
  obtain ⟨hr, ha, hmask⟩ := hfit
  have key : ∀ r m, s.mem.setAttributes dbg (fs s.calls.length) (c.len + 1) c.base c.len c.attrs = some (r, m) → r ≠ .panic →
      Onward ns c.attrs c.base (c.base + c.len) s.mem m ∧ (r = .ok () → m.refusals = s.mem.refusals →
        Part ns s.mem m c.attrs c.base (c.base + c.len)) := fun r m hx hp => by
    rw [setAttributes_eq (hm.lt hr)] at hx
    refine ⟨setLoop_onward ha hm.reach hm.some hm.table hr (Nat.le_refl _) hx hp, fun hok href => ?_⟩
    rcases setLoop_spec ha hm.reach hr (Part.refl hm.reach hm.some) hm.table (by omega) (Or.inl rfl) hx hp href with ⟨_, h⟩ | ⟨e, _, he, _⟩
    · exact h
    · rw [hok] at he; cases he
  have build : ∀ m n, Onward ns c.attrs c.base (c.base + c.len) s.mem m → s.failed ≤ n →
      (n = s.failed → m.refusals = s.mem.refusals → Part ns s.mem m c.attrs c.base (c.base + c.len)) →
      Adv ns [c] s ⟨m, n, s.calls ++ [c]⟩ := fun m n o hn hd =>
    { ok := ⟨o.later.reach, o.later.some hm.some, o.table, by rw [o.dflt]; exact hm.dflt⟩
      max := o.later.max
      calls := rfl
      failed := hn
      refusals := o.refusals
      pages := fun t' h' => by
        obtain ⟨t, e, k⟩ := o.pages t' h'
        refine ⟨t, e, fun p => ?_⟩
        rcases k p with k | ⟨k1, k2, k3⟩
        · exact Or.inl k
        · exact Or.inr ⟨c, List.mem_singleton.2 rfl, k1, k2, k3⟩
      done := fun e1 e2 m0 l0 hd0 => done_snoc hm.reach hd0 hmask (hd e1 e2) }
  unfold Init.call at h
  split at h
  · cases h
  · rename_i k
    injection h with h; subst h
    obtain ⟨o, hd⟩ := key _ _ k (by simp)
    exact build _ _ o (Nat.le_refl _) (fun _ e => hd rfl e)
  · rename_i k
    have e := he _ h
    subst e
    obtain ⟨o, _⟩ := key _ _ k (by simp)
    exact build _ _ o (Nat.le_succ _) (fun e => absurd e (by simp))
  · cases h

theorem attempt_adv {s s' : Init} {c : SetCall} (hm : MemOk ns s.mem) (hfit : c.Fits s.mem.gcd.max)
    (h : s.attempt dbg fs c = .at s') : Adv ns [c] s s' := by
  refine call_adv hm hfit (fun s1 h1 => ?_) h
  split at h1
  · cases h1
  · injection h1 with h1; exact h1.symm

theorem must_adv {s s' : Init} {c : SetCall} (hm : MemOk ns s.mem) (hfit : c.Fits s.mem.gcd.max)
    (h : s.must dbg fs c = .at s') : Adv ns [c] s s' :=
  call_adv hm hfit (fun s1 h1 => by cases h1) h

end Verif.Paging
