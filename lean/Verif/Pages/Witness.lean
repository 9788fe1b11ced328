import Verif.Pages.Props
import Verif.Pages.Core
import Verif.Alloc.UseWitness
/-!
Concrete cases for C90 and C91: a memory manager that keeps its contract, components that use it, and the cases in which pages are lost.
-/
namespace Verif.Pages

/-! ### A memory manager -/

/-- Where the next allocation goes, and what is allocated. -/
structure Bump where
  next : Nat
  live : List Range
deriving DecidableEq

/-- Sets bytes to 0xAF. -/
def spoil (m : Mem) (r : Range) : Mem := fun x => if r.addr ≤ x ∧ x < r.addr + r.len then 0xAF else m x

/-- It gives out ascending addresses, and spoils the pages it gives out and gets back. -/
def bump : Manager Bump where
  allocate s m n _ := if n = 0 then (.err .noAvailableMemory, s, m) else (.ok ⟨s.next, n⟩, ⟨s.next + n * 4096, ⟨s.next, n⟩ :: s.live⟩, spoil m ⟨s.next, n⟩)
  free s m a n := if ⟨a, n⟩ ∈ s.live then (true, { s with live := s.live.erase ⟨a, n⟩ }, spoil m ⟨a, n⟩) else (false, s, m)

structure Bump.Ok (s : Bump) : Prop where
  next : s.next ≠ 0 ∧ s.next % 4096 = 0
  below : ∀ r ∈ s.live, r.addr ≠ 0 ∧ r.addr % 4096 = 0 ∧ 0 < r.pages ∧ r.addr + r.len ≤ s.next
  apart : s.live.Pairwise Apart

theorem spoil_keeps {m : Mem} {r q : Range} (h : Apart r q) {a : Nat} (h1 : q.addr ≤ a) (h2 : a < q.addr + q.len) : spoil m r a = m a := by
  unfold Apart at h
  unfold spoil
  rw [if_neg (by omega)]

theorem bump_contract : Contract bump Bump.Ok Bump.live where
  proper s h r hr := by have := h.below r hr; exact ⟨this.1, this.2.1, this.2.2.1⟩
  apart s h := h.apart
  allocated s m n o r s' m' h hx := by
    unfold bump at hx
    simp only at hx
    split at hx
    · simp at hx
    · rename_i hn
      simp only [Prod.mk.injEq, Outcome.ok.injEq] at hx
      obtain ⟨rfl, rfl, rfl⟩ := hx
      have hap : ∀ q ∈ s.live, Apart ⟨s.next, n⟩ q := fun q hq => .inr (h.below q hq).2.2.2
      refine ⟨⟨⟨?_, ?_⟩, ?_, ?_⟩, .refl _, rfl, fun q hq a h1 h2 => spoil_keeps (hap q hq) h1 h2⟩
      · have := h.next.1; show s.next + n * 4096 ≠ 0; omega
      · have := h.next.2; show (s.next + n * 4096) % 4096 = 0; omega
      · intro q hq
        rcases List.mem_cons.1 hq with rfl | hq
        · exact ⟨h.next.1, h.next.2, by show 0 < n; omega, Nat.le_refl _⟩
        · have := h.below q hq
          exact ⟨this.1, this.2.1, this.2.2.1, Nat.le_trans this.2.2.2 (Nat.le_add_right _ _)⟩
      · exact List.pairwise_cons.2 ⟨hap, h.apart⟩
  refused s m n o x s' m' h hx hne := by
    unfold bump at hx
    simp only at hx
    split at hx
    · simp only [Prod.mk.injEq] at hx
      obtain ⟨_, rfl, rfl⟩ := hx
      exact ⟨h, .refl _, fun _ _ _ _ _ => rfl⟩
    · simp only [Prod.mk.injEq] at hx
      exact absurd hx.1.symm (hne _)
  freed s m r h hr := by
    refine ⟨{ s with live := s.live.erase r }, spoil m r, ?_, ⟨h.next, fun q hq => h.below q (List.mem_of_mem_erase hq), h.apart.sublist List.erase_sublist⟩, .refl _, ?_⟩
    · unfold bump
      simp only
      have : (⟨r.addr, r.pages⟩ : Range) = r := rfl
      rw [this, if_pos hr]
    · have hp : (r :: s.live.erase r).Pairwise Apart := (List.Perm.pairwise_iff (fun h => h.symm) (List.perm_cons_erase hr)).1 h.apart
      exact fun q hq a h1 h2 => spoil_keeps ((List.pairwise_cons.1 hp).1 q hq) h1 h2

/-! ### Components -/

def opts : Options := ⟨.any, 4096, 4⟩
def bump0 : Bump := ⟨0x100000, [⟨0x80000, 3⟩]⟩
def start : World Bump := ⟨bump0, fun _ => 0xAF, []⟩

theorem bump0_ok : bump0.Ok := by
  refine ⟨by decide, ?_, by simp [bump0]⟩
  intro r hr
  simp only [bump0, List.mem_singleton] at hr
  subst hr
  decide

theorem start_owner : Owner Bump.Ok Bump.live start [⟨0x80000, 3⟩] := ⟨bump0_ok, .refl _, by simp [start]⟩

/-- Two allocations, one of them zeroed; a boxed slice of 2731 elements of three bytes, and a box that is stored to; both are dropped. -/
def tidy : List Op :=
  [.allocate 2 opts, .allocateZero 1 opts, .intoBoxedSlice 0 3 (fun k => [UInt8.ofNat k, 1, 2]), .intoBox 1 [7, 8, 9], .store 1 1 [5], .drop 0, .drop 1]

theorem tidy_typed : ∀ o ∈ tidy, o.Typed := by
  intro o ho
  simp only [tidy, List.mem_cons, List.not_mem_nil, or_false] at ho
  rcases ho with rfl | rfl | rfl | rfl | rfl | rfl | rfl <;> simp [Op.Typed]

def w5 : World Bump := run bump true start (tidy.take 5)

example : w5.get 0 = some (.box ⟨0x100000, 2⟩ 8190) ∧ w5.get 1 = some (.box ⟨0x102000, 1⟩ 3) ∧ w5.s.live = [⟨0x102000, 1⟩, ⟨0x100000, 2⟩, ⟨0x80000, 3⟩] := by
  decide +kernel
example : (List.range 4).map (fun k => w5.m (0x102000 + k)) = [7, 5, 9, 0] := by decide +kernel

/-- `run_apart`, `run_keeps` and `run_no_leak` apply. -/
example : Apart ⟨0x100000, 2⟩ ⟨0x102000, 1⟩ :=
  (run_apart bump_contract true (tidy.take 5) (fun o ho => tidy_typed o (List.mem_of_mem_take ho)) bump0_ok (fun _ => 0xAF) (i := 0) (j := 1)
    (v := .box ⟨0x100000, 2⟩ 8190) (u := .box ⟨0x102000, 1⟩ 3) (by decide +kernel) (by decide +kernel) (by decide)).2.1
example : (run bump true start tidy).s.live.Perm [⟨0x80000, 3⟩] :=
  run_no_leak bump_contract true tidy tidy_typed bump0_ok (fun _ => 0xAF) (by decide +kernel) (by
    intro i
    have h2 : (run bump true ⟨bump0, fun _ => 0xAF, []⟩ tidy).vals = [none, none] := by decide +kernel
    unfold World.get
    rw [h2]
    match i with
    | 0 => rfl
    | 1 => rfl
    | i + 2 => rfl)
example : Holds (run bump true w5 [.allocate 9 opts, .drop 1]).m 0x100000 [0, 1, 2, 1, 1, 2] := by
  have h : Holds w5.m 0x100000 [0, 1, 2, 1, 1, 2] := by
    intro k hk
    have : k < 6 := hk
    have : ∀ k : Fin 6, w5.m (0x100000 + k.val) = [0, 1, 2, 1, 1, 2].get k := by decide +kernel
    exact this ⟨k, hk⟩
  have ho := run_owner bump_contract true (tidy.take 5) (fun o ho => tidy_typed o (List.mem_of_mem_take ho)) start_owner
  have hk := (run_keeps bump_contract true [.allocate 9 opts, .drop 1] (by simp [Op.Typed]) ho (j := 0) (u := .box ⟨0x100000, 2⟩ 8190) (by simp [Op.uses])
    (show w5.get 0 = _ by decide +kernel)).2
  intro k hk'
  have h6 : k < 6 := hk'
  exact (hk _ (Nat.le_add_right _ _) (by show 0x100000 + k < 0x100000 + 2 * 4096; omega)).trans (h k hk')

/-- A value that is larger than the pages: nothing is returned, and the pages are free again. -/
example : (step bump true (run bump true start [.allocate 1 opts]) (.intoRawPtr 0 4097)).2.s.live = [⟨0x80000, 3⟩] ∧
    (step bump true (run bump true start [.allocate 1 opts]) (.intoRawPtr 0 4097)).2.get 0 = none := by decide +kernel

/-- C90, what pages are lost: a box of a type without bytes, and a boxed slice of elements that are larger than the pages, are not freed when
they are dropped. -/
theorem empty_box_leaks : (run bump true start [.allocate 1 opts, .intoBox 0 [], .drop 0]).s.live = [⟨0x100000, 1⟩, ⟨0x80000, 3⟩] ∧
    (run bump true start [.allocate 1 opts, .intoBoxedSlice 0 4097 (fun _ => List.replicate 4097 0), .drop 0]).s.live = [⟨0x100000, 1⟩, ⟨0x80000, 3⟩] := by
  decide +kernel

/-- For every manager: an empty box that is dropped leaves its pages allocated, with nobody to free them. -/
theorem empty_box_lost {σ : Type} {M : Manager σ} {inv : σ → Prop} {owned : σ → List Range} (hC : Contract M inv owned) {w : World σ} {rest : List Range}
    (h : Owner inv owned w rest) (dbg : Bool) {i : Nat} {r : Range} (hg : w.get i = some (.box r 0)) :
    let w' := (step M dbg w (.drop i)).2
    r ∈ owned w'.s ∧ r ∉ held w'.vals := by
  intro w'
  have hw : w' = w.set i none := by
    show (step M dbg w (.drop i)).2 = _
    simp [step, hg, dropBox]
  have h1 := (step_owner hC h dbg (.drop i) trivial).1
  have h2 : lost w (.drop i) = [r] := by simp [lost, hg]
  rw [h2] at h1
  refine ⟨h1.exactly.mem_iff.2 (by simp), fun hin => ?_⟩
  have hp := (List.Perm.pairwise_iff (fun h => h.symm) h1.exactly).1 (hC.apart _ h1.inv)
  have hap := (List.pairwise_append.1 hp).2.2 r hin r (by simp)
  have hpos := (hC.proper _ h1.inv r (h1.exactly.mem_iff.2 (by simp))).2.2
  unfold Apart Range.len at hap
  omega

/-- C90: an alignment above the page size is not looked at: this type asks for 8192, and the pointer it gets is not a multiple of that. -/
theorem large_alignment_ignored : (run bump true start [.allocate 1 opts, .allocate 1 opts, .intoRawPtr 1 8]).get 1 = some (.raw ⟨0x101000, 1⟩) ∧
    0x101000 % 8192 ≠ 0 := by decide +kernel

example : (step bump true (run bump true start [.allocate 1 opts]) (.intoBoxedSlice 0 0 (fun _ => []))).1 = .panic := by decide +kernel
example : (step bump true (run bump true start [.allocate 1 opts]) (.drop 0)).1 = .panic ∧
    (step bump true (run bump true start [.allocate 1 opts]) (.drop 0)).2.s.live = [⟨0x80000, 3⟩] ∧
    (step bump false (run bump true start [.allocate 1 opts]) (.drop 0)).1 = .ok () := by decide +kernel

/-! ### The core's manager -/
open Verif.Alloc Verif.Gcd

/-- Three pages of runtime data, below 8 MiB, aligned to 128 KiB, with a granularity of 64 KiB. -/
def demoOptions : Options := ⟨.maxAddress 0x7FFFFF, 0x20000, 6⟩
def demoGot : Outcome MemErr Range × Alloc.World demoEnv.H := managerAllocate demoEnv true 0x10000 demo0 8 3 demoOptions

theorem demoGot_ok : demoGot = (.ok ⟨0x7E0000, 3⟩, demoGot.2) := by
  have h1 : demoGot.1 = .ok ⟨0x7E0000, 3⟩ := by decide +kernel
  exact Prod.ext h1 rfl

/-- `manager_allocates` applies: sixteen pages were allocated. -/
example : ∃ (n i : Nat) (f : Fsb demoEnv.H), Base.IsRoundUp 3 16 n ∧ demoGot.2.fsbs[i]? = some f ∧ Live demoGot.2.gcd 0x7E0000 (n * 4096) f.handle := by
  obtain ⟨_, _, _, _, _, _, _, _, n, i, f, sp, _, _, h1, _, _, h2, _, h3, _⟩ := manager_allocates demoEnvOk demo0_is_possible gran16 demo0_grained demo0_distinct
    demo0_handles (handle := 8) (pages := 3) (o := demoOptions) (by decide) (show 6 < 16 ∨ _ from .inl (by decide)) (by decide)
    (by rintro a (h | h)
        · simp [demoOptions] at h
        · simp only [demoOptions, Strategy.maxAddress.injEq] at h; subst h; decide)
    (fun _ f hf => by simp [demo0] at hf) (by decide) demoGot_ok
  exact ⟨n, i, f, (h1 (.inr (.inr (.inl rfl)))).1, h2, h3⟩

/-- All sixteen are free again after three were freed. -/
example : (managerFree true demoGot.2 0x7E0000 3).1 = .ok () ∧ (managerFree true demoGot.2 0x7E0000 3).2.gcd.blocks = Alloc.demoGcd.blocks := by decide +kernel
example : (managerAllocate demoEnv true 0x10000 demo0 8 3 ⟨.any, 0x20000, 8⟩).1 = .err .unsupportedMemoryType := by decide +kernel
example : (managerAllocate demoEnv true 0x10000 demo0 8 3 ⟨.any, 0x800, 6⟩).1 = .err .invalidAlignment := by decide +kernel
example : (managerAllocate demoEnv true 0x10000 demo0 8 3 ⟨.address 0x210000, 0x20000, 6⟩).1 = .err .unalignedAddress := by decide +kernel
example : (managerAllocate demoEnv true 0x10000 demo0 8 0x100000 ⟨.any, 0x20000, 6⟩).1 = .err .noAvailableMemory := by decide +kernel
example : (managerAllocate demoEnv true 0x10000 demo0 8 0 ⟨.any, 0x20000, 6⟩).1 = .err .internalError := by decide +kernel

/-- C91: the documentation of `with_alignment` says that the alignment is ignored for an allocation at an address. It is not: an address with
free memory that is aligned to a page is refused. -/
theorem alignment_not_ignored : (managerAllocate demoEnv true 0x10000 demo0 6 1 ⟨.address 0x201000, 0x2000, 4⟩).1 = .err .unalignedAddress ∧
    (managerAllocate demoEnv true 0x10000 demo0 6 1 ⟨.address 0x201000, 0x1000, 4⟩).1 = .ok ⟨0x201000, 1⟩ := by decide +kernel

end Verif.Pages
