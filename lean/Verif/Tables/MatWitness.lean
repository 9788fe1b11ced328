import Verif.Tables.MatProps
import Verif.Tables.ConfigWitness
import Verif.MemMap.Witness
/-!
A concrete history of the memory attributes table, and one where the table is not up to date.
-/
namespace Verif.Tables.Mat
open Verif.Gcd MemMap

def begin : Sys := ⟨start, 0, false, fun _ => none⟩

theorem begin_steady : Steady begin := by
  obtain ⟨h1, h2, _⟩ := initial_ok 0x5453595320494249 0x20046 0x1000 0x2000 0 (fun _ => ⟨0, 0⟩) (bs := someServices 352) (rs := someServices 112)
    ⟨rfl, List.length_replicate ..⟩ ⟨rfl, List.length_replicate ..⟩
  exact ⟨h1.ordered, h1.size, fun _ => ⟨rfl, fun _ => rfl⟩, fun hh => absurd rfl hh⟩

/-- The runtime code of `demo`, made read-only. -/
def after : List Gcd.Op := demo ++ [.setAttributes 0xFC000 0x2000 0x20000]
def afterMem : Mem := ⟨(Gcd.start 32 false).run 1 after, demoOwners⟩

theorem after_inRange : ∀ op ∈ after, Op.InRange op := by
  intro op hop
  rcases List.mem_append.1 hop with hop | hop
  · exact demo_inRange op hop
  · obtain rfl := List.mem_singleton.1 hop
    simp [Op.InRange, W]

theorem after_whole : ∀ op ∈ after, WholePages op := by
  intro op hop
  rcases List.mem_append.1 hop with hop | hop
  · exact demo_whole op hop
  · obtain rfl := List.mem_singleton.1 hop
    simp [WholePages]

theorem demo_kept : Kept demoMem :=
  ⟨1, demo_reachable, by decide +kernel, whole_pages_uniform 1 32 false demo (by decide) (by decide) demo_inRange demo_whole, demoOwners_distinct⟩

theorem after_kept : Kept afterMem :=
  ⟨1, ⟨32, false, after, after_inRange, rfl⟩, by decide +kernel, whole_pages_uniform 1 32 false after (by decide) (by decide) after_inRange after_whole,
    demoOwners_distinct⟩

def env1 : Env := ⟨some 0xA000, some 0x5000, demoMem, some 0xB000, some 0x6000, true⟩
def env2 : Env := ⟨some 0xA000, some 0x7000, afterMem, some 0xC000, some 0x5000, true⟩

theorem works1 : env1.Works := ⟨by decide, by decide, by decide +kernel⟩
theorem works2 : env2.Works := ⟨by decide, by decide, by decide +kernel⟩

/-- Code without protection is listed as read-only and not executable; code that is read-only as executable. -/
example : (build demoMem).entries.map (fun e => (e.type, e.start, e.pages, e.attr)) = [(5, 0xFC000, 2, 0x8000000000024000)]
    ∧ (build afterMem).entries.map (fun e => (e.type, e.start, e.pages, e.attr)) = [(5, 0xFC000, 2, 0x8000000000020000)] := by decide +kernel

/-- Pages allocated before ready to boot, ready to boot, a table of somebody else, pages allocated afterwards. -/
def someOps : List Op := [.runtimePages env1, .readyToBoot env1, .other (.install (some 0x8000) 7 0x9000), .runtimePages env2]

theorem pool_after {s s' : Sys} {e : Env} (h : Steady s) (he : e.Proper s) (hs : s.step (.readyToBoot e) = some s') (hw : e.Works) (q : Nat) (hq : e.pool2 ≠ some q) :
    s'.pool q = none := by
  obtain ⟨s1, h1, h2, h3, h4⟩ := install_steady h he
  have hs' : s' = { s1 with postRtb := true } := by
    simp only [Sys.step, h1, Option.map_some, Option.some.injEq] at hs
    exact hs.symm
  subst hs'
  show s1.pool q = none
  cases hp : s1.pool q with
  | none => rfl
  | some t =>
    exfalso
    -- the buffer in use is the one of the second allocation
    have hl := (no_leak h2 hp).1
    unfold installTable at h1
    rcases first_steady h he with ⟨hc, k1, k2⟩ | ⟨s2, k2, k3, k4, k5, k6, k7, k8⟩
    · exact hw.1 k1
    · rw [k2] at h1
      dsimp only at h1
      rw [if_neg hw.2.2] at h1
      cases hp2 : e.pool2 with
      | none => exact hw.2.1 hp2
      | some p =>
        rw [hp2] at h1
        obtain ⟨p0, _⟩ := k7 p hp2
        obtain ⟨a, ha, ha0⟩ := he.array2
        obtain ⟨st, e1, _, _, e4, _⟩ := install_table k3.ordered k3.size ha0 GUID p0
        dsimp only at h1
        rw [if_neg p0] at h1
        unfold publish at h1
        rw [ha, e1] at h1
        injection h1 with h1
        rw [← h1] at hl
        dsimp only at hl
        rw [e4, if_pos rfl] at hl
        injection hl with hl
        exact hq (by rw [hp2, hl])

theorem someOps_allowed : Allowed someOps begin := by
  have p1 : env1.Proper begin := ⟨⟨_, rfl, by decide⟩, ⟨_, rfl, by decide⟩, fun p hp => ⟨by injection hp with hp; subst hp; decide, rfl⟩,
    fun p hp => ⟨by injection hp with hp; subst hp; decide, rfl, by injection hp with hp; subst hp; decide⟩, rfl⟩
  refine ⟨p1, fun s hs => ?_⟩
  have : s = begin := by injection hs with hs; exact hs.symm
  subst this
  refine ⟨p1, fun s1 h1 => ?_⟩
  have q := pool_after begin_steady p1 h1 works1
  refine ⟨⟨by decide, _, rfl, by decide⟩, fun s2 h2 => ?_⟩
  have hp : s2.pool = s1.pool := by
    simp only [Sys.step] at h2
    split at h2
    · cases h2
    · injection h2 with h2; rw [← h2]
  refine ⟨⟨⟨_, rfl, by decide⟩, ⟨_, rfl, by decide⟩, fun p hh => ?_, fun p hh => ?_, rfl⟩, fun _ _ => trivial⟩
  · injection hh with hh
    subst hh
    exact ⟨by decide, by rw [hp]; exact q _ (by decide)⟩
  · injection hh with hh
    subst hh
    exact ⟨by decide, by rw [hp]; exact q _ (by decide), by decide⟩

/-- `mat_history` and `mat_published` apply: the table is the one for the memory as it is now. -/
example : ∃ s t, begin.run someOps = some s ∧ s.published = some t ∧ Describes t afterMem :=
  mat_published begin_steady (ops := [.runtimePages env1, .readyToBoot env1, .other (.install (some 0x8000) 7 0x9000)]) someOps_allowed
    (Or.inr ⟨rfl, Or.inr ⟨env1, by simp⟩⟩) works2 after_kept

/-- Only page allocations renew the table: after the runtime code was made read-only it is still listed as not executable. -/
theorem attribute_change_not_listed :
    ∃ s t, begin.run [.readyToBoot env1] = some s ∧ s.published = some t ∧ Describes t demoMem ∧ ¬ Describes t afterMem := by
  have ha : Allowed ([] ++ [.readyToBoot env1]) begin := by
    have := someOps_allowed
    exact ⟨this.1, fun _ _ => trivial⟩
  obtain ⟨s, h1, h2, h3⟩ := mat_history begin_steady ha
  have hb : s.published = some (build demoMem) := by rw [h3]; decide +kernel
  refine ⟨s, build demoMem, h1, hb, build_describes demo_kept, fun h => ?_⟩
  have hr : MemMap.Reports (build demoMem).entries 0xFC000 5 0x8000000000024000 := by
    have : (⟨5, 0xFC000, 2, 0x8000000000024000⟩ : MemMap.Entry) ∈ (build demoMem).entries := by decide +kernel
    exact ⟨_, this, by decide, by decide, rfl, rfl⟩
  obtain ⟨_, c, hc, _, hl⟩ := (h.exactly _ _ _).1 hr
  have hb : ∃ w, cellAt afterMem.gcd.blocks 0xFC000 = some w ∧ w.attrs.testBit 17 = true ∧ w.attrs.testBit 14 = false := by decide +kernel
  obtain ⟨w, hw, h17, h14⟩ := hb
  rw [hw] at hc
  injection hc with hc
  subst hc
  have := hl 14
  rw [h14, h17] at this
  revert this
  decide

end Verif.Tables.Mat
