import Verif.Collections.Heap
import Verif.Collections.RbtModel
/-! The rotations of the red-black tree, on trees in memory. -/
namespace Verif.Collections.Tree.Rbt
variable {α : Type}

theorem rotateLeft_ok {m : Mem α} {c : Ctx α} {bx : Bool} {a : T α} {x : Nat} {dx : α} {by_ : Bool}
    {b : T α} {y : Nat} {dy : α} {e : T α}
    (ho : Ok m none (plug c (.node bx a x dx (.node by_ b y dy e))))
    (hn : (plug c (.node bx a x dx (.node by_ b y dy e))).addrs.Nodup) :
    (rotateLeft m x).2 = some y ∧
    Ok (rotateLeft m x).1 none (plug c (.node by_ (.node bx a x dx b) y dy e)) ∧
    ∀ i, i ∉ (plug c (.node bx a x dx (.node by_ b y dy e))).addrs → (rotateLeft m x).1 i = m i := by
  rw [Ok_plug] at ho
  obtain ⟨hc, hx, oa, hy, ob, oe⟩ := ho
  rw [nodup_plug, nodup_node, nodup_node] at hn
  obtain ⟨nc, ⟨na, ⟨nb, ne, yb, ye, be⟩, xa, xr, ar⟩, cd⟩ := hn
  simp only [T.addrs, List.mem_append, List.mem_cons, not_or] at xr ar cd
  obtain ⟨xb, xy, xe⟩ := xr
  have xc : x ∉ ctxAddrs c := fun h => (cd x h).2.1 rfl
  have yc : y ∉ ctxAddrs c := fun h => (cd y h).2.2.2.1 rfl
  have px : par c ≠ some x := fun h => xc (par_mem h)
  have py : par c ≠ some y := fun h => yc (par_mem h)
  have bx' : b.root ≠ some x := fun h => xb (root_mem h)
  have by' : b.root ≠ some y := fun h => yb (root_mem h)
  have hres : rotateLeft m x = (relinkPar
      (setParentO (setParent (setLeftO (setParentO (setRight m x b.root) b.root (some x)) (some y) (some x))
        x (some y)) (some y) (par c)) c (some y), some y) := by
    have hx1 : (m x).right = some y := by rw [hx]; rfl
    have hx2 : (m x).parent = par c := by rw [hx]
    have hy1 : leftO m (some y) = b.root := by simp [leftO, hy]
    have hy2 : leftO (setRight m x b.root) (some y) = b.root := by
      simp [leftO, setRight_apply, xy, hy]
    unfold rotateLeft
    simp only [hx1, hx2, hy1, hy2]
    congr 1
    refine relink_strict hc xc (fun i hi => ?_)
    have h1 : x ≠ i := fun h => px (h ▸ hi)
    have h2 : y ≠ i := fun h => py (h ▸ hi)
    have h3 : b.root ≠ some i := fun h => (cd i (par_mem hi)).2.2.1 (root_mem h)
    simp [setParentO_apply, setParent_apply, setLeftO_apply, setRight_apply, h1, h2, h3]
  have hother : ∀ i, i ≠ x → i ≠ y → b.root ≠ some i → par c ≠ some i → (rotateLeft m x).1 i = m i := by
    intro i h1 h2 h3 h4
    rw [hres]; simp only []; rw [relinkPar_ne h4]
    simp [setParentO_apply, setParent_apply, setLeftO_apply, setRight_apply, Ne.symm h1, Ne.symm h2, h3]
  refine ⟨by rw [hres], ?_, ?_⟩
  · rw [Ok_plug]
    refine ⟨?_, ?_, ⟨?_, ?_, ?_⟩, ?_⟩
    · rw [hres]; simp only [root_node]
      refine OkCtx_relinkPar nc (fun i hi => ?_) hc
      have h1 : x ≠ i := fun h => xc (h ▸ hi)
      have h2 : y ≠ i := fun h => yc (h ▸ hi)
      have h3 : b.root ≠ some i := fun h => (cd i hi).2.2.1 (root_mem h)
      simp [setParentO_apply, setParent_apply, setLeftO_apply, setRight_apply, h1, h2, h3]
    · rw [hres]; simp only []; rw [relinkPar_ne py]
      simp [setParentO_apply, setParent_apply, setLeftO_apply, setRight_apply, by', xy, hy, root_node]
    · rw [hres]; simp only []; rw [relinkPar_ne px]
      simp [setParentO_apply, setParent_apply, setLeftO_apply, setRight_apply, bx', Ne.symm xy, hx, root_node]
    · refine Ok_congr (fun i hi => hother i ?_ ?_ ?_ ?_) oa
      · rintro rfl; exact xa hi
      · rintro rfl; exact (ar i hi).2.1 rfl
      · intro h; exact (ar i hi).1 (root_mem h)
      · intro h; exact (cd i (par_mem h)).1 hi
    · refine Ok_reparent nb (fun i hi hr => hother i ?_ ?_ hr ?_) (fun i hr => ?_) ob
      · rintro rfl; exact xb hi
      · rintro rfl; exact yb hi
      · intro h; exact (cd i (par_mem h)).2.2.1 hi
      · have hi := root_mem hr
        have h1 : x ≠ i := fun h => xb (h ▸ hi)
        have h2 : y ≠ i := fun h => yb (h ▸ hi)
        have h4 : par c ≠ some i := fun h => (cd i (par_mem h)).2.2.1 hi
        rw [hres]; simp only []; rw [relinkPar_ne h4]
        simp [setParentO_apply, setParent_apply, setLeftO_apply, setRight_apply, h1, h2, hr]
    · refine Ok_congr (fun i hi => hother i ?_ ?_ ?_ ?_) oe
      · rintro rfl; exact xe hi
      · rintro rfl; exact ye hi
      · intro h; exact be i (root_mem h) hi
      · intro h; exact (cd i (par_mem h)).2.2.2.2 hi
  · intro i hi
    rw [mem_plug] at hi
    simp only [T.addrs, List.mem_append, List.mem_cons, not_or] at hi
    exact hother i hi.2.2.1 hi.2.2.2.2.1 (fun h => hi.2.2.2.1 (root_mem h)) (fun h => hi.1 (par_mem h))

theorem rotateRight_ok {m : Mem α} {c : Ctx α} {bx : Bool} {a : T α} {x : Nat} {dx : α} {by_ : Bool}
    {b : T α} {y : Nat} {dy : α} {e : T α}
    (ho : Ok m none (plug c (.node bx (.node by_ e y dy b) x dx a)))
    (hn : (plug c (.node bx (.node by_ e y dy b) x dx a)).addrs.Nodup) :
    (rotateRight m x).2 = some y ∧
    Ok (rotateRight m x).1 none (plug c (.node by_ e y dy (.node bx b x dx a))) ∧
    ∀ i, i ∉ (plug c (.node bx (.node by_ e y dy b) x dx a)).addrs → (rotateRight m x).1 i = m i := by
  rw [Ok_plug] at ho
  obtain ⟨hc, hx, ⟨hy, oe, ob⟩, oa⟩ := ho
  rw [nodup_plug, nodup_node, nodup_node] at hn
  obtain ⟨nc, ⟨⟨ne, nb, ye, yb, be⟩, na, xr, xa, ar⟩, cd⟩ := hn
  simp only [T.addrs, List.mem_append, List.mem_cons, not_or] at xr ar cd
  obtain ⟨xe, xy, xb⟩ := xr
  have xc : x ∉ ctxAddrs c := fun h => (cd x h).2.1 rfl
  have yc : y ∉ ctxAddrs c := fun h => (cd y h).1.2.1 rfl
  have px : par c ≠ some x := fun h => xc (par_mem h)
  have py : par c ≠ some y := fun h => yc (par_mem h)
  have bx' : b.root ≠ some x := fun h => xb (root_mem h)
  have by' : b.root ≠ some y := fun h => yb (root_mem h)
  have hres : rotateRight m x = (relinkPar
      (setParentO (setParent (setRightO (setParentO (setLeft m x b.root) b.root (some x)) (some y) (some x))
        x (some y)) (some y) (par c)) c (some y), some y) := by
    have hx1 : (m x).left = some y := by rw [hx]; rfl
    have hx2 : (m x).parent = par c := by rw [hx]
    have hy1 : rightO m (some y) = b.root := by simp [rightO, hy]
    have hy2 : rightO (setLeft m x b.root) (some y) = b.root := by
      simp [rightO, setLeft_apply, xy, hy]
    unfold rotateRight
    simp only [hx1, hx2, hy1, hy2]
    congr 1
    refine relink_strict hc xc (fun i hi => ?_)
    have h1 : x ≠ i := fun h => px (h ▸ hi)
    have h2 : y ≠ i := fun h => py (h ▸ hi)
    have h3 : b.root ≠ some i := fun h => (cd i (par_mem hi)).1.2.2 (root_mem h)
    simp [setParentO_apply, setParent_apply, setRightO_apply, setLeft_apply, h1, h2, h3]
  have hother : ∀ i, i ≠ x → i ≠ y → b.root ≠ some i → par c ≠ some i → (rotateRight m x).1 i = m i := by
    intro i h1 h2 h3 h4
    rw [hres]; simp only []; rw [relinkPar_ne h4]
    simp [setParentO_apply, setParent_apply, setRightO_apply, setLeft_apply, Ne.symm h1, Ne.symm h2, h3]
  refine ⟨by rw [hres], ?_, ?_⟩
  · rw [Ok_plug]
    refine ⟨?_, ?_, ?_, ?_, ?_, ?_⟩
    · rw [hres]; simp only [root_node]
      refine OkCtx_relinkPar nc (fun i hi => ?_) hc
      have h1 : x ≠ i := fun h => xc (h ▸ hi)
      have h2 : y ≠ i := fun h => yc (h ▸ hi)
      have h3 : b.root ≠ some i := fun h => (cd i hi).1.2.2 (root_mem h)
      simp [setParentO_apply, setParent_apply, setRightO_apply, setLeft_apply, h1, h2, h3]
    · rw [hres]; simp only []; rw [relinkPar_ne py]
      simp [setParentO_apply, setParent_apply, setRightO_apply, setLeft_apply, by', xy, hy, root_node]
    · refine Ok_congr (fun i hi => hother i ?_ ?_ ?_ ?_) oe
      · rintro rfl; exact xe hi
      · rintro rfl; exact ye hi
      · intro h; exact be i hi (root_mem h)
      · intro h; exact (cd i (par_mem h)).1.1 hi
    · rw [hres]; simp only []; rw [relinkPar_ne px]
      simp [setParentO_apply, setParent_apply, setRightO_apply, setLeft_apply, bx', Ne.symm xy, hx, root_node]
    · refine Ok_reparent nb (fun i hi hr => hother i ?_ ?_ hr ?_) (fun i hr => ?_) ob
      · rintro rfl; exact xb hi
      · rintro rfl; exact yb hi
      · intro h; exact (cd i (par_mem h)).1.2.2 hi
      · have hi := root_mem hr
        have h1 : x ≠ i := fun h => xb (h ▸ hi)
        have h2 : y ≠ i := fun h => yb (h ▸ hi)
        have h4 : par c ≠ some i := fun h => (cd i (par_mem h)).1.2.2 hi
        rw [hres]; simp only []; rw [relinkPar_ne h4]
        simp [setParentO_apply, setParent_apply, setRightO_apply, setLeft_apply, h1, h2, hr]
    · refine Ok_congr (fun i hi => hother i ?_ ?_ ?_ ?_) oa
      · rintro rfl; exact xa hi
      · rintro rfl; exact ar i (by simp) hi
      · intro h; exact ar i (by simp [root_mem h]) hi
      · intro h; exact (cd i (par_mem h)).2.2 hi
  · intro i hi
    rw [mem_plug] at hi
    simp only [T.addrs, List.mem_append, List.mem_cons, not_or] at hi
    exact hother i hi.2.2.1 hi.2.1.2.1 (fun h => hi.2.1.2.2 (root_mem h)) (fun h => hi.1 (par_mem h))

end Verif.Collections.Tree.Rbt
