import Verif.Collections.Rotate
/-! Steps on a heap that holds a tree: recolouring, rotating with the root store, reading links. -/
namespace Verif.Collections.Tree
variable {α : Type}

/-- From heap `h` holding `t`, the code went to heap `h'` holding `t'`; slots outside `t` are untouched. -/
structure Moves (h : Heap α) (t : T α) (h' : Heap α) (t' : T α) : Prop where
  holds : Holds h' t'
  frame : ∀ i, i ∉ t.addrs → h'.mem i = h.mem i
  perm : t'.addrs.Perm t.addrs

theorem Moves.refl {h : Heap α} {t : T α} (hh : Holds h t) : Moves h t h t :=
  ⟨hh, fun _ _ => rfl, List.Perm.refl _⟩

theorem Moves.trans {h1 h2 h3 : Heap α} {t1 t2 t3 : T α} (a : Moves h1 t1 h2 t2) (b : Moves h2 t2 h3 t3) :
    Moves h1 t1 h3 t3 :=
  ⟨b.holds, fun i hi => by
    rw [b.frame i (fun h => hi ((a.perm.mem_iff).1 h)), a.frame i hi], b.perm.trans a.perm⟩

theorem perm_plug_congr (c : Ctx α) {t t' : T α} (h : t'.addrs.Perm t.addrs) :
    (plug c t').addrs.Perm (plug c t).addrs :=
  (perm_plug c t').trans ((List.Perm.append_left _ h).trans (perm_plug c t).symm)

/-! ### Reading -/

theorem read_focus {h : Heap α} {c : Ctx α} {b : Bool} {l : T α} {i : Nat} {d : α} {r : T α}
    (hh : Holds h (plug c (.node b l i d r))) : h.mem i = ⟨d, b, par c, l.root, r.root⟩ :=
  ((Ok_plug _ _ _).1 hh.ok).2.1

theorem blackO_ok {m : Mem α} {p : Option Nat} {t : T α} (h : Ok m p t) : blackO m t.root = t.black := by
  cases t with
  | nil => rfl
  | node b l i d r => simp [blackO, h.1, T.black]

theorem blackO_focus {h : Heap α} {c : Ctx α} {t : T α} (hh : Holds h (plug c t)) :
    blackO h.mem t.root = t.black :=
  blackO_ok ((Ok_plug _ _ _).1 hh.ok).2

theorem sib_ne {h : Heap α} {f : Frame α} {c : Ctx α} {t : T α} {n : Nat}
    (hh : Holds h (plug (f :: c) t)) (hn : t.root = some n) : f.sib.root ≠ some n := by
  intro e
  have := hh.nodup
  rw [nodup_plug] at this
  exact this.2.2 n (by simp [ctxAddrs, root_mem e]) (root_mem hn)

theorem addr_ne {h : Heap α} {f : Frame α} {c : Ctx α} {t : T α} {n : Nat}
    (hh : Holds h (plug (f :: c) t)) (hn : t.root = some n) : f.addr ≠ n := by
  intro e
  have := hh.nodup
  rw [nodup_plug] at this
  exact this.2.2 n (by simp [ctxAddrs, e]) (root_mem hn)

theorem sibling_ok {h : Heap α} {f : Frame α} {c : Ctx α} {t : T α} {n : Nat}
    (hh : Holds h (plug (f :: c) t)) (hn : t.root = some n) : sibling h.mem n = .ok f.sib.root := by
  have hs := sib_ne hh hn
  have hpar : (h.mem n).parent = some f.addr := by
    cases t with
    | nil => simp at hn
    | node b l i d r => simp at hn; subst hn; rw [read_focus hh]; rfl
  cases f with
  | L b i d r =>
    have hf := read_focus (show Holds h (plug c (.node b t i d r)) from hh)
    have hpar' : (h.mem n).parent = some i := hpar
    simp [sibling, hpar', hf, hn, Frame.sib]
  | R b l i d =>
    have hf := read_focus (show Holds h (plug c (.node b l i d t)) from hh)
    have hpar' : (h.mem n).parent = some i := hpar
    simp only [Frame.sib] at hs
    simp [sibling, hpar', hf, hn, Frame.sib, hs]

/-! ### Recolouring -/

theorem addrs_setBlack (b : Bool) (t : T α) : (t.setBlack b).addrs = t.addrs := by cases t <;> rfl
theorem root_setBlack (b : Bool) (t : T α) : (t.setBlack b).root = t.root := by cases t <;> rfl
theorem root_plug_congr (c : Ctx α) {t t' : T α} (h : t'.root = t.root) :
    (plug c t').root = (plug c t).root := by
  cases c with
  | nil => exact h
  | cons f c => exact root_plug_ne f c _ _

theorem recolor {h : Heap α} {c : Ctx α} {t : T α} {o : Option Nat} (b : Bool) (ho : t.root = o)
    (hh : Holds h (plug c t)) :
    Moves h (plug c t) { h with mem := setBlackO h.mem o b } (plug c (t.setBlack b)) := by
  have hnd := hh.nodup
  rw [nodup_plug] at hnd
  have hp : (plug c (t.setBlack b)).addrs.Perm (plug c t).addrs :=
    perm_plug_congr c (by rw [addrs_setBlack])
  refine ⟨⟨?_, ?_, hp.nodup_iff.2 hh.nodup⟩, ?_, hp⟩
  · simp only []; rw [hh.root, root_plug_congr c (root_setBlack b t)]
  · have hok := (Ok_plug _ _ _).1 hh.ok
    rw [Ok_plug, root_setBlack]
    refine ⟨OkCtx_congr (fun i hi => ?_) hok.1, Ok_recolor hnd.2.1 (fun i hi hr => ?_) (fun i hr => ?_) hok.2⟩
    · have : o ≠ some i := fun e => hnd.2.2 i hi (root_mem (ho.trans e))
      simp [setBlackO_apply, this]
    · rw [ho] at hr; simp [setBlackO_apply, hr]
    · rw [ho] at hr; simp [setBlackO_apply, hr]
  · intro i hi
    have : o ≠ some i := fun e => hi ((mem_plug _ _ _).2 (.inr (root_mem (ho.trans e))))
    simp [setBlackO_apply, this]

theorem recolor_node {h : Heap α} {c : Ctx α} {b0 : Bool} {l : T α} {i : Nat} {d : α} {r : T α} (b : Bool)
    (hh : Holds h (plug c (.node b0 l i d r))) :
    Moves h (plug c (.node b0 l i d r)) { h with mem := setBlack h.mem i b } (plug c (.node b l i d r)) :=
  recolor b rfl hh

namespace Rbt

theorem setParent_self {m : Mem α} {i : Nat} (h : (m i).parent = none) : setParent m i none = m := by
  funext j; rw [setParent_apply]; split
  · rename_i e; subst e; rw [← h]
  · rfl

theorem storeTop_ok {m : Mem α} {rt : Option Nat} {c : Ctx α} {b : Bool} {l : T α} {y : Nat} {d : α}
    {r : T α} {t0 : T α} (ho : Ok m none (plug c (.node b l y d r))) (hr : rt = (plug c t0).root) :
    (storeTop { mem := m, root := rt } (some y)).mem = m ∧
    (storeTop { mem := m, root := rt } (some y)).root = (plug c (.node b l y d r)).root := by
  have hy : (m y).parent = par c := by rw [((Ok_plug _ _ _).1 ho).2.1]
  unfold storeTop
  simp only [hy]
  cases c with
  | nil =>
    have : (m y).parent = none := hy
    simp [par, setParent_self this, plug]
  | cons f c =>
    simp only [par, reduceCtorEq, if_false]
    exact ⟨trivial, hr.trans (root_plug_ne f c _ _)⟩

theorem rotL_ok {h : Heap α} {c : Ctx α} {bx : Bool} {a : T α} {x : Nat} {dx : α} {by_ : Bool}
    {b : T α} {y : Nat} {dy : α} {e : T α}
    (hh : Holds h (plug c (.node bx a x dx (.node by_ b y dy e)))) :
    Moves h (plug c (.node bx a x dx (.node by_ b y dy e))) (rotL h x)
      (plug c (.node by_ (.node bx a x dx b) y dy e)) := by
  obtain ⟨h1, h2, h3⟩ := rotateLeft_ok hh.ok hh.nodup
  have hp : (plug c (.node by_ (.node bx a x dx b) y dy e)).addrs.Perm
      (plug c (.node bx a x dx (.node by_ b y dy e))).addrs := by
    apply perm_plug_congr; simp [T.addrs]
  have hs := storeTop_ok (rt := h.root) h2 hh.root
  unfold rotL
  rw [h1]
  exact ⟨⟨hs.2, by rw [hs.1]; exact h2, hp.nodup_iff.2 hh.nodup⟩, by rw [hs.1]; exact h3, hp⟩

theorem rotR_ok {h : Heap α} {c : Ctx α} {bx : Bool} {a : T α} {x : Nat} {dx : α} {by_ : Bool}
    {b : T α} {y : Nat} {dy : α} {e : T α}
    (hh : Holds h (plug c (.node bx (.node by_ e y dy b) x dx a))) :
    Moves h (plug c (.node bx (.node by_ e y dy b) x dx a)) (rotR h x)
      (plug c (.node by_ e y dy (.node bx b x dx a))) := by
  obtain ⟨h1, h2, h3⟩ := rotateRight_ok hh.ok hh.nodup
  have hp : (plug c (.node by_ e y dy (.node bx b x dx a))).addrs.Perm
      (plug c (.node bx (.node by_ e y dy b) x dx a)).addrs := by
    apply perm_plug_congr; simp [T.addrs]
  have hs := storeTop_ok (rt := h.root) h2 hh.root
  unfold rotR
  rw [h1]
  exact ⟨⟨hs.2, by rw [hs.1]; exact h2, hp.nodup_iff.2 hh.nodup⟩, by rw [hs.1]; exact h3, hp⟩

end Rbt
end Verif.Collections.Tree
