import Verif.Collections.Shape
/-! Pointwise descriptions of the pointer writes, and their effect on trees in memory. -/
namespace Verif.Collections.Tree
variable {α : Type}

theorem setBlack_apply (m : Mem α) (i : Nat) (v : Bool) (j : Nat) :
    setBlack m i v j = if i = j then { m j with black := v } else m j := by
  simp only [setBlack, upd]; split <;> split <;> simp_all
theorem setParent_apply (m : Mem α) (i : Nat) (v : Option Nat) (j : Nat) :
    setParent m i v j = if i = j then { m j with parent := v } else m j := by
  simp only [setParent, upd]; split <;> split <;> simp_all
theorem setLeft_apply (m : Mem α) (i : Nat) (v : Option Nat) (j : Nat) :
    setLeft m i v j = if i = j then { m j with left := v } else m j := by
  simp only [setLeft, upd]; split <;> split <;> simp_all
theorem setRight_apply (m : Mem α) (i : Nat) (v : Option Nat) (j : Nat) :
    setRight m i v j = if i = j then { m j with right := v } else m j := by
  simp only [setRight, upd]; split <;> split <;> simp_all
theorem setBlackO_apply (m : Mem α) (o : Option Nat) (v : Bool) (j : Nat) :
    setBlackO m o v j = if o = some j then { m j with black := v } else m j := by
  cases o <;> simp [setBlackO, setBlack_apply]
theorem setParentO_apply (m : Mem α) (o : Option Nat) (v : Option Nat) (j : Nat) :
    setParentO m o v j = if o = some j then { m j with parent := v } else m j := by
  cases o <;> simp [setParentO, setParent_apply]
theorem setLeftO_apply (m : Mem α) (o : Option Nat) (v : Option Nat) (j : Nat) :
    setLeftO m o v j = if o = some j then { m j with left := v } else m j := by
  cases o <;> simp [setLeftO, setLeft_apply]
theorem setRightO_apply (m : Mem α) (o : Option Nat) (v : Option Nat) (j : Nat) :
    setRightO m o v j = if o = some j then { m j with right := v } else m j := by
  cases o <;> simp [setRightO, setRight_apply]

/-- The parent's link to the subtree redirected to `q`. -/
def relinkPar (m : Mem α) (c : Ctx α) (q : Option Nat) : Mem α :=
  match c with
  | [] => m
  | f :: _ => fun j => if f.addr = j then relinkCell f q (m j) else m j

theorem relinkPar_cons (m : Mem α) (f : Frame α) (c : Ctx α) (q : Option Nat) (j : Nat) :
    relinkPar m (f :: c) q j = if f.addr = j then relinkCell f q (m j) else m j := rfl

theorem relinkPar_ne {m : Mem α} {c : Ctx α} {q : Option Nat} {j : Nat} (h : par c ≠ some j) :
    relinkPar m c q j = m j := by
  cases c with
  | nil => rfl
  | cons f c => simp only [relinkPar, par, ne_eq, Option.some.injEq] at *; simp [h]

theorem relink_lenient {m m' : Mem α} {c : Ctx α} {x : Nat} {q : Option Nat}
    (ho : OkCtx m (some x) c) (hx : x ∉ ctxAddrs c) (he : ∀ i, par c = some i → m' i = m i) :
    relink m' (par c) x q = relinkPar m' c q := by
  cases c with
  | nil => simp [relink, par, leftO, setRightO, relinkPar]
  | cons f c =>
    rw [OkCtx_cons] at ho
    have h1 := he f.addr rfl
    have h2 := ho.1.1
    funext j
    cases f with
    | L b i d r =>
      simp only [Frame.addr] at *
      simp [relink, par, leftO, relinkPar_cons, Frame.addr, h1, h2, setLeftO, setLeft_apply, relinkCell]
      rfl
    | R b l i d =>
      simp only [Frame.addr] at *
      have : l.root ≠ some x := fun e => hx (by simp [ctxAddrs, Frame.sib, root_mem e])
      simp [relink, par, leftO, relinkPar_cons, Frame.addr, h1, h2, setRightO, setRight_apply, relinkCell, this]
      rfl

theorem relink_strict {m m' : Mem α} {c : Ctx α} {x : Nat} {q : Option Nat}
    (ho : OkCtx m (some x) c) (hx : x ∉ ctxAddrs c) (he : ∀ i, par c = some i → m' i = m i) :
    (if leftO m' (par c) = some x then setLeftO m' (par c) q
      else if rightO m' (par c) = some x then setRightO m' (par c) q else m') = relinkPar m' c q := by
  cases c with
  | nil => simp [par, leftO, rightO, relinkPar]
  | cons f c =>
    rw [OkCtx_cons] at ho
    have h1 := he f.addr rfl
    have h2 := ho.1.1
    funext j
    cases f with
    | L b i d r =>
      simp only [Frame.addr] at *
      simp [par, leftO, relinkPar_cons, Frame.addr, h1, h2, setLeftO, setLeft_apply, relinkCell]
      rfl
    | R b l i d =>
      simp only [Frame.addr] at *
      have : l.root ≠ some x := fun e => hx (by simp [ctxAddrs, Frame.sib, root_mem e])
      simp [par, leftO, rightO, relinkPar_cons, Frame.addr, h1, h2, setRightO, setRight_apply, relinkCell, this]
      rfl

theorem OkCtx_relinkPar {m m' : Mem α} {q q' : Option Nat} {c : Ctx α} (hn : (ctxAddrs c).Nodup)
    (h : ∀ i ∈ ctxAddrs c, m' i = m i) (ho : OkCtx m q c) : OkCtx (relinkPar m' c q') q' c := by
  refine OkCtx_relink hn (fun i hi hp => ?_) ?_ ho
  · rw [relinkPar_ne hp, h i hi]
  · intro f c' e; subst e
    simp only [relinkPar, if_true]
    rw [h f.addr (by simp [ctxAddrs])]

end Verif.Collections.Tree
