import Verif.Collections.Moves
import Verif.Collections.BstModel
/-! Removing a node: `remove_node_with_zero_or_one_child` and `Node::swap` on trees in memory. -/
namespace Verif.Collections.Tree
variable {α : Type}

/-- The child that takes the place of a node with at most one child. -/
def only (l r : T α) : T α := match l with | .nil => r | .node .. => l

/-- A node is unlinked: the heap holds `t'`, the slots outside `t'` are untouched. -/
structure Unlinks (m : Mem α) (m' : Mem α) (t' : T α) : Prop where
  ok : Ok m' none t'
  frame : ∀ j, j ∉ t'.addrs → m' j = m j

theorem remove_ok (strict : Bool) {h : Heap α} {c : Ctx α} {b : Bool} {l : T α} {i : Nat} {d : α} {r : T α}
    (hh : Holds h (plug c (.node b l i d r))) (hlr : l = .nil ∨ r = .nil) :
    (removeZeroOrOne strict h.mem i).2 = (only l r).root ∧
    Unlinks h.mem (removeZeroOrOne strict h.mem i).1 (plug c (only l r)) := by
  obtain ⟨hc, hi, ol, or⟩ := (Ok_plug _ _ _).1 hh.ok
  have hn := hh.nodup
  rw [nodup_plug, nodup_node] at hn
  obtain ⟨nc, ⟨nl, nr, il, ir, lr⟩, cd⟩ := hn
  simp only [T.addrs, List.mem_append, List.mem_cons, not_or] at cd
  have ic : i ∉ ctxAddrs c := fun h => (cd i h).2.1 rfl
  have pi : par c ≠ some i := fun h => ic (par_mem h)
  simp only [root_node] at hc
  -- the two cases with a child are the same
  have child : ∀ (x : T α) (m1 : Mem α), x.addrs.Nodup → (∀ j ∈ ctxAddrs c, j ∉ x.addrs) → i ∉ x.addrs →
      Ok h.mem (some i) x → m1 = setParentO h.mem x.root (par c) →
      Unlinks h.mem (relink m1 (par c) i x.root) (plug c x) := by
    intro x m1 nx cx ix ox em
    have hm1 : ∀ j, x.root ≠ some j → m1 j = h.mem j := by
      intro j hj; rw [em, setParentO_apply, if_neg hj]
    rw [relink_lenient hc ic (fun j hj => hm1 j (fun e => cx j (par_mem hj) (root_mem e)))]
    refine ⟨(Ok_plug _ _ _).2 ⟨OkCtx_relinkPar nc (fun j hj => hm1 j (fun e => cx j hj (root_mem e))) hc, ?_⟩, ?_⟩
    · refine Ok_reparent nx (fun j hj hr => ?_) (fun j hr => ?_) ox
      · rw [relinkPar_ne (fun e => cx j (par_mem e) hj), hm1 j hr]
      · rw [relinkPar_ne (fun e => cx j (par_mem e) (root_mem hr)), em, setParentO_apply, if_pos hr]
    · intro j hj
      rw [mem_plug, not_or] at hj
      rw [relinkPar_ne (fun e => hj.1 (par_mem e)), hm1 j (fun e => hj.2 (root_mem e))]
  unfold removeZeroOrOne
  have e1 : (h.mem i).parent = par c := by rw [hi]
  have e2 : (h.mem i).left = l.root := by rw [hi]
  have e3 : (h.mem i).right = r.root := by rw [hi]
  simp only [e1, e2, e3]
  cases l with
  | node lb ll li ld lr' =>
    have hli : li ≠ i := fun e => il (by simp [T.addrs, e])
    have e4 : (setParentO h.mem (some li) (par c) i).left = some li := by
      simp [setParentO_apply, hli, e2]
    simp only [root_node, Option.isSome_some, if_true, e4, only]
    exact ⟨trivial, child _ _ nl (fun j hj => (cd j hj).1) il ol rfl⟩
  | nil =>
    simp only [root_nil, Option.isSome_none, Bool.false_eq_true, if_false, only]
    cases r with
    | node rb rl ri rd rr =>
      have hri : ri ≠ i := fun e => ir (by simp [T.addrs, e])
      have e4 : (setParentO h.mem (some ri) (par c) i).right = some ri := by
        simp [setParentO_apply, hri, e3]
      simp only [root_node, Option.isSome_some, if_true, e4]
      exact ⟨trivial, child _ _ nr (fun j hj => (cd j hj).2.2) ir or rfl⟩
    | nil =>
      simp only [root_nil, Option.isSome_none, Bool.false_eq_true, if_false]
      have hc0 := child .nil h.mem nl (fun j hj => (cd j hj).1) il ol rfl
      cases strict with
      | false => exact ⟨rfl, hc0⟩
      | true =>
        simp only [if_true]
        rw [relink_strict hc ic (fun _ _ => rfl), ← relink_lenient hc ic (fun _ _ => rfl)]
        exact ⟨trivial, hc0⟩

/-- lines 553-556 of bst.rs and 574-577 of rbt.rs: the root after removing a node with at most one
child. -/
theorem storeMoved_ok {m m' : Mem α} {rt : Option Nat} {c : Ctx α} {b : Bool} {l : T α} {i : Nat} {d : α}
    {r x : T α} (hpar : (m i).parent = par c) (hu : Unlinks m m' (plug c x)) (hi : i ∉ (plug c x).addrs)
    (hr : rt = (plug c (.node b l i d r)).root) (hn : (plug c x).addrs.Nodup) :
    Holds (Bst.storeMoved { mem := m', root := rt } i x.root) (plug c x) ∧
    ∀ j, j ∉ (plug c x).addrs → (Bst.storeMoved { mem := m', root := rt } i x.root).mem j = m j := by
  have hi' : (m' i).parent = par c := by rw [hu.frame i hi, hpar]
  unfold Bst.storeMoved
  cases c with
  | nil =>
    simp only [par] at hi'
    simp only [hi', if_true]
    have hx : Ok m' none x := hu.ok
    have hset : setParentO m' x.root none = m' := by
      cases x with
      | nil => rfl
      | node xb xl xi xd xr => exact Rbt.setParent_self (by rw [hx.1])
    rw [hset]
    exact ⟨⟨rfl, hu.ok, hn⟩, hu.frame⟩
  | cons f c =>
    simp only [par] at hi'
    simp only [hi', reduceCtorEq, if_false]
    exact ⟨⟨hr.trans (root_plug_ne f c _ _), hu.ok, hn⟩, hu.frame⟩

/-! ### Swap -/

/-- The slot at the top of a path, `q` for the empty path. -/
def topOf (q : Option Nat) : Ctx α → Option Nat
  | [] => q
  | f :: c => topOf (some f.addr) c

/-- The parent of the first step of a path. -/
def parP (p : Option Nat) : Ctx α → Option Nat
  | [] => p
  | f :: _ => some f.addr

/-- The nodes in memory form the path `c`, whose top has parent `p`. -/
def PathOk (m : Mem α) (q p : Option Nat) : Ctx α → Prop
  | [] => True
  | .L b i d r :: c => m i = ⟨d, b, parP p c, q, r.root⟩ ∧ Ok m (some i) r ∧ PathOk m (some i) p c
  | .R b l i d :: c => m i = ⟨d, b, parP p c, l.root, q⟩ ∧ Ok m (some i) l ∧ PathOk m (some i) p c

theorem PathOk_cons (m : Mem α) (q p : Option Nat) (f : Frame α) (c : Ctx α) :
    PathOk m q p (f :: c) ↔
      (m f.addr = (match f with
        | .L b _ d r => ⟨d, b, parP p c, q, r.root⟩
        | .R b l _ d => ⟨d, b, parP p c, l.root, q⟩) ∧
        Ok m (some f.addr) f.sib) ∧ PathOk m (some f.addr) p c := by
  cases f <;> simp only [PathOk, Frame.addr, Frame.sib, and_assoc]

theorem par_append (c c2 : Ctx α) : par (c ++ c2) = parP (par c2) c := by
  cases c <;> rfl

theorem OkCtx_append (m : Mem α) (q : Option Nat) (c c2 : Ctx α) :
    OkCtx m q (c ++ c2) ↔ PathOk m q (par c2) c ∧ OkCtx m (topOf q c) c2 := by
  induction c generalizing q with
  | nil => simp [PathOk, topOf]
  | cons f c ih =>
    rw [List.cons_append, OkCtx_cons, PathOk_cons, ih, par_append]
    cases f <;> simp only [topOf, and_assoc]

theorem topOf_cons (q q' : Option Nat) (f : Frame α) (c : Ctx α) : topOf q (f :: c) = topOf q' (f :: c) := rfl

theorem top_mem {q : Option Nat} {f : Frame α} {c : Ctx α} {j : Nat} (h : topOf q (f :: c) = some j) :
    j ∈ ctxAddrs (f :: c) := by
  induction c generalizing f q with
  | nil => simp [topOf] at h; simp [ctxAddrs, h]
  | cons g c ih =>
    have := ih (f := g) (q := some f.addr) h
    rw [ctxAddrs]; simp only [List.mem_cons, List.mem_append]; exact .inr (.inr this)

/-- Only the parent link of the top of the path changes. -/
theorem PathOk_top {m m' : Mem α} {q p p' : Option Nat} {f : Frame α} {c : Ctx α} (hn : (ctxAddrs (f :: c)).Nodup)
    (h1 : ∀ j ∈ ctxAddrs (f :: c), topOf q (f :: c) ≠ some j → m' j = m j)
    (h2 : ∀ j, topOf q (f :: c) = some j → m' j = { m j with parent := p' })
    (ho : PathOk m q p (f :: c)) : PathOk m' q p' (f :: c) := by
  induction c generalizing f q with
  | nil =>
    rw [PathOk_cons] at ho ⊢
    rw [nodup_cons_ctx] at hn
    simp only [ctxAddrs, topOf, List.append_nil, List.mem_cons, Option.some.injEq] at h1 h2
    refine ⟨⟨?_, Ok_congr (fun j hj => h1 j (.inr hj) ?_) ho.1.2⟩, trivial⟩
    · rw [h2 _ rfl, ho.1.1]; cases f <;> rfl
    · intro e; injection e with e; subst e; exact hn.2.2.1 hj
  | cons g c ih =>
    rw [PathOk_cons] at ho ⊢
    have hn' := hn
    rw [nodup_cons_ctx] at hn
    have htop : ∀ j, topOf q (f :: g :: c) = some j → j ∈ ctxAddrs (g :: c) :=
      fun j hj => top_mem (q := some f.addr) hj
    refine ⟨⟨?_, Ok_congr (fun j hj => h1 j (by simp [ctxAddrs, hj]) ?_) ho.1.2⟩, ?_⟩
    · rw [h1 f.addr (by simp [ctxAddrs]) (fun e => hn.2.2.2.1 (htop _ e)), ho.1.1]; cases f <;> rfl
    · intro e; exact hn.2.2.2.2 j hj (htop j e)
    · refine ih hn.2.1 (fun j hj e => h1 j ?_ e) h2 ho.2
      rw [ctxAddrs, List.mem_cons, List.mem_append]; exact .inr (.inr hj)

/-- Only the link of the first step to the subtree changes. -/
theorem PathOk_relink {m m' : Mem α} {q q' p : Option Nat} {f : Frame α} {c : Ctx α}
    (hn : (ctxAddrs (f :: c)).Nodup)
    (h1 : ∀ j ∈ ctxAddrs (f :: c), f.addr ≠ j → m' j = m j)
    (h2 : m' f.addr = relinkCell f q' (m f.addr))
    (ho : PathOk m q p (f :: c)) : PathOk m' q' p (f :: c) := by
  rw [PathOk_cons] at ho ⊢
  rw [nodup_cons_ctx] at hn
  have hcongr : ∀ (c : Ctx α) (q : Option Nat), (∀ j ∈ ctxAddrs c, m' j = m j) → PathOk m q p c → PathOk m' q p c := by
    intro c
    induction c with
    | nil => intros; trivial
    | cons g c ih =>
      intro q hj ho
      rw [PathOk_cons] at ho ⊢
      simp only [ctxAddrs, List.mem_cons, List.mem_append] at hj
      exact ⟨⟨by rw [hj _ (.inl rfl)]; exact ho.1.1, Ok_congr (fun j h => hj j (.inr (.inl h))) ho.1.2⟩,
        ih _ (fun j h => hj j (.inr (.inr h))) ho.2⟩
  refine ⟨⟨?_, Ok_congr (fun j hj => h1 j (by simp [ctxAddrs, hj]) ?_) ho.1.2⟩, hcongr _ _ (fun j hj => h1 j ?_ ?_) ho.2⟩
  · rw [h2, ho.1.1]; cases f <;> rfl
  · rintro rfl; exact hn.2.2.1 hj
  · rw [ctxAddrs, List.mem_cons, List.mem_append]; exact .inr (.inr hj)
  · rintro rfl; exact hn.2.2.2.1 hj

/-- The nodes after the fields of `n1` and `n2` have been exchanged (the data stays). -/
def exchanged (m : Mem α) (n1 n2 : Nat) : Mem α := fun j =>
  if n1 = j then { m n2 with data := (m n1).data }
  else if n2 = j then { m n1 with data := (m n2).data }
  else m j

theorem swap_eq (m0 : Mem α) {n1 n2 : Nat} (hne : n1 ≠ n2) :
    let m2 := swapChild (swapChild m0 n1 n2) n2 n1
    swap m0 n1 n2 =
      setParentO (setParentO (setParentO (setParentO (exchanged m2 n1 n2) (m2 n2).left (some n1))
        (m2 n2).right (some n1)) (m2 n1).left (some n2)) (m2 n1).right (some n2) := by
  intro m2
  have hne' := Ne.symm hne
  have key : setRight (setRight (setLeft (setLeft (setParent (setParent (setBlack (setBlack m2 n1 (m2 n2).black)
      n2 (m2 n1).black) n1 (m2 n2).parent) n2 (m2 n1).parent) n1 (m2 n2).left) n2 (m2 n1).left)
      n1 (m2 n2).right) n2 (m2 n1).right = exchanged m2 n1 n2 := by
    funext j
    simp only [setRight_apply, setLeft_apply, setParent_apply, setBlack_apply, exchanged]
    by_cases h1 : n1 = j
    · subst h1; simp [hne']
    · by_cases h2 : n2 = j
      · subst h2; simp [hne]
      · simp [h1, h2]
  have hL : ∀ (m : Mem α) o v j, (setParentO m o v j).left = (m j).left := by
    intro m o v j; rw [setParentO_apply]; split <;> rfl
  have hR : ∀ (m : Mem α) o v j, (setParentO m o v j).right = (m j).right := by
    intro m o v j; rw [setParentO_apply]; split <;> rfl
  have hx1 : (exchanged m2 n1 n2 n1).left = (m2 n2).left := by simp [exchanged]
  have hx2 : (exchanged m2 n1 n2 n1).right = (m2 n2).right := by simp [exchanged]
  have hx3 : (exchanged m2 n1 n2 n2).left = (m2 n1).left := by simp [exchanged, hne]
  have hx4 : (exchanged m2 n1 n2 n2).right = (m2 n1).right := by simp [exchanged, hne]
  have : swap m0 n1 n2 = setParentO (setParentO (setParentO (setParentO (exchanged m2 n1 n2)
      (exchanged m2 n1 n2 n1).left (some n1)) (exchanged m2 n1 n2 n1).right (some n1))
      (exchanged m2 n1 n2 n2).left (some n2)) (exchanged m2 n1 n2 n2).right (some n2) := by
    unfold swap
    simp only [hL, hR]
    rw [← key]
    simp [setRight_apply, setLeft_apply, setParent_apply, setBlack_apply, hne, hne', m2]
  rw [this, hx1, hx2, hx3, hx4]

theorem ctxAddrs_append (c c2 : Ctx α) : ctxAddrs (c ++ c2) = ctxAddrs c ++ ctxAddrs c2 := by
  induction c with
  | nil => rfl
  | cons f c ih => simp [ctxAddrs, ih]

theorem swapChild_eq {m m' : Mem α} {c : Ctx α} {a b : Nat} (hp : (m' a).parent = par c)
    (ho : OkCtx m (some a) c) (ha : a ∉ ctxAddrs c) (he : ∀ i, par c = some i → m' i = m i) :
    swapChild m' a b = relinkPar m' c (some b) := by
  have := relink_lenient (q := some b) ho ha he
  unfold relink at this
  unfold swapChild
  rw [hp]
  exact this

/-- `Node::swap` of a node `i` and the node `s` at the end of the path `p` in its right subtree, which has
no left child: the two exchange their places. -/
theorem swap_ok {h : Heap α} {c p : Ctx α} {b sb : Bool} {l sr : T α} {i s : Nat} {d sd : α}
    (hh : Holds h (plug (p ++ .R b l i d :: c) (.node sb .nil s sd sr))) :
    Ok (swap h.mem i s) none (plug (p ++ .R b l s sd :: c) (.node sb .nil i d sr)) ∧
    ∀ j, j ∉ (plug (p ++ .R b l i d :: c) (.node sb .nil s sd sr)).addrs → swap h.mem i s j = h.mem j := by
  have hok := (Ok_plug _ _ _).1 hh.ok
  have hnd := hh.nodup
  rw [nodup_plug, nodup_node, ctxAddrs_append, List.nodup_append] at hnd
  obtain ⟨⟨np, nic, pic⟩, ⟨-, nsr, -, ssr, -⟩, cd⟩ := hnd
  rw [nodup_cons_ctx] at nic
  simp only [Frame.sib, Frame.addr] at nic
  obtain ⟨nl, nc, il, ic, lc⟩ := nic
  simp only [T.addrs, List.nil_append, List.mem_append, List.mem_cons, not_or, ctxAddrs, Frame.addr, Frame.sib] at cd pic
  obtain ⟨hctx, hs, -, osr⟩ := hok
  simp only [root_node] at hctx
  have hsC : s ∉ ctxAddrs (p ++ .R b l i d :: c) := by
    intro hm; rw [ctxAddrs_append] at hm
    simp only [List.mem_append, ctxAddrs, Frame.addr, Frame.sib, List.mem_cons] at hm
    exact (cd s hm).1 rfl
  have hctx' := hctx
  rw [OkCtx_append, OkCtx] at hctx
  obtain ⟨hpath, hi, ol, hc⟩ := hctx
  have his : i ≠ s := fun e => (cd i (.inr (.inl rfl))).1 e
  have isr : i ∉ sr.addrs := (cd i (.inr (.inl rfl))).2
  have lsr : ∀ j ∈ l.addrs, j ∉ sr.addrs := fun j hj => (cd j (.inr (.inr (.inl hj)))).2
  have csr : ∀ j ∈ ctxAddrs c, j ∉ sr.addrs := fun j hj => (cd j (.inr (.inr (.inr hj)))).2
  have psr : ∀ j ∈ ctxAddrs p, j ∉ sr.addrs := fun j hj => (cd j (.inl hj)).2
  have sl : s ∉ l.addrs := fun hm => (cd s (.inr (.inr (.inl hm)))).1 rfl
  have sc : s ∉ ctxAddrs c := fun hm => (cd s (.inr (.inr (.inr hm)))).1 rfl
  have sp : s ∉ ctxAddrs p := fun hm => (cd s (.inl hm)).1 rfl
  have ip : i ∉ ctxAddrs p := fun hm => pic i hm i (.inl rfl) rfl
  have pl : ∀ j ∈ ctxAddrs p, j ∉ l.addrs := fun j hj hl => pic j hj j (.inr (.inl hl)) rfl
  have pc : ∀ j ∈ ctxAddrs p, j ∉ ctxAddrs c := fun j hj hl => pic j hj j (.inr (.inr hl)) rfl
  -- the two child links
  have e1 : swapChild h.mem i s = relinkPar h.mem c (some s) :=
    swapChild_eq (by rw [hi]) hc ic (fun _ _ => rfl)
  have hparC : ∀ j, par (p ++ .R b l i d :: c) = some j → j ∉ ctxAddrs c := by
    intro j hj hjc
    cases p with
    | nil => simp [par, Frame.addr] at hj; subst hj; exact ic hjc
    | cons f p => exact pc j (by rw [List.cons_append, par] at hj; simp at hj; subst hj; simp [ctxAddrs]) hjc
  have e2 : swapChild (swapChild h.mem i s) s i =
      relinkPar (relinkPar h.mem c (some s)) (p ++ .R b l i d :: c) (some i) := by
    rw [e1]
    refine swapChild_eq ?_ hctx' hsC (fun j hj => ?_)
    · rw [relinkPar_ne (fun e => sc (par_mem e)), hs]
    · exact relinkPar_ne (fun e => hparC j hj (par_mem e))
  have hsw := swap_eq h.mem his
  simp only [e2] at hsw
  generalize hm2 : relinkPar (relinkPar h.mem c (some s)) (p ++ .R b l i d :: c) (some i) = m2 at hsw
  have m2s : m2 s = ⟨sd, sb, par (p ++ .R b l i d :: c), none, sr.root⟩ := by
    rw [← hm2, relinkPar_ne (fun e => hsC (par_mem e)), relinkPar_ne (fun e => sc (par_mem e)), hs]; rfl
  have m2o : ∀ j, par (p ++ .R b l i d :: c) ≠ some j → par c ≠ some j → m2 j = h.mem j := by
    intro j h1 h2; rw [← hm2, relinkPar_ne h1, relinkPar_ne h2]
  simp only [m2s] at hsw
  have srs : sr.root ≠ some s := fun e => ssr (root_mem e)
  have sri : sr.root ≠ some i := fun e => isr (root_mem e)
  have lri : l.root ≠ some i := fun e => il (root_mem e)
  have lrs : l.root ≠ some s := fun e => sl (root_mem e)
  cases p with
  | nil =>
    have m2i : m2 i = ⟨d, b, par c, l.root, some i⟩ := by
      rw [← hm2, List.nil_append, relinkPar_cons]
      simp only [Frame.addr, if_true, relinkCell]
      rw [relinkPar_ne (fun e => ic (par_mem e)), hi]
    simp only [m2i] at hsw
    have hM : ∀ j, j ≠ i → j ≠ s → sr.root ≠ some j → l.root ≠ some j → swap h.mem i s j = relinkPar h.mem c (some s) j := by
      intro j h1 h2 h3 h4
      rw [hsw]
      simp only [setParentO_apply, h3, h4, reduceCtorEq, if_false, Option.some.injEq, Ne.symm h1, exchanged, Ne.symm h2]
      rw [← hm2, List.nil_append, relinkPar_cons]; simp only [Frame.addr, Ne.symm h1, if_false]
    have Mi : swap h.mem i s i = ⟨d, sb, some s, none, sr.root⟩ := by
      rw [hsw]
      simp [setParentO_apply, exchanged, sri, lri, m2s, m2i]
    have Ms : swap h.mem i s s = ⟨sd, b, par c, l.root, some i⟩ := by
      rw [hsw]
      simp [setParentO_apply, exchanged, srs, lrs, his, m2s, m2i]
    have hMf : ∀ j, j ≠ i → j ≠ s → sr.root ≠ some j → l.root ≠ some j → par c ≠ some j → swap h.mem i s j = h.mem j := by
      intro j h1 h2 h3 h4 h5
      rw [hM j h1 h2 h3 h4, relinkPar_ne h5]
    refine ⟨?_, ?_⟩
    · rw [Ok_plug]
      simp only [List.nil_append, root_node, OkCtx, par, Frame.addr]
      refine ⟨⟨Ms, ?_, ?_⟩, Mi, trivial, ?_⟩
      · refine Ok_reparent nl (fun j hj hr => hMf j ?_ ?_ ?_ hr ?_) (fun j hr => ?_) ol
        · rintro rfl; exact il hj
        · rintro rfl; exact sl hj
        · intro e; exact lsr j hj (root_mem e)
        · intro e; exact lc j hj (par_mem e)
        · have hj := root_mem hr
          have h1 : i ≠ j := fun e => il (e ▸ hj)
          have h2 : s ≠ j := fun e => sl (e ▸ hj)
          have h3 : sr.root ≠ some j := fun e => lsr j hj (root_mem e)
          rw [hsw]
          simp only [setParentO_apply, exchanged, h1, h2, h3, hr, if_true, if_false, reduceCtorEq,
            Option.some.injEq]
          rw [m2o j (by simp [par, Frame.addr, h1]) (fun e => lc j hj (par_mem e))]
      · refine OkCtx_relink nc (fun j hj hr => hMf j ?_ ?_ ?_ ?_ hr) ?_ hc
        · rintro rfl; exact ic hj
        · rintro rfl; exact sc hj
        · intro e; exact csr j hj (root_mem e)
        · intro e; exact lc j (root_mem e) hj
        · intro f c' ec
          have hj : f.addr ∈ ctxAddrs c := by rw [ec]; simp [ctxAddrs]
          rw [hM f.addr (by rintro e; exact ic (e ▸ hj)) (by rintro e; exact sc (e ▸ hj))
            (fun e => csr _ hj (root_mem e)) (fun e => lc _ (root_mem e) hj), ec, relinkPar_cons, if_pos rfl]
      · refine Ok_reparent nsr (fun j hj hr => hMf j ?_ ?_ hr ?_ ?_) (fun j hr => ?_) osr
        · rintro rfl; exact isr hj
        · rintro rfl; exact ssr hj
        · intro e; exact lsr j (root_mem e) hj
        · intro e; exact csr j (par_mem e) hj
        · have hj := root_mem hr
          have h1 : i ≠ j := fun e => isr (e ▸ hj)
          have h2 : s ≠ j := fun e => ssr (e ▸ hj)
          have h3 : l.root ≠ some j := fun e => lsr j (root_mem e) hj
          rw [hsw]
          simp only [setParentO_apply, exchanged, h1, h2, h3, hr, if_true, if_false, reduceCtorEq,
            Option.some.injEq]
          rw [m2o j (by simp [par, Frame.addr, h1]) (fun e => csr j (par_mem e) hj)]
    · intro j hj
      rw [mem_plug] at hj
      simp only [List.nil_append, ctxAddrs, T.addrs, Frame.addr, Frame.sib, List.mem_cons, List.mem_append, not_or] at hj
      exact hMf j hj.1.1 hj.2.1 (fun e => hj.2.2 (root_mem e)) (fun e => hj.1.2.1 (root_mem e))
        (fun e => hj.1.2.2 (par_mem e))
  | cons f p =>
    have htop : ∀ j, topOf (some s) (f :: p) = some j → j ∈ ctxAddrs (f :: p) := fun j hj => top_mem hj
    have fmem : f.addr ∈ ctxAddrs (f :: p) := by simp [ctxAddrs]
    have fi : f.addr ≠ i := fun e => ip (e ▸ fmem)
    have hparC' : par (f :: p ++ .R b l i d :: c) = some f.addr := rfl
    have m2i : m2 i = ⟨d, b, par c, l.root, topOf (some s) (f :: p)⟩ := by
      rw [m2o i (by rw [hparC']; simp [fi]) (fun e => ic (par_mem e)), hi]
    simp only [m2i] at hsw
    generalize htp : topOf (some s) (f :: p) = tp at *
    have tpi : tp ≠ some i := fun e => ip (htop i e)
    have tps : tp ≠ some s := fun e => sp (htop s e)
    have hM : ∀ j, j ≠ i → j ≠ s → sr.root ≠ some j → l.root ≠ some j →
        swap h.mem i s j = if tp = some j then { m2 j with parent := some s } else m2 j := by
      intro j h1 h2 h3 h4
      rw [hsw]
      simp only [setParentO_apply, h3, h4, reduceCtorEq, if_false, exchanged, Ne.symm h2, Ne.symm h1]
    have Mi : swap h.mem i s i = ⟨d, sb, some f.addr, none, sr.root⟩ := by
      rw [hsw]
      simp [setParentO_apply, exchanged, sri, lri, tpi, m2s, m2i, par]
    have Ms : swap h.mem i s s = ⟨sd, b, par c, l.root, tp⟩ := by
      rw [hsw]
      simp [setParentO_apply, exchanged, srs, lrs, his, m2s, m2i, tps]
    have hMf : ∀ j, j ≠ i → j ≠ s → sr.root ≠ some j → l.root ≠ some j → tp ≠ some j → f.addr ≠ j → par c ≠ some j →
        swap h.mem i s j = h.mem j := by
      intro j h1 h2 h3 h4 h5 h6 h7
      rw [hM j h1 h2 h3 h4, if_neg h5, m2o j (by rw [hparC']; simp [h6]) h7]
    have htp' : topOf (some i) (f :: p) = tp := by rw [topOf_cons (some i) (some s), htp]
    refine ⟨?_, ?_⟩
    · rw [Ok_plug, OkCtx_append, root_node, htp']
      simp only [root_node, OkCtx, List.cons_append, par]
      refine ⟨⟨?_, Ms, ?_, ?_⟩, Mi, trivial, ?_⟩
      · -- the path
        have hmid := PathOk_top (m := h.mem)
          (m' := fun j => if tp = some j then { h.mem j with parent := some s } else h.mem j) (p' := some s)
          (q := some s) np
          (fun j _ hj => by rw [htp] at hj; simp [hj]) (fun j hj => by rw [htp] at hj; simp [hj]) hpath
        refine PathOk_relink np (fun j hj hfj => ?_) ?_ hmid
        · have h1 : j ≠ i := fun e => ip (e ▸ hj)
          have h2 : j ≠ s := fun e => sp (e ▸ hj)
          rw [hM j h1 h2 (fun e => psr j hj (root_mem e)) (fun e => pl j hj (root_mem e)),
            m2o j (by rw [hparC']; simp [hfj]) (fun e => pc j hj (par_mem e))]
        · have h2 : f.addr ≠ s := fun e => sp (e ▸ fmem)
          have hm2f : m2 f.addr = relinkCell f (some i) (h.mem f.addr) := by
            rw [← hm2, List.cons_append, relinkPar_cons, if_pos rfl, relinkPar_ne (fun e => pc _ fmem (par_mem e))]
          rw [hM f.addr fi h2 (fun e => psr _ fmem (root_mem e)) (fun e => pl _ fmem (root_mem e)), hm2f]
          split
          · cases f <;> rfl
          · rfl
      · refine Ok_reparent nl (fun j hj hr => hMf j ?_ ?_ ?_ hr ?_ ?_ ?_) (fun j hr => ?_) ol
        · rintro rfl; exact il hj
        · rintro rfl; exact sl hj
        · intro e; exact lsr j hj (root_mem e)
        · intro e; exact pl j (htop j e) hj
        · intro e; exact pl j (e ▸ fmem) hj
        · intro e; exact lc j hj (par_mem e)
        · have hj := root_mem hr
          have h1 : i ≠ j := fun e => il (e ▸ hj)
          have h2 : s ≠ j := fun e => sl (e ▸ hj)
          have h3 : sr.root ≠ some j := fun e => lsr j hj (root_mem e)
          have h4 : tp ≠ some j := fun e => pl j (htop j e) hj
          have h5 : f.addr ≠ j := fun e => pl j (e ▸ fmem) hj
          rw [hsw]
          simp only [setParentO_apply, exchanged, h1, h2, h3, h4, hr, if_true, if_false, reduceCtorEq]
          rw [m2o j (by rw [hparC']; simp [h5]) (fun e => lc j hj (par_mem e))]
      · refine OkCtx_relink nc (fun j hj hr => hMf j ?_ ?_ ?_ ?_ ?_ ?_ hr) ?_ hc
        · rintro rfl; exact ic hj
        · rintro rfl; exact sc hj
        · intro e; exact csr j hj (root_mem e)
        · intro e; exact lc j (root_mem e) hj
        · intro e; exact pc j (htop j e) hj
        · intro e; exact pc j (e ▸ fmem) hj
        · intro g c' ec
          have hj : g.addr ∈ ctxAddrs c := by rw [ec]; simp [ctxAddrs]
          have h4 : tp ≠ some g.addr := fun e => pc _ (htop _ e) hj
          have h5 : f.addr ≠ g.addr := fun e => pc _ fmem (e ▸ hj)
          rw [hM g.addr (by rintro e; exact ic (e ▸ hj)) (by rintro e; exact sc (e ▸ hj))
            (fun e => csr _ hj (root_mem e)) (fun e => lc _ (root_mem e) hj), if_neg h4, ← hm2,
            relinkPar_ne (by rw [hparC']; simp [h5]), ec, relinkPar_cons, if_pos rfl]
      · refine Ok_reparent nsr (fun j hj hr => hMf j ?_ ?_ hr ?_ ?_ ?_ ?_) (fun j hr => ?_) osr
        · rintro rfl; exact isr hj
        · rintro rfl; exact ssr hj
        · intro e; exact lsr j (root_mem e) hj
        · intro e; exact psr j (htop j e) hj
        · intro e; exact psr j (e ▸ fmem) hj
        · intro e; exact csr j (par_mem e) hj
        · have hj := root_mem hr
          have h1 : i ≠ j := fun e => isr (e ▸ hj)
          have h2 : s ≠ j := fun e => ssr (e ▸ hj)
          have h3 : l.root ≠ some j := fun e => lsr j (root_mem e) hj
          have h4 : tp ≠ some j := fun e => psr j (htop j e) hj
          have h5 : f.addr ≠ j := fun e => psr j (e ▸ fmem) hj
          rw [hsw]
          simp only [setParentO_apply, exchanged, h1, h2, h3, h4, hr, if_true, if_false, reduceCtorEq]
          rw [m2o j (by rw [hparC']; simp [h5]) (fun e => csr j (par_mem e) hj)]
    · intro j hj
      rw [mem_plug, ctxAddrs_append] at hj
      simp only [List.mem_append, not_or] at hj
      obtain ⟨⟨hj1, hj2⟩, hj3⟩ := hj
      simp only [T.addrs, List.nil_append, List.mem_cons, not_or] at hj3
      simp only [ctxAddrs, Frame.addr, Frame.sib, List.mem_cons, List.mem_append, not_or] at hj2
      exact hMf j hj2.1 hj3.1 (fun e => hj3.2 (root_mem e)) (fun e => hj2.2.1 (root_mem e))
        (fun e => hj1 (htop j e)) (fun e => hj1 (e ▸ fmem)) (fun e => hj2.2.2 (par_mem e))

end Verif.Collections.Tree
