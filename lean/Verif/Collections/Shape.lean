import Verif.Collections.NodeModel
/-!
Binary trees as mathematical objects, and what it means for the nodes in memory to form one.

`Ok m p t`: the nodes in memory `m` form the tree `t`, whose root has parent `p`.
-/
namespace Verif.Collections.Tree
variable {α : Type}

/-- A binary tree; every node has a colour (`b`: black), the slot it is stored in and its data. -/
inductive T (α : Type) where
  | nil
  | node (b : Bool) (l : T α) (i : Nat) (d : α) (r : T α)
deriving DecidableEq, Repr

namespace T

/-- The slot of the root. -/
def root : T α → Option Nat
  | nil => none
  | node _ _ i _ _ => some i

/-- The slots, in order. -/
def addrs : T α → List Nat
  | nil => []
  | node _ l i _ r => l.addrs ++ i :: r.addrs

/-- The slots and data, in order. -/
def items : T α → List (Nat × α)
  | nil => []
  | node _ l i d r => l.items ++ (i, d) :: r.items

/-- The colour of the root; no node is black. -/
def black : T α → Bool
  | nil => true
  | node b _ _ _ _ => b

def setBlack (b : Bool) : T α → T α
  | nil => nil
  | node _ l i d r => node b l i d r

def size : T α → Nat
  | nil => 0
  | node _ l _ _ r => l.size + 1 + r.size

def height : T α → Nat
  | nil => 0
  | node _ l _ _ r => max l.height r.height + 1

end T

@[simp] theorem root_nil : (T.nil : T α).root = none := rfl
@[simp] theorem root_node (b : Bool) (l : T α) (i : Nat) (d : α) (r : T α) :
    (T.node b l i d r).root = some i := rfl

@[simp] theorem black_nil : (T.nil : T α).black = true := rfl
@[simp] theorem black_node (b : Bool) (l : T α) (i : Nat) (d : α) (r : T α) :
    (T.node b l i d r).black = b := rfl

/-- One step of the path from the root to a subtree: the subtree is the left child (`L`) or the right
child (`R`) of the node described. -/
inductive Frame (α : Type) where
  | L (b : Bool) (i : Nat) (d : α) (r : T α)
  | R (b : Bool) (l : T α) (i : Nat) (d : α)
deriving DecidableEq

namespace Frame
def addr : Frame α → Nat
  | L _ i _ _ => i
  | R _ _ i _ => i
def sib : Frame α → T α
  | L _ _ _ r => r
  | R _ l _ _ => l
def black : Frame α → Bool
  | L b _ _ _ => b
  | R b _ _ _ => b
def setBlack (b : Bool) : Frame α → Frame α
  | L _ i d r => L b i d r
  | R _ l i d => R b l i d
def fill (t : T α) : Frame α → T α
  | L b i d r => .node b t i d r
  | R b l i d => .node b l i d t
end Frame

/-- The path to a subtree, innermost step first. -/
abbrev Ctx (α : Type) := List (Frame α)

/-- The whole tree, given the path and the subtree. -/
def plug : Ctx α → T α → T α
  | [], t => t
  | f :: c, t => plug c (f.fill t)

/-- The slot of the parent. -/
def par : Ctx α → Option Nat
  | [] => none
  | f :: _ => some f.addr

def ctxAddrs : Ctx α → List Nat
  | [] => []
  | f :: c => f.addr :: (f.sib.addrs ++ ctxAddrs c)

/-- The nodes in memory form the tree `t` with parent `p`. -/
def Ok (m : Mem α) (p : Option Nat) : T α → Prop
  | .nil => True
  | .node b l i d r => m i = ⟨d, b, p, l.root, r.root⟩ ∧ Ok m (some i) l ∧ Ok m (some i) r

/-- The nodes in memory form the surroundings `c` of a subtree with root `q`. -/
def OkCtx (m : Mem α) (q : Option Nat) : Ctx α → Prop
  | [] => True
  | .L b i d r :: c => m i = ⟨d, b, par c, q, r.root⟩ ∧ Ok m (some i) r ∧ OkCtx m (some i) c
  | .R b l i d :: c => m i = ⟨d, b, par c, l.root, q⟩ ∧ Ok m (some i) l ∧ OkCtx m (some i) c

/-- The heap holds the tree `t` and nothing is shared. -/
structure Holds (h : Heap α) (t : T α) : Prop where
  root : h.root = t.root
  ok : Ok h.mem none t
  nodup : t.addrs.Nodup

/-! ### Paths -/

theorem plug_append (c c' : Ctx α) (t : T α) : plug (c ++ c') t = plug c' (plug c t) := by
  induction c generalizing t with
  | nil => rfl
  | cons f c ih => simp only [List.cons_append, plug, ih]

theorem fill_root (f : Frame α) (t : T α) : (f.fill t).root = some f.addr := by
  cases f <;> rfl

theorem Ok_fill (m : Mem α) (p : Option Nat) (f : Frame α) (t : T α) :
    Ok m p (f.fill t) ↔
      (m f.addr = (match f with
        | .L b _ d r => ⟨d, b, p, t.root, r.root⟩
        | .R b l _ d => ⟨d, b, p, l.root, t.root⟩) ∧
        Ok m (some f.addr) f.sib) ∧ Ok m (some f.addr) t := by
  cases f <;> simp only [Frame.fill, Ok, Frame.addr, Frame.sib] <;> constructor <;>
    (intro h; simp [h])

theorem OkCtx_cons (m : Mem α) (q : Option Nat) (f : Frame α) (c : Ctx α) :
    OkCtx m q (f :: c) ↔
      (m f.addr = (match f with
        | .L b _ d r => ⟨d, b, par c, q, r.root⟩
        | .R b l _ d => ⟨d, b, par c, l.root, q⟩) ∧
        Ok m (some f.addr) f.sib) ∧ OkCtx m (some f.addr) c := by
  cases f <;> simp only [OkCtx, Frame.addr, Frame.sib, and_assoc]

theorem Ok_plug (m : Mem α) (c : Ctx α) (t : T α) :
    Ok m none (plug c t) ↔ OkCtx m t.root c ∧ Ok m (par c) t := by
  induction c generalizing t with
  | nil => simp [plug, par, OkCtx]
  | cons f c ih =>
    rw [plug, ih, fill_root, Ok_fill, OkCtx_cons, par]
    constructor
    · rintro ⟨h1, h2, h3⟩; exact ⟨⟨h2, h1⟩, h3⟩
    · rintro ⟨⟨h2, h1⟩, h3⟩; exact ⟨h1, h2, h3⟩

theorem root_plug (c : Ctx α) (t : T α) :
    (plug c t).root = (match c.getLast? with | none => t.root | some f => some f.addr) := by
  induction c generalizing t with
  | nil => rfl
  | cons f c ih =>
    rw [plug, ih, fill_root]
    cases c with
    | nil => rfl
    | cons g c => simp [List.getLast?_cons]

theorem root_plug_ne (f : Frame α) (c : Ctx α) (t t' : T α) :
    (plug (f :: c) t).root = (plug (f :: c) t').root := by
  rw [root_plug, root_plug]; simp [List.getLast?_cons]

theorem mem_plug (c : Ctx α) (t : T α) (i : Nat) :
    i ∈ (plug c t).addrs ↔ i ∈ ctxAddrs c ∨ i ∈ t.addrs := by
  induction c generalizing t with
  | nil => simp [plug, ctxAddrs]
  | cons f c ih =>
    rw [plug, ih]
    cases f <;> simp [Frame.fill, T.addrs, ctxAddrs, Frame.addr, Frame.sib] <;> grind

theorem perm_plug (c : Ctx α) (t : T α) : (plug c t).addrs.Perm (ctxAddrs c ++ t.addrs) := by
  induction c generalizing t with
  | nil => exact List.Perm.refl _
  | cons f c ih =>
    refine (ih _).trans ?_
    cases f with
    | L b i d r =>
      simp only [Frame.fill, T.addrs, ctxAddrs, Frame.addr, Frame.sib]
      rw [List.perm_iff_count]; intro a; simp [List.count_append, List.count_cons]; omega
    | R b l i d =>
      simp only [Frame.fill, T.addrs, ctxAddrs, Frame.addr, Frame.sib]
      rw [List.perm_iff_count]; intro a; simp [List.count_append, List.count_cons]; omega

theorem nodup_plug (c : Ctx α) (t : T α) :
    (plug c t).addrs.Nodup ↔ (ctxAddrs c).Nodup ∧ t.addrs.Nodup ∧ ∀ i ∈ ctxAddrs c, i ∉ t.addrs := by
  rw [(perm_plug c t).nodup_iff, List.nodup_append]
  constructor
  · rintro ⟨h1, h2, h3⟩; exact ⟨h1, h2, fun i hi hj => h3 i hi i hj rfl⟩
  · rintro ⟨h1, h2, h3⟩; exact ⟨h1, h2, fun i hi j hj e => h3 i hi (e ▸ hj)⟩

theorem nodup_node (b : Bool) (l : T α) (i : Nat) (d : α) (r : T α) :
    (T.node b l i d r).addrs.Nodup ↔ l.addrs.Nodup ∧ r.addrs.Nodup ∧ i ∉ l.addrs ∧ i ∉ r.addrs ∧
      ∀ j ∈ l.addrs, j ∉ r.addrs := by
  simp only [T.addrs, List.nodup_append, List.nodup_cons, List.mem_cons]
  grind

theorem nodup_cons_ctx (f : Frame α) (c : Ctx α) :
    (ctxAddrs (f :: c)).Nodup ↔ f.sib.addrs.Nodup ∧ (ctxAddrs c).Nodup ∧ f.addr ∉ f.sib.addrs ∧
      f.addr ∉ ctxAddrs c ∧ ∀ j ∈ f.sib.addrs, j ∉ ctxAddrs c := by
  simp only [ctxAddrs, List.nodup_append, List.nodup_cons, List.mem_append]
  grind

theorem root_mem {t : T α} {i : Nat} (h : t.root = some i) : i ∈ t.addrs := by
  cases t with
  | nil => simp [T.root] at h
  | node b l j d r => simp [T.root] at h; subst h; simp [T.addrs]

theorem par_mem {c : Ctx α} {i : Nat} (h : par c = some i) : i ∈ ctxAddrs c := by
  cases c with
  | nil => simp [par] at h
  | cons f c => simp [par] at h; subst h; simp [ctxAddrs]

/-! ### Frame rules -/

theorem Ok_congr {m m' : Mem α} {p : Option Nat} {t : T α} (h : ∀ i ∈ t.addrs, m' i = m i)
    (ho : Ok m p t) : Ok m' p t := by
  induction t generalizing p with
  | nil => trivial
  | node b l i d r ihl ihr =>
    simp only [T.addrs, List.mem_append, List.mem_cons] at h
    obtain ⟨h1, h2, h3⟩ := ho
    exact ⟨by rw [h i (by simp), h1], ihl (fun j hj => h j (by simp [hj])) h2,
      ihr (fun j hj => h j (by simp [hj])) h3⟩

theorem OkCtx_congr {m m' : Mem α} {q : Option Nat} {c : Ctx α} (h : ∀ i ∈ ctxAddrs c, m' i = m i)
    (ho : OkCtx m q c) : OkCtx m' q c := by
  induction c generalizing q with
  | nil => trivial
  | cons f c ih =>
    rw [OkCtx_cons] at ho ⊢
    simp only [ctxAddrs, List.mem_append, List.mem_cons] at h
    exact ⟨⟨by rw [h f.addr (by simp), ho.1.1], Ok_congr (fun j hj => h j (by simp [hj])) ho.1.2⟩,
      ih (fun j hj => h j (by simp [hj])) ho.2⟩

/-- Only the root's parent link changes. -/
theorem Ok_reparent {m m' : Mem α} {p p' : Option Nat} {t : T α} (hn : t.addrs.Nodup)
    (h1 : ∀ i ∈ t.addrs, t.root ≠ some i → m' i = m i)
    (h2 : ∀ i, t.root = some i → m' i = { m i with parent := p' })
    (ho : Ok m p t) : Ok m' p' t := by
  cases t with
  | nil => trivial
  | node b l i d r =>
    obtain ⟨e, ol, or⟩ := ho
    rw [nodup_node] at hn
    simp only [T.addrs, List.mem_append, List.mem_cons, T.root] at h1 h2
    refine ⟨by rw [h2 i rfl, e], Ok_congr (fun j hj => h1 j (by simp [hj]) ?_) ol,
      Ok_congr (fun j hj => h1 j (by simp [hj]) ?_) or⟩
    · intro e; injection e with e; subst e; exact hn.2.2.1 hj
    · intro e; injection e with e; subst e; exact hn.2.2.2.1 hj

/-- Only the colour of the root changes. -/
theorem Ok_recolor {m m' : Mem α} {p : Option Nat} {t : T α} {b : Bool} (hn : t.addrs.Nodup)
    (h1 : ∀ i ∈ t.addrs, t.root ≠ some i → m' i = m i)
    (h2 : ∀ i, t.root = some i → m' i = { m i with black := b })
    (ho : Ok m p t) : Ok m' p (t.setBlack b) := by
  cases t with
  | nil => trivial
  | node b0 l i d r =>
    obtain ⟨e, ol, or⟩ := ho
    rw [nodup_node] at hn
    simp only [T.addrs, List.mem_append, List.mem_cons, T.root] at h1 h2
    refine ⟨by rw [h2 i rfl, e], Ok_congr (fun j hj => h1 j (by simp [hj]) ?_) ol,
      Ok_congr (fun j hj => h1 j (by simp [hj]) ?_) or⟩
    · intro e; injection e with e; subst e; exact hn.2.2.1 hj
    · intro e; injection e with e; subst e; exact hn.2.2.2.1 hj

/-- The cell of the parent after its child link to the subtree is redirected to `q`. -/
def relinkCell (f : Frame α) (q : Option Nat) (c : Cell α) : Cell α :=
  match f with
  | .L .. => { c with left := q }
  | .R .. => { c with right := q }

/-- Only the parent's link to the subtree changes. -/
theorem OkCtx_relink {m m' : Mem α} {q q' : Option Nat} {c : Ctx α} (hn : (ctxAddrs c).Nodup)
    (h1 : ∀ i ∈ ctxAddrs c, par c ≠ some i → m' i = m i)
    (h2 : ∀ f c', c = f :: c' → m' f.addr = relinkCell f q' (m f.addr))
    (ho : OkCtx m q c) : OkCtx m' q' c := by
  cases c with
  | nil => trivial
  | cons f c =>
    rw [OkCtx_cons] at ho ⊢
    rw [nodup_cons_ctx] at hn
    simp only [ctxAddrs, List.mem_append, List.mem_cons, par] at h1
    refine ⟨⟨?_, Ok_congr (fun j hj => h1 j (by simp [hj]) ?_) ho.1.2⟩,
      OkCtx_congr (fun j hj => h1 j (by simp [hj]) ?_) ho.2⟩
    · rw [h2 f c rfl, ho.1.1]; cases f <;> rfl
    · intro e; injection e with e; subst e; exact hn.2.2.1 hj
    · intro e; injection e with e; subst e; exact hn.2.2.2.1 hj

end Verif.Collections.Tree
