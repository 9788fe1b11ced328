import Verif.Collections.Remove
/-! The searches, on trees whose keys are in ascending order. -/
namespace Verif.Collections.Tree
variable {α : Type}

/-- Keys strictly ascending. -/
def Asc (key : α → Nat) (xs : List (Nat × α)) : Prop := xs.Pairwise fun a b => key a.2 < key b.2

theorem Asc_append {key : α → Nat} {xs ys : List (Nat × α)} :
    Asc key (xs ++ ys) ↔ Asc key xs ∧ Asc key ys ∧ ∀ a ∈ xs, ∀ b ∈ ys, key a.2 < key b.2 :=
  List.pairwise_append

theorem Asc_cons {key : α → Nat} {x : Nat × α} {ys : List (Nat × α)} :
    Asc key (x :: ys) ↔ (∀ b ∈ ys, key x.2 < key b.2) ∧ Asc key ys :=
  List.pairwise_cons

theorem Asc_node {key : α → Nat} {b : Bool} {l : T α} {i : Nat} {d : α} {r : T α} :
    Asc key (T.node b l i d r).items ↔ Asc key l.items ∧ Asc key r.items ∧
      (∀ e ∈ l.items, key e.2 < key d) ∧ (∀ e ∈ r.items, key d < key e.2) ∧
      ∀ e ∈ l.items, ∀ f ∈ r.items, key e.2 < key f.2 := by
  simp only [T.items, Asc_append, Asc_cons, List.mem_cons]
  constructor
  · rintro ⟨h1, ⟨h2, h3⟩, h4⟩
    exact ⟨h1, h3, fun e he => h4 e he (i, d) (.inl rfl), h2, fun e he f hf => h4 e he f (.inr hf)⟩
  · rintro ⟨h1, h2, h3, h4, h5⟩
    refine ⟨h1, ⟨h4, h2⟩, fun e he f hf => ?_⟩
    rcases hf with rfl | hf
    · exact h3 e he
    · exact h5 e he f hf

/-- The slot of the entry with key `k`. -/
def slotOf (key : α → Nat) (k : Nat) (xs : List (Nat × α)) : Option Nat :=
  (xs.find? (fun e => key e.2 = k)).map (·.1)

/-- The slot of the last entry with key at most `k`. -/
def slotLe (key : α → Nat) (k : Nat) (xs : List (Nat × α)) : Option Nat :=
  ((xs.filter (fun e => key e.2 ≤ k)).getLast?).map (·.1)

theorem slotOf_append (key : α → Nat) (k : Nat) (xs ys : List (Nat × α)) :
    slotOf key k (xs ++ ys) = (slotOf key k xs).or (slotOf key k ys) := by
  simp only [slotOf, List.find?_append]
  cases List.find? (fun e => decide (key e.2 = k)) xs <;> simp

theorem slotOf_none {key : α → Nat} {k : Nat} {xs : List (Nat × α)} (h : ∀ e ∈ xs, key e.2 ≠ k) :
    slotOf key k xs = none := by
  simp only [slotOf, Option.map_eq_none_iff, List.find?_eq_none, decide_eq_true_eq]
  exact h

theorem getNode_ok {key : α → Nat} {m : Mem α} {k : Nat} {t : T α} {p : Option Nat} {fuel : Nat}
    (ho : Ok m p t) (hs : Asc key t.items) (hf : t.height ≤ fuel) :
    getNode key m k fuel t.root = .ok (slotOf key k t.items) := by
  induction t generalizing p fuel with
  | nil => cases fuel <;> rfl
  | node b l i d r ihl ihr =>
    obtain ⟨e, ol, or⟩ := ho
    rw [Asc_node] at hs
    cases fuel with
    | zero => simp [T.height] at hf
    | succ fuel =>
      simp only [T.height] at hf
      simp only [root_node, getNode, e, T.items]
      rw [slotOf_append]
      by_cases h1 : k < key d
      · rw [if_pos h1, ihl ol hs.1 (by omega),
          slotOf_none (xs := (i, d) :: r.items) (by
            intro e he
            rcases List.mem_cons.1 he with rfl | he
            · simp only []; omega
            · have := hs.2.2.2.1 e he; omega)]
        simp
      · rw [if_neg h1]
        have hl : slotOf key k l.items = none :=
          slotOf_none (fun e he => by have := hs.2.2.1 e he; omega)
        rw [hl]
        by_cases h2 : key d < k
        · rw [if_pos h2, ihr or hs.2.1 (by omega)]
          simp only [Option.none_or]
          simp only [slotOf, List.find?_cons, decide_eq_true_eq]
          have : ¬ key d = k := by omega
          simp [this]
        · rw [if_neg h2]
          have : key d = k := by omega
          simp [slotOf, List.find?_cons, this]

theorem slotLe_append (key : α → Nat) (k : Nat) (xs ys : List (Nat × α)) :
    slotLe key k (xs ++ ys) = (slotLe key k ys).or (slotLe key k xs) := by
  simp only [slotLe, List.filter_append, List.getLast?_append]
  cases (List.filter (fun e => decide (key e.2 ≤ k)) ys).getLast? <;> simp

theorem slotLe_none {key : α → Nat} {k : Nat} {xs : List (Nat × α)} (h : ∀ e ∈ xs, k < key e.2) :
    slotLe key k xs = none := by
  have : xs.filter (fun e => decide (key e.2 ≤ k)) = [] := by
    rw [List.filter_eq_nil_iff]; intro a ha; have := h a ha; simp; omega
  simp [slotLe, this]

theorem getClosest_ok {key : α → Nat} {m : Mem α} {k : Nat} {t : T α} {p : Option Nat} {fuel : Nat}
    {cl : Option Nat} (ho : Ok m p t) (hs : Asc key t.items) (hf : t.height ≤ fuel) :
    getClosest key m k fuel t.root cl = .ok ((slotLe key k t.items).or cl) := by
  induction t generalizing p fuel cl with
  | nil => cases fuel <;> simp [getClosest, slotLe, T.items]
  | node b l i d r ihl ihr =>
    obtain ⟨e, ol, or⟩ := ho
    rw [Asc_node] at hs
    cases fuel with
    | zero => simp [T.height] at hf
    | succ fuel =>
      simp only [T.height] at hf
      simp only [root_node, getClosest, e, T.items]
      rw [show l.items ++ (i, d) :: r.items = l.items ++ ([(i, d)] ++ r.items) from rfl, slotLe_append,
        slotLe_append]
      by_cases h1 : k < key d
      · have hr : slotLe key k r.items = none :=
          slotLe_none (fun e he => by have := hs.2.2.2.1 e he; omega)
        have hd : slotLe key k [(i, d)] = none := slotLe_none (by simpa using h1)
        rw [if_pos h1, ihl ol hs.1 (by omega), hr, hd]
        simp
      · rw [if_neg h1]
        have hd : slotLe key k [(i, d)] = some i := by
          have : key d ≤ k := by omega
          simp [slotLe, this]
        by_cases h2 : key d < k
        · rw [if_pos h2, ihr or hs.2.1 (by omega), hd]
          cases slotLe key k r.items <;> simp
        · rw [if_neg h2]
          have hr : slotLe key k r.items = none :=
            slotLe_none (fun e he => by have := hs.2.2.2.1 e he; omega)
          rw [hr, hd]; simp

theorem firstIdx_ok {m : Mem α} {t : T α} {p : Option Nat} {fuel : Nat} (ho : Ok m p t) (hf : t.height ≤ fuel) :
    firstIdx m fuel t.root = .ok (t.items.head?.map (·.1)) := by
  cases t with
  | nil => rfl
  | node b l i d r =>
    obtain ⟨q, sb, s, sd, sr, e, hlo, hm⟩ := find_min (t := .node b l i d r) (by simp)
    simp only [root_node, firstIdx, hm m p fuel i ho rfl hf]
    rw [e, items_plug, hlo]
    rfl

theorem lastIdx_ok {m : Mem α} {t : T α} {p : Option Nat} {fuel : Nat} (ho : Ok m p t) (hf : t.height ≤ fuel) :
    lastIdx m fuel t.root = .ok (t.items.getLast?.map (·.1)) := by
  cases t with
  | nil => rfl
  | node b l i d r =>
    obtain ⟨q, sb, s, sd, sr, e, hlo, hm⟩ := find_max (t := .node b l i d r) (by simp)
    simp only [root_node, lastIdx, hm m p fuel i ho rfl hf]
    rw [e, items_plug, hlo]
    simp [T.items]

theorem dfs_ok {m : Mem α} {t : T α} {p : Option Nat} {fuel : Nat} (ho : Ok m p t) (hf : t.height ≤ fuel) :
    dfs m fuel t.root = .ok (t.items.map (·.2)) := by
  induction t generalizing p fuel with
  | nil => cases fuel <;> rfl
  | node b l i d r ihl ihr =>
    obtain ⟨e, ol, or⟩ := ho
    cases fuel with
    | zero => simp [T.height] at hf
    | succ fuel =>
      simp only [T.height] at hf
      simp only [root_node, dfs, e, ihl ol (show l.height ≤ fuel by omega),
        ihr or (show r.height ≤ fuel by omega), Outcome.ok_bind, T.items]
      simp

theorem height_ok {m : Mem α} {t : T α} {p : Option Nat} {fuel : Nat} (ho : Ok m p t) (hf : t.height ≤ fuel) :
    height m fuel t.root = .ok t.height := by
  induction t generalizing p fuel with
  | nil => cases fuel <;> rfl
  | node b l i d r ihl ihr =>
    obtain ⟨e, ol, or⟩ := ho
    cases fuel with
    | zero => simp [T.height] at hf
    | succ fuel =>
      simp only [T.height] at hf
      simp only [root_node, height, e, ihl ol (show l.height ≤ fuel by omega),
        ihr or (show r.height ≤ fuel by omega), Outcome.ok_bind, T.height]

theorem climbNext_ok {h : Heap α} {c : Ctx α} {t : T α} {n fuel : Nat} (hh : Holds h (plug c t))
    (hn : t.root = some n) (hf : c.length < fuel) :
    climbNext h.mem fuel n = .ok ((hi c).head?.map (·.1)) := by
  induction c generalizing t n fuel with
  | nil =>
    cases fuel with
    | zero => simp at hf
    | succ fuel => simp [climbNext, Rbt.read_parent hh hn, par, hi]
  | cons f c ih =>
    cases fuel with
    | zero => simp at hf
    | succ fuel =>
      simp only [climbNext, Rbt.read_parent hh hn, par]
      cases f with
      | L b i d r =>
        have := Rbt.read_L hh
        simp [Frame.addr, this, hn, hi]
      | R b l i d =>
        have hr := Rbt.read_R hh
        have hne : l.root ≠ some n := by
          intro e
          have hnd := (nodup_plug _ _).1 hh.nodup
          exact hnd.2.2 n (by simp [ctxAddrs, Frame.sib, root_mem e]) (root_mem hn)
        simp only [Frame.addr, hr, hne, if_false, hi]
        exact ih (t := .node b l i d t) hh rfl (by simpa using hf)

theorem climbPrev_ok {h : Heap α} {c : Ctx α} {t : T α} {n fuel : Nat} (hh : Holds h (plug c t))
    (hn : t.root = some n) (hf : c.length < fuel) :
    climbPrev h.mem fuel n = .ok ((lo c).getLast?.map (·.1)) := by
  induction c generalizing t n fuel with
  | nil =>
    cases fuel with
    | zero => simp at hf
    | succ fuel => simp [climbPrev, Rbt.read_parent hh hn, par, lo]
  | cons f c ih =>
    cases fuel with
    | zero => simp at hf
    | succ fuel =>
      simp only [climbPrev, Rbt.read_parent hh hn, par]
      cases f with
      | R b l i d =>
        have := Rbt.read_R hh
        simp [Frame.addr, this, hn, lo]
      | L b i d r =>
        have hr := Rbt.read_L hh
        have hne : r.root ≠ some n := by
          intro e
          have hnd := (nodup_plug _ _).1 hh.nodup
          exact hnd.2.2 n (by simp [ctxAddrs, Frame.sib, root_mem e]) (root_mem hn)
        simp only [Frame.addr, hr, hne, if_false, lo]
        exact ih (t := .node b t i d r) hh rfl (by simpa using hf)

/-- The slot after `n` and the slot before `n`. -/
def slotAfter : List (Nat × α) → Nat → Option Nat
  | [], _ => none
  | (i, _) :: xs, n => if i = n then xs.head?.map (·.1) else slotAfter xs n

def slotBefore (xs : List (Nat × α)) (n : Nat) : Option Nat := slotAfter xs.reverse n

theorem slotAfter_mid {A B : List (Nat × α)} {n : Nat} {d : α} (h : n ∉ A.map (·.1)) :
    slotAfter (A ++ (n, d) :: B) n = B.head?.map (·.1) := by
  induction A with
  | nil => simp [slotAfter]
  | cons x A ih =>
    obtain ⟨i, v⟩ := x
    simp only [List.map_cons, List.mem_cons, not_or] at h
    simp only [List.cons_append, slotAfter, if_neg (Ne.symm h.1)]
    exact ih h.2

theorem slotBefore_mid {A B : List (Nat × α)} {n : Nat} {d : α} (h : n ∉ B.map (·.1)) :
    slotBefore (A ++ (n, d) :: B) n = A.getLast?.map (·.1) := by
  simp only [slotBefore, List.reverse_append, List.reverse_cons, List.append_assoc, List.singleton_append]
  rw [slotAfter_mid (by simpa using h), List.head?_reverse]

theorem next_ok {s : Store α} {rt : Option Nat} {t : T α} {n : Nat} (hh : Holds ⟨s.mem, rt⟩ t) (hn : n ∈ t.addrs)
    (hb : n < s.cap) (hf : t.size ≤ s.cap) : nextIdx s n = .ok (slotAfter t.items n) := by
  obtain ⟨c, b, l, d, r, e⟩ := find_addr hn
  subst e
  have hcell := read_focus hh
  simp only [] at hcell
  have hsz := length_le_size c (.node b l n d r)
  have hnd := hh.nodup
  rw [addrs_eq] at hnd
  have hitems : (plug c (.node b l n d r)).items = (lo c ++ l.items) ++ (n, d) :: (r.items ++ hi c) := by
    simp [items_plug, T.items]
  have hA : n ∉ (lo c ++ l.items).map (·.1) := by
    rw [hitems, List.map_append, List.nodup_append] at hnd
    intro hm
    exact hnd.2.2 n hm n (by simp) rfl
  rw [hitems, slotAfter_mid hA]
  unfold nextIdx
  simp only [Store.get, if_pos hb, hcell]
  cases r with
  | nil =>
    simp only [root_nil, Option.isSome_none, Bool.false_eq_true, if_false, T.items, List.nil_append]
    exact climbNext_ok hh rfl (by simp [T.size] at hsz; omega)
  | node rb rl ri rd rr =>
    simp only [root_node, Option.isSome_some, if_true]
    obtain ⟨q, sb, sn, sd, sr, e, hlo, hm⟩ := find_min (t := .node rb rl ri rd rr) (by simp)
    have hok := ((Ok_plug _ _ _).1 hh.ok).2.2.2
    have hhs := height_le_size (.node rb rl ri rd rr)
    simp only [successor, hcell, root_node]
    rw [hm s.mem _ s.cap ri hok rfl (by simp only [T.size] at hsz hhs; omega), e, items_plug, hlo]
    simp [T.items]

theorem prev_ok {s : Store α} {rt : Option Nat} {t : T α} {n : Nat} (hh : Holds ⟨s.mem, rt⟩ t) (hn : n ∈ t.addrs)
    (hb : n < s.cap) (hf : t.size ≤ s.cap) : prevIdx s n = .ok (slotBefore t.items n) := by
  obtain ⟨c, b, l, d, r, e⟩ := find_addr hn
  subst e
  have hcell := read_focus hh
  simp only [] at hcell
  have hsz := length_le_size c (.node b l n d r)
  have hnd := hh.nodup
  rw [addrs_eq] at hnd
  have hitems : (plug c (.node b l n d r)).items = (lo c ++ l.items) ++ (n, d) :: (r.items ++ hi c) := by
    simp [items_plug, T.items]
  have hB : n ∉ (r.items ++ hi c).map (·.1) := by
    rw [hitems, List.map_append, List.nodup_append, List.map_cons, List.nodup_cons] at hnd
    exact hnd.2.1.1
  rw [hitems, slotBefore_mid hB]
  unfold prevIdx
  simp only [Store.get, if_pos hb, hcell]
  cases l with
  | nil =>
    simp only [root_nil, Option.isSome_none, Bool.false_eq_true, if_false, T.items, List.append_nil]
    exact climbPrev_ok hh rfl (by simp [T.size] at hsz; omega)
  | node rb rl ri rd rr =>
    simp only [root_node, Option.isSome_some, if_true]
    obtain ⟨q, sb, sn, sd, sr, e, hlo, hm⟩ := find_max (t := .node rb rl ri rd rr) (by simp)
    have hok := ((Ok_plug _ _ _).1 hh.ok).2.2.1
    have hhs := height_le_size (.node rb rl ri rd rr)
    simp only [predecessor, hcell, root_node]
    rw [hm s.mem _ s.cap ri hok rfl (by simp only [T.size] at hsz hhs; omega), e, items_plug, hlo]
    simp [T.items]

/-! ### Insertion -/

/-- Hang slot `n` into the empty place at path `c`. -/
def hang (m : Mem α) (c : Ctx α) (n : Nat) : Mem α := setParent (relinkPar m c (some n)) n (par c)

/-- The empty place where a new key goes. -/
def pathTo (key : α → Nat) (k : Nat) : T α → Ctx α → Ctx α
  | .nil, c => c
  | .node b l i d r, c =>
    if k < key d then pathTo key k l (.L b i d r :: c) else pathTo key k r (.R b l i d :: c)

theorem addNode_ok {key : α → Nat} {h : Heap α} {n : Nat} : ∀ {t : T α} {c : Ctx α} {fuel cur : Nat},
    t.root = some cur → Holds h (plug c t) → Asc key t.items → t.height ≤ fuel →
    (∀ e ∈ lo c, key e.2 < key (h.mem n).data) → (∀ e ∈ hi c, key (h.mem n).data < key e.2) →
    ((∃ e ∈ t.items, key e.2 = key (h.mem n).data) ∧ addNode key h.mem n fuel cur = .err .alreadyExists) ∨
    ((∀ e ∈ t.items, key e.2 ≠ key (h.mem n).data) ∧
      ∃ f c', f :: c' = pathTo key (key (h.mem n).data) t c ∧ plug c t = plug (f :: c') .nil ∧ addNode key h.mem n fuel cur = .ok (hang h.mem (f :: c') n) ∧
      (∀ e ∈ lo (f :: c'), key e.2 < key (h.mem n).data) ∧ ∀ e ∈ hi (f :: c'), key (h.mem n).data < key e.2) := by
  intro t
  induction t with
  | nil => intro c fuel cur hr; simp at hr
  | node b l i d r ihl ihr =>
    intro c fuel cur hr hh hs hf hlo hhi
    simp at hr; subst hr
    have hcell := read_focus hh
    rw [Asc_node] at hs
    cases fuel with
    | zero => simp [T.height] at hf
    | succ fuel =>
      simp only [T.height] at hf
      simp only [addNode, hcell]
      by_cases h1 : key (h.mem n).data < key d
      · rw [if_pos h1]
        have hhi' : ∀ e ∈ hi (.L b i d r :: c), key (h.mem n).data < key e.2 := by
          intro e he
          simp only [hi, List.cons_append, List.mem_cons, List.mem_append] at he
          rcases he with rfl | he | he
          · exact h1
          · have := hs.2.2.2.1 e he; omega
          · exact hhi e he
        have hrne : ∀ e ∈ (i, d) :: r.items, key e.2 ≠ key (h.mem n).data := by
          intro e he
          have := hhi' e (by simp only [hi, List.cons_append, List.mem_cons, List.mem_append] at he ⊢; grind)
          omega
        cases hl : l.root with
        | none =>
          have hl' : l = .nil := root_isNone.1 (by simp [hl])
          subst hl'
          right
          refine ⟨fun e he => hrne e (by simpa [T.items] using he), .L b i d r, c, by simp [pathTo, h1], rfl, ?_,
            hlo, hhi'⟩
          simp only [hang, par, Frame.addr]
          congr 2
          funext j
          simp only [relinkPar_cons, setLeft_apply, Frame.addr, relinkCell]
          rfl
        | some li =>
          rcases ihl (c := .L b i d r :: c) hl hh hs.1 (show l.height ≤ fuel by omega) hlo hhi' with ⟨⟨e, he, hk⟩, h2⟩ | ⟨h3, f, c', h40, h4, h5, h6, h7⟩
          · left; exact ⟨⟨e, by simp [T.items, he], hk⟩, h2⟩
          · right
            refine ⟨fun e he => ?_, f, c', by rw [h40]; simp [pathTo, h1], h4, h5, h6, h7⟩
            simp only [T.items, List.mem_append] at he
            rcases he with he | he
            · exact h3 e he
            · exact hrne e he
      · rw [if_neg h1]
        by_cases h2 : key d < key (h.mem n).data
        · rw [if_pos h2]
          have hlo' : ∀ e ∈ lo (.R b l i d :: c), key e.2 < key (h.mem n).data := by
            intro e he
            simp only [lo, List.mem_append, List.mem_singleton] at he
            rcases he with he | he | rfl
            · exact hlo e he
            · have := hs.2.2.1 e he; omega
            · exact h2
          have hlne : ∀ e, e ∈ l.items ∨ e = (i, d) → key e.2 ≠ key (h.mem n).data := by
            intro e he
            have := hlo' e (by simp only [lo, List.mem_append, List.mem_singleton]; exact .inr he)
            omega
          cases hr : r.root with
          | none =>
            have hl' : r = .nil := root_isNone.1 (by simp [hr])
            subst hl'
            right
            refine ⟨fun e he => hlne e (by simpa [T.items] using he), .R b l i d, c, by simp [pathTo, h1], rfl, ?_,
              hlo', hhi⟩
            simp only [hang, par, Frame.addr]
            congr 2
            funext j
            simp only [relinkPar_cons, setRight_apply, Frame.addr, relinkCell]
            rfl
          | some ri =>
            rcases ihr (c := .R b l i d :: c) hr hh hs.2.1 (show r.height ≤ fuel by omega) hlo' hhi with ⟨⟨e, he, hk⟩, h2⟩ | ⟨h3, f, c', h40, h4, h5, h6, h7⟩
            · left; exact ⟨⟨e, by simp [T.items, he], hk⟩, h2⟩
            · right
              refine ⟨fun e he => ?_, f, c', by rw [h40]; simp [pathTo, h1], h4, h5, h6, h7⟩
              simp only [T.items, List.mem_append, List.mem_cons] at he
              rcases he with he | he | he
              · exact hlne e (.inl he)
              · exact hlne e (.inr he)
              · exact h3 e he
        · rw [if_neg h2]
          left
          exact ⟨⟨(i, d), by simp [T.items], by simp only []; omega⟩, rfl⟩

theorem hang_ok {h : Heap α} {f : Frame α} {c : Ctx α} {n : Nat} {d : α} {b : Bool}
    (hh : Holds h (plug (f :: c) .nil)) (hn : n ∉ (plug (f :: c) .nil).addrs)
    (hc : h.mem n = ⟨d, b, none, none, none⟩) :
    Holds ⟨hang h.mem (f :: c) n, h.root⟩ (plug (f :: c) (.node b .nil n d .nil)) ∧
    ∀ j, j ∉ (plug (f :: c) (.node b .nil n d .nil)).addrs → hang h.mem (f :: c) n j = h.mem j := by
  rw [mem_plug] at hn
  simp only [T.addrs, List.not_mem_nil, or_false] at hn
  have hnd := (nodup_plug _ _).1 hh.nodup
  have hok := (Ok_plug _ _ _).1 hh.ok
  refine ⟨⟨?_, ?_, ?_⟩, ?_⟩
  · simp only []; rw [hh.root]; exact root_plug_ne _ _ _ _
  · simp only []
    rw [Ok_plug]
    constructor
    · have h1 := OkCtx_relinkPar (q' := some n) hnd.1 (fun i _ => rfl) hok.1
      refine OkCtx_congr (fun i hi => ?_) h1
      have : n ≠ i := fun e => hn (e ▸ hi)
      simp only [hang, setParent_apply, this, if_false]
    · refine ⟨?_, trivial, trivial⟩
      have : f.addr ≠ n := fun e => hn (by simp [ctxAddrs, e])
      simp [hang, setParent_apply, relinkPar_cons, this, hc]
  · rw [nodup_plug]
    refine ⟨hnd.1, by simp [T.addrs], fun i hi => ?_⟩
    simp only [T.addrs, List.nil_append, List.mem_singleton]
    exact fun e => hn (e ▸ hi)
  · intro j hj
    rw [mem_plug, not_or] at hj
    simp only [T.addrs, List.nil_append, List.mem_singleton] at hj
    have : f.addr ≠ j := fun e => hj.1 (by simp [ctxAddrs, e])
    simp [hang, setParent_apply, relinkPar_cons, this, Ne.symm hj.2]

end Verif.Collections.Tree
