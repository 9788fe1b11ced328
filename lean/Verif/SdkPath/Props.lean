import Verif.SdkPath.Model
import Verif.SdkPath.Spec
/-!
What the operations on device paths give, in terms of instances and nodes.
-/
namespace Verif.SdkPath

/-! ### Writing -/

theorem writePieces_fits : ∀ (ps : List (List UInt8)) (room : Nat), ps.flatten.length ≤ room → writePieces room ps = (ps.flatten, true) := by
  intro ps
  induction ps with
  | nil => intro room _; rfl
  | cons p ps ih =>
    intro room h
    simp only [List.flatten_cons, List.length_append] at h
    unfold writePieces
    rw [if_pos (by omega), ih _ (by omega)]
    rfl

/-- The bytes of a node that is written in full. -/
def Item.bytes (x : Item) : List UInt8 := x.type :: x.sub :: (leBytes 2 x.len ++ x.pieces.flatten)

/-- The length that the header says is what is written. -/
def Item.Exact (x : Item) : Prop := x.len = x.pieces.flatten.length + 4

theorem append_exact {dbg : Bool} {buf : List UInt8} {x : Item} (h : x.Exact) : append dbg buf x = .ok (buf ++ x.bytes) := by
  have hl : x.bytes.length = x.len := by
    unfold Item.bytes
    rw [h]
    simp only [List.length_cons, List.length_append, leBytes_length]
    omega
  have hw : writePieces x.len ([x.type] :: [x.sub] :: leBytes 2 x.len :: x.pieces) = (x.bytes, true) := by
    rw [writePieces_fits]
    · rfl
    · have : ([x.type] :: [x.sub] :: leBytes 2 x.len :: x.pieces).flatten = x.bytes := rfl
      rw [this, hl]
      exact Nat.le_refl _
  unfold append Item.writeInto
  simp only [hw, if_true, hl, Nat.sub_self, List.replicate_zero, List.append_nil]
  rw [if_neg (fun hc => hc.2 rfl)]

theorem appendAll_exact {dbg : Bool} : ∀ (xs : List Item) (buf : List UInt8), (∀ x ∈ xs, x.Exact) → appendAll dbg buf xs = .ok (buf ++ xs.flatMap Item.bytes) := by
  intro xs
  induction xs with
  | nil => intro buf _; simp [appendAll]
  | cons x xs ih =>
    intro buf h
    unfold appendAll
    rw [append_exact (h x (List.mem_cons_self ..))]
    simp only
    rw [ih _ fun y hy => h y (List.mem_cons_of_mem _ hy)]
    simp

theorem endEntire_bytes : endEntire.bytes = [0x7F, 0xFF, 4, 0] := by decide
theorem endInstance_bytes : endInstance.bytes = [0x7F, 0x01, 4, 0] := by decide
theorem endEntire_exact : endEntire.Exact := by unfold Item.Exact; decide
theorem endInstance_exact : endInstance.Exact := by unfold Item.Exact; decide

/-- A node of the specification as one that is written. -/
def Node.item (n : Node) : Item := ⟨n.type, n.sub, n.data.length + 4, [n.data]⟩

theorem node_item_exact (n : Node) : n.item.Exact := by simp [Item.Exact, Node.item]

theorem node_item_bytes (n : Node) : n.item.bytes = n.bytes := by simp [Item.bytes, Node.item, Node.bytes]

/-- C102: from a list of nodes, the path with these nodes in one instance is made, in every build. -/
theorem from_nodes {dbg : Bool} {i : List Node} (hw : ∀ n ∈ i, n.Wf) : fromNodes dbg (i.map Node.item) = .ok (pathBytes [i]) := by
  unfold fromNodes
  rw [appendAll_exact _ _ (by
    intro x hx
    obtain ⟨n, _, rfl⟩ := List.mem_map.1 hx
    exact node_item_exact n)]
  have hb : (i.map Node.item).flatMap Item.bytes = i.flatMap Node.bytes := by
    rw [List.flatMap_map]
    congr 1
    funext n
    exact node_item_bytes n
  simp only [List.nil_append, hb]
  cases hl : (i.map Node.item).getLast? with
  | none =>
    simp only
    rw [append_exact endEntire_exact, endEntire_bytes]
    rfl
  | some x =>
    simp only
    obtain ⟨n, hn, rfl⟩ := List.mem_map.1 (List.mem_of_getLast? hl)
    have : isEndEntire n.item.type n.item.sub = false := by
      have := (hw n hn).2
      simp [isEndEntire, Node.item, this]
    rw [if_neg (by simp [this]), append_exact endEntire_exact, endEntire_bytes]
    rfl

/-- C102: the same if the list ends with the end of the path. -/
theorem from_nodes_ended {dbg : Bool} (i : List Node) : fromNodes dbg (i.map Node.item ++ [endEntire]) = .ok (pathBytes [i]) := by
  unfold fromNodes
  rw [appendAll_exact _ _ (by
    intro x hx
    rcases List.mem_append.1 hx with hx | hx
    · obtain ⟨n, _, rfl⟩ := List.mem_map.1 hx
      exact node_item_exact n
    · rw [List.mem_singleton.1 hx]
      exact endEntire_exact)]
  have hb : (i.map Node.item).flatMap Item.bytes = i.flatMap Node.bytes := by
    rw [List.flatMap_map]
    congr 1
    funext n
    exact node_item_bytes n
  simp only [List.nil_append, List.flatMap_append, hb, List.getLast?_append, List.getLast?_singleton, Option.some_or]
  rw [if_pos (by decide)]
  simp [endEntire_bytes, pathBytes]

/-! ### Reading -/

/-- A node of the specification as one that is read. -/
def Node.raw (n : Node) : Raw := ⟨n.type, n.sub, n.data.length + 4, n.data⟩

theorem nodes_node {n : Node} (h : n.data.length + 4 < 65536) (l : List UInt8) : nodes (n.bytes ++ l) = (n.raw :: (nodes l).1, (nodes l).2) := by
  obtain ⟨a, b, hab⟩ : ∃ a b, leBytes 2 (n.data.length + 4) = [a, b] := ⟨_, _, rfl⟩
  have hv : leVal [a, b] = n.data.length + 4 := by
    rw [← hab]
    exact leVal_leBytes_of_lt (by simpa using h)
  have hb : n.bytes ++ l = n.type :: n.sub :: a :: b :: (n.data ++ l) := by
    unfold Node.bytes
    rw [hab]
    simp
  rw [hb]
  conv => lhs; unfold nodes
  simp only [hv]
  rw [if_neg (by simp), dif_neg (by omega)]
  simp only [Nat.add_sub_cancel, List.take_left, List.drop_left]
  rfl

theorem nodes_list {l : List UInt8} : ∀ (i : List Node), (∀ n ∈ i, n.data.length + 4 < 65536) →
    nodes (i.flatMap Node.bytes ++ l) = (i.map Node.raw ++ (nodes l).1, (nodes l).2) := by
  intro i
  induction i with
  | nil => intro _; simp
  | cons n i ih =>
    intro h
    rw [List.flatMap_cons, List.append_assoc, nodes_node (h n (List.mem_cons_self ..)), ih fun m hm => h m (List.mem_cons_of_mem _ hm)]
    rfl

theorem pathBytes_nodes : ∀ (p : List (List Node)), pathBytes p = (pathNodes p).flatMap Node.bytes
  | [] => rfl
  | [i] => by
    simp only [pathBytes, pathNodes, List.flatMap_append]
    rfl
  | i :: j :: is => by
    simp only [pathBytes, pathNodes, List.flatMap_append, List.flatMap_cons, List.append_assoc]
    rw [pathBytes_nodes (j :: is)]
    rfl

theorem pathNodes_short : ∀ (p : List (List Node)), (∀ i ∈ p, ∀ n ∈ i, n.Wf) → ∀ n ∈ pathNodes p, n.data.length + 4 < 65536
  | [], _, n, hn => by cases hn
  | [i], h, n, hn => by
    rcases List.mem_append.1 hn with hn | hn
    · exact (h i (List.mem_cons_self ..) n hn).1
    · simp only [List.mem_cons, List.not_mem_nil, or_false] at hn
      subst hn
      decide
  | i :: j :: is, h, n, hn => by
    rcases List.mem_append.1 hn with hn | hn
    · exact (h i (List.mem_cons_self ..) n hn).1
    · rcases List.mem_cons.1 hn with rfl | hn
      · decide
      · exact pathNodes_short (j :: is) (fun k hk => h k (List.mem_cons_of_mem _ hk)) n hn

/-- C102: iterating over a path gives its nodes, in order, with the ends. -/
theorem iter_lists {p : List (List Node)} (hw : PathWf p) : nodes (pathBytes p) = ((pathNodes p).map Node.raw, .done) := by
  have := nodes_list (l := []) (pathNodes p) (pathNodes_short p hw.2)
  rw [List.append_nil] at this
  rw [pathBytes_nodes, this]
  unfold nodes
  simp

theorem raw_inj {n m : Node} (h : n.raw = m.raw) : n = m := by
  cases n; cases m
  simp only [Node.raw, Raw.mk.injEq] at h
  simp [h]

theorem map_raw_inj : ∀ {l m : List Node}, l.map Node.raw = m.map Node.raw → l = m
  | [], [], _ => rfl
  | [], _ :: _, h => by cases h
  | _ :: _, [], h => by cases h
  | a :: l, b :: m, h => by
    simp only [List.map_cons, List.cons.injEq] at h
    rw [raw_inj h.1, map_raw_inj h.2]

theorem split_end : ∀ {i j : List Node} {x y : Node} {l m : List Node}, (∀ n ∈ i, n.type ≠ 0x7F) → (∀ n ∈ j, n.type ≠ 0x7F) → x.type = 0x7F → y.type = 0x7F →
    i ++ x :: l = j ++ y :: m → i = j ∧ x = y ∧ l = m
  | [], [], _, _, _, _, _, _, _, _, h => by simpa using h
  | [], b :: j, x, y, l, m, _, hj, hx, _, h => by
    simp only [List.nil_append, List.cons_append, List.cons.injEq] at h
    exact absurd (h.1 ▸ hx) (hj b (List.mem_cons_self ..))
  | a :: i, [], x, y, l, m, hi, _, _, hy, h => by
    simp only [List.nil_append, List.cons_append, List.cons.injEq] at h
    exact absurd (h.1 ▸ hy) (hi a (List.mem_cons_self ..))
  | a :: i, b :: j, x, y, l, m, hi, hj, hx, hy, h => by
    simp only [List.cons_append, List.cons.injEq] at h
    obtain ⟨h1, h2, h3⟩ := split_end (fun n hn => hi n (List.mem_cons_of_mem _ hn)) (fun n hn => hj n (List.mem_cons_of_mem _ hn)) hx hy h.2
    exact ⟨by rw [h.1, h1], h2, h3⟩

theorem pathNodes_inj : ∀ {p q : List (List Node)}, p ≠ [] → q ≠ [] → (∀ i ∈ p, ∀ n ∈ i, n.type ≠ 0x7F) → (∀ i ∈ q, ∀ n ∈ i, n.type ≠ 0x7F) →
    pathNodes p = pathNodes q → p = q
  | [], _, h, _, _, _, _ => absurd rfl h
  | _ :: _, [], _, h, _, _, _ => absurd rfl h
  | [i], [j], _, _, hp, hq, h => by
    obtain ⟨h1, _, _⟩ := split_end (hp i (List.mem_cons_self ..)) (hq j (List.mem_cons_self ..)) rfl rfl h
    rw [h1]
  | [i], j :: k :: q, _, _, hp, hq, h => by
    obtain ⟨_, h2, _⟩ := split_end (hp i (List.mem_cons_self ..)) (hq j (List.mem_cons_self ..)) rfl rfl h
    exact absurd h2 (by decide)
  | i :: k :: p, [j], _, _, hp, hq, h => by
    obtain ⟨_, h2, _⟩ := split_end (hp i (List.mem_cons_self ..)) (hq j (List.mem_cons_self ..)) rfl rfl h
    exact absurd h2 (by decide)
  | i :: i' :: p, j :: j' :: q, _, _, hp, hq, h => by
    obtain ⟨h1, _, h3⟩ := split_end (hp i (List.mem_cons_self ..)) (hq j (List.mem_cons_self ..)) rfl rfl h
    rw [h1, pathNodes_inj (by simp) (by simp) (fun x hx => hp x (List.mem_cons_of_mem _ hx)) (fun x hx => hq x (List.mem_cons_of_mem _ hx)) h3]

/-- C102: two paths are equal (their bytes are compared) exactly if they have the same instances and nodes. -/
theorem equal_iff {p q : List (List Node)} (hp : PathWf p) (hq : PathWf q) : pathBytes p = pathBytes q ↔ p = q := by
  constructor
  · intro h
    have h1 := iter_lists hp
    rw [h, iter_lists hq] at h1
    injection h1 with h1 _
    exact (pathNodes_inj hq.1 hp.1 (fun i hi n hn => (hq.2 i hi n hn).2) (fun i hi n hn => (hp.2 i hi n hn).2) (map_raw_inj h1)).symm
  · rintro rfl
    rfl

/-- C102: the number of nodes, ends included. -/
theorem node_count {dbg : Bool} {p : List (List Node)} (hw : PathWf p) : nodeCount dbg (pathBytes p) = .ok (pathNodes p).length := by
  unfold nodeCount
  rw [iter_lists hw]
  simp [finish]

theorem instance_end : ∀ {p : List (List Node)}, (∀ i ∈ p, ∀ n ∈ i, n.type ≠ 0x7F) → ((∃ n ∈ pathNodes p, n.type = 0x7F ∧ n.sub = 0x01) ↔ 1 < p.length)
  | [], _ => by simp [pathNodes]
  | [i], h => by
    constructor
    · rintro ⟨n, hn, h1, h2⟩
      rcases List.mem_append.1 hn with hn | hn
      · exact absurd h1 (h i (List.mem_cons_self ..) n hn)
      · simp only [List.mem_cons, List.not_mem_nil, or_false] at hn
        subst hn
        exact absurd h2 (by decide)
    · intro h
      simp at h
  | i :: j :: is, _ => by
    constructor
    · intro _; simp
    · intro _
      exact ⟨⟨0x7F, 0x01, []⟩, List.mem_append_right _ (List.mem_cons_self ..), rfl, rfl⟩

/-- C102: a path is multi-instance exactly if it has more than one. -/
theorem multi_instance_iff {dbg : Bool} {p : List (List Node)} (hw : PathWf p) : isMultiInstance dbg (pathBytes p) = .ok (decide (1 < p.length)) := by
  have hi := instance_end (p := p) fun i hi n hn => (hw.2 i hi n hn).2
  unfold isMultiInstance
  rw [iter_lists hw]
  simp only
  by_cases h : 1 < p.length
  · obtain ⟨n, hn, h1, h2⟩ := hi.2 h
    rw [if_pos]
    · simp [h]
    · rw [List.any_eq_true]
      exact ⟨n.raw, List.mem_map.2 ⟨n, hn, rfl⟩, by simp [Node.raw, h1, h2]⟩
  · rw [if_neg]
    · simp [finish, h]
    · rw [List.any_eq_true]
      rintro ⟨r, hr, hc⟩
      obtain ⟨n, hn, rfl⟩ := List.mem_map.1 hr
      refine h (hi.1 ⟨n, hn, ?_⟩)
      simpa [Node.raw] using hc

theorem skip_nodes : ∀ (k : Nat) (ns : List Node), (∀ n ∈ ns, n.data.length + 4 < 65536) → k ≤ ns.length → skip k (ns.flatMap Node.bytes) = some ((ns.drop k).flatMap Node.bytes)
  | 0, ns, _, _ => by simp [skip]
  | k + 1, [], _, h => by simp at h
  | k + 1, n :: ns, hs, h => by
    have hn := hs n (List.mem_cons_self ..)
    obtain ⟨a, b, hab⟩ : ∃ a b, leBytes 2 (n.data.length + 4) = [a, b] := ⟨_, _, rfl⟩
    have hv : leVal [a, b] = n.data.length + 4 := by
      rw [← hab]
      exact leVal_leBytes_of_lt (by simpa using hn)
    have hb : (n :: ns).flatMap Node.bytes = n.type :: n.sub :: a :: b :: (n.data ++ ns.flatMap Node.bytes) := by
      rw [List.flatMap_cons]
      unfold Node.bytes
      rw [hab]
      simp
    rw [hb]
    unfold skip
    simp only [hv]
    rw [if_neg (by simp)]
    simp only [List.drop_succ_cons, List.drop_left]
    exact skip_nodes k ns (fun m hm => hs m (List.mem_cons_of_mem _ hm)) (by simpa using h)

/-- C102: the end of a path from a node on is the path of the last `n` nodes. -/
theorem slice_end {dbg : Bool} {p : List (List Node)} (hw : PathWf p) {n : Nat} (h1 : 1 ≤ n) (hn : n ≤ (pathNodes p).length) :
    sliceEnd dbg (pathBytes p) n = .ok (((pathNodes p).drop ((pathNodes p).length - n)).flatMap Node.bytes) := by
  unfold sliceEnd
  rw [node_count hw]
  simp only
  rw [if_neg (by omega), pathBytes_nodes, skip_nodes _ _ (pathNodes_short p hw.2) (by omega)]

/-- C102: asking for more nodes than there are panics, in every build. -/
theorem slice_end_too_long {dbg : Bool} {p : List (List Node)} (hw : PathWf p) {n : Nat} (hn : (pathNodes p).length < n) : sliceEnd dbg (pathBytes p) n = .panic := by
  unfold sliceEnd
  rw [node_count hw]
  simp only
  rw [if_pos (.inr hn)]

/-! ### Prefixes -/

theorem loop_prefix {dbg : Bool} {x y : Node} {l m : List Raw} {s t : Stop} (hx : x.type = 0x7F) (hy : y.type = 0x7F) : ∀ (i j : List Node),
    (∀ n ∈ i, n.type ≠ 0x7F) → (∀ n ∈ j, n.type ≠ 0x7F) →
    startsWithLoop dbg (i.map Node.raw ++ x.raw :: l) s (j.map Node.raw ++ y.raw :: m) t = .ok (decide (j <+: i))
  | i, [], _, _ => by
    cases i with
    | nil => simp [startsWithLoop, Node.raw, hy]
    | cons a i => simp [startsWithLoop, Node.raw, hy]
  | [], b :: j, _, hj => by
    have hb := hj b (List.mem_cons_self ..)
    simp only [List.map_nil, List.nil_append, List.map_cons, List.cons_append, startsWithLoop]
    rw [if_neg (by simpa [Node.raw] using hb), if_pos]
    · simp
    · simp only [bne_iff_ne, ne_eq]
      intro h
      exact hb (raw_inj h ▸ hx)
  | a :: i, b :: j, hi, hj => by
    have hb := hj b (List.mem_cons_self ..)
    simp only [List.map_cons, List.cons_append, startsWithLoop]
    rw [if_neg (by simpa [Node.raw] using hb)]
    by_cases h : a = b
    · subst h
      rw [if_neg (by simp), loop_prefix hx hy i j (fun n hn => hi n (List.mem_cons_of_mem _ hn)) fun n hn => hj n (List.mem_cons_of_mem _ hn)]
      simp
    · rw [if_pos]
      · have : ¬(b :: j <+: a :: i) := fun hc => h (List.cons_prefix_cons.1 hc).1.symm
        simp [this]
      · simp only [bne_iff_ne, ne_eq]
        intro hc
        exact h (raw_inj hc)

theorem pathNodes_first : ∀ {p : List (List Node)}, p ≠ [] → ∃ x l, x.type = 0x7F ∧ pathNodes p = (p.headD []) ++ x :: l
  | [], h => absurd rfl h
  | [i], _ => ⟨⟨0x7F, 0xFF, []⟩, [], rfl, rfl⟩
  | i :: j :: is, _ => ⟨⟨0x7F, 0x01, []⟩, pathNodes (j :: is), rfl, rfl⟩

/-- C102: a path starts with another exactly if the nodes of the first instance of the other are the first nodes of its first instance. -/
theorem starts_with_iff {dbg : Bool} {p q : List (List Node)} (hp : PathWf p) (hq : PathWf q) :
    startsWith dbg (pathBytes p) (pathBytes q) = .ok (decide (q.headD [] <+: p.headD [])) := by
  unfold startsWith
  rw [iter_lists hp, iter_lists hq]
  obtain ⟨x, l, hx, e⟩ := pathNodes_first hp.1
  obtain ⟨y, m, hy, e'⟩ := pathNodes_first hq.1
  rw [e, e']
  simp only [List.map_append, List.map_cons]
  have hmem : ∀ {p : List (List Node)}, PathWf p → ∀ n ∈ p.headD [], n.type ≠ 0x7F := by
    intro p hp n hn
    obtain ⟨h0, h⟩ := hp
    cases p with
    | nil => exact absurd rfl h0
    | cons i is => exact (h i (List.mem_cons_self ..) n hn).2
  exact loop_prefix hx hy _ _ (hmem hp) (hmem hq)

/-! ### Instances -/

theorem raw_item (n : Node) : n.raw.item = n.item := rfl

theorem item_exact' {n : Node} : n.raw.item.Exact := node_item_exact n

theorem loop_nodes {dbg : Bool} {l : List Raw} {s : Stop} : ∀ (i : List Node) (b : Option (List UInt8)), (∀ n ∈ i, n.type ≠ 0x7F) →
    instancesLoop dbg b (i.map Node.raw ++ l) s = instancesLoop dbg (if i = [] then b else some (b.getD [] ++ i.flatMap Node.bytes)) l s
  | [], b, _ => by simp
  | n :: i, b, h => by
    have hn := h n (List.mem_cons_self ..)
    simp only [List.map_cons, List.cons_append]
    conv => lhs; unfold instancesLoop
    rw [if_neg (by simpa [Node.raw] using hn), append_exact item_exact', raw_item, node_item_bytes]
    simp only
    rw [loop_nodes i _ fun m hm => h m (List.mem_cons_of_mem _ hm)]
    by_cases hi : i = []
    · subst hi; simp
    · rw [if_neg hi, if_neg (by simp)]
      simp

/-- C102: the instances of a path, each as a path of its own. -/
theorem instances_split {dbg : Bool} : ∀ {p : List (List Node)}, PathWf p → instances dbg (pathBytes p) = .ok (p.map fun i => pathBytes [i]) := by
  have key : ∀ (p : List (List Node)), p ≠ [] → (∀ i ∈ p, ∀ n ∈ i, n.type ≠ 0x7F) →
      instancesLoop dbg none ((pathNodes p).map Node.raw) .done = .ok (p.map fun i => pathBytes [i]) := by
    intro p
    induction p with
    | nil => intro h; exact absurd rfl h
    | cons i is ih =>
      intro _ h
      have hfin : ∀ (x : Node) (l : List Raw) (rest : List (List UInt8)), x.type = 0x7F → instancesLoop dbg none l .done = .ok rest →
          instancesLoop dbg none (i.map Node.raw ++ x.raw :: l) .done = .ok (pathBytes [i] :: rest) := by
        intro x l rest hx hl
        rw [loop_nodes i none (h i (List.mem_cons_self ..))]
        conv => lhs; unfold instancesLoop
        rw [if_pos (by simp [Node.raw, hx]), append_exact endEntire_exact, endEntire_bytes, hl]
        simp only
        congr 2
        by_cases hi : i = []
        · subst hi; rfl
        · rw [if_neg hi]; simp [pathBytes]
      cases is with
      | nil =>
        simp only [pathNodes, List.map_append, List.map_cons, List.map_nil]
        exact hfin _ [] [] rfl rfl
      | cons j js =>
        simp only [pathNodes, List.map_append, List.map_cons]
        exact hfin _ _ _ rfl (ih (by simp) fun k hk => h k (List.mem_cons_of_mem _ hk))
  intro p hw
  unfold instances
  rw [iter_lists hw]
  exact key p hw.1 fun i hi n hn => (hw.2 i hi n hn).2

/-! ### Joining -/

theorem pathBytes_append : ∀ (p q : List (List Node)), p ≠ [] → q ≠ [] →
    ∃ b, pathBytes p = b ++ [0x7F, 0xFF, 4, 0] ∧ pathBytes (p ++ q) = b ++ [0x7F, 0x01, 4, 0] ++ pathBytes q
  | [], _, h, _ => absurd rfl h
  | [i], q, _, hq => by
    refine ⟨i.flatMap Node.bytes, rfl, ?_⟩
    cases q with
    | nil => exact absurd rfl hq
    | cons j q => rfl
  | i :: j :: is, q, _, hq => by
    obtain ⟨b, h1, h2⟩ := pathBytes_append (j :: is) q (by simp) hq
    refine ⟨i.flatMap Node.bytes ++ [0x7F, 0x01, 4, 0] ++ b, ?_, ?_⟩
    · simp only [pathBytes, h1, List.append_assoc]
    · show i.flatMap Node.bytes ++ [0x7F, 0x01, 4, 0] ++ pathBytes ((j :: is) ++ q) = _
      rw [h2]
      simp only [List.append_assoc]

/-- C102: appending the instances of a path. -/
theorem append_instances {dbg : Bool} {p q : List (List Node)} (hp : PathWf p) (hq : PathWf q) : appendInstances dbg (pathBytes p) (pathBytes q) = .ok (pathBytes (p ++ q)) := by
  obtain ⟨b, h1, h2⟩ := pathBytes_append p q hp.1 hq.1
  unfold appendInstances
  have hl : (pathBytes p).length = b.length + 4 := by rw [h1]; simp
  rw [if_neg (by omega), if_neg (by omega), append_exact endInstance_exact, endInstance_bytes, hl, h1, h2]
  simp

/-- Joining the last instance of one path with the first of the other. -/
def join : List (List Node) → List (List Node) → List (List Node)
  | [], q => q
  | [i], j :: q => (i ++ j) :: q
  | [i], [] => [i]
  | i :: p, q => i :: join p q

/-- C102: appending a path continues the last instance. -/
theorem append_path {dbg : Bool} : ∀ {p q : List (List Node)}, PathWf p → PathWf q → appendPath dbg (pathBytes p) (pathBytes q) = .ok (pathBytes (join p q)) := by
  have key : ∀ (p q : List (List Node)), p ≠ [] → q ≠ [] → ∃ b, pathBytes p = b ++ [0x7F, 0xFF, 4, 0] ∧ pathBytes (join p q) = b ++ pathBytes q := by
    intro p
    induction p with
    | nil => intro q h; exact absurd rfl h
    | cons i is ih =>
      intro q _ hq
      cases is with
      | nil =>
        cases q with
        | nil => exact absurd rfl hq
        | cons j q =>
          refine ⟨i.flatMap Node.bytes, rfl, ?_⟩
          cases q with
          | nil => simp [join, pathBytes]
          | cons k q => simp [join, pathBytes]
      | cons k is =>
        obtain ⟨b, h1, h2⟩ := ih q (by simp) hq
        refine ⟨i.flatMap Node.bytes ++ [0x7F, 0x01, 4, 0] ++ b, ?_, ?_⟩
        · simp only [pathBytes, h1, List.append_assoc]
        · have hne : join (k :: is) q ≠ [] := by
            cases is with
            | nil => cases q <;> simp [join]
            | cons _ _ => simp [join]
          have : join (i :: k :: is) q = i :: join (k :: is) q := by cases q <;> rfl
          rw [this]
          cases hj : join (k :: is) q with
          | nil => exact absurd hj hne
          | cons x xs =>
            rw [hj] at h2
            simp only [pathBytes, h2, List.append_assoc]
  intro p q hp hq
  obtain ⟨b, h1, h2⟩ := key p q hp.1 hq.1
  unfold appendPath
  have hl : (pathBytes p).length = b.length + 4 := by rw [h1]; simp
  rw [if_neg (by omega), hl, h1, h2]
  simp

/-! ### From memory -/

/-- The bytes at an address. -/
def Holds (m : Nat → UInt8) (p : Nat) (l : List UInt8) : Prop := ∀ i (h : i < l.length), m (p + i) = l[i]

theorem sizeAt_nodes {m : Nat → UInt8} {p : Nat} : ∀ (ns : List Node) (off fuel : Nat), (∀ n ∈ ns, n.data.length + 4 < 65536 ∧ ¬(n.type = 0x7F ∧ n.sub = 0xFF)) →
    Holds m (p + off) (ns.flatMap Node.bytes ++ [0x7F, 0xFF, 4, 0]) → ns.length < fuel →
    sizeAt m p fuel off = some (off + (ns.flatMap Node.bytes ++ [0x7F, 0xFF, 4, 0]).length)
  | _, _, 0, _, _, h => by omega
  | [], off, fuel + 1, _, hm, _ => by
    have h0 := hm 0 (by simp)
    have h1 := hm 1 (by simp)
    simp at h0 h1
    unfold sizeAt
    rw [h0, h1, if_pos (by decide)]
    rfl
  | n :: ns, off, fuel + 1, hs, hm, hf => by
    have hn := hs n (List.mem_cons_self ..)
    obtain ⟨a, b, hab⟩ : ∃ a b, leBytes 2 (n.data.length + 4) = [a, b] := ⟨_, _, rfl⟩
    have hv : leVal [a, b] = n.data.length + 4 := by
      rw [← hab]
      exact leVal_leBytes_of_lt (by simpa using hn.1)
    have hb : (n :: ns).flatMap Node.bytes ++ [0x7F, 0xFF, 4, 0] = n.type :: n.sub :: a :: b :: (n.data ++ (ns.flatMap Node.bytes ++ [0x7F, 0xFF, 4, 0])) := by
      rw [List.flatMap_cons]
      unfold Node.bytes
      rw [hab]
      simp
    rw [hb] at hm ⊢
    have h0 := hm 0 (by simp)
    have h1 := hm 1 (by simp)
    have h2 := hm 2 (by simp)
    have h3 := hm 3 (by simp)
    simp at h0 h1 h2 h3
    unfold sizeAt
    rw [h0, h1, h2, h3, if_neg (by simpa [isEndEntire] using hn.2), hv, sizeAt_nodes ns _ fuel (fun k hk => hs k (List.mem_cons_of_mem _ hk)) _ (by simp at hf; omega)]
    · simp only [List.length_cons, List.length_append]
      congr 1
      omega
    · intro i hi
      have := hm (i + n.data.length + 4) (by simp at hi ⊢; omega)
      rw [show p + (off + (n.data.length + 4)) + i = p + off + (i + n.data.length + 4) by omega, this]
      simp only [List.getElem_cons_succ]
      rw [List.getElem_append_right (by omega)]
      congr 1
      omega

theorem pathNodes_end : ∀ {p : List (List Node)}, p ≠ [] → ∃ ns, pathNodes p = ns ++ [⟨0x7F, 0xFF, []⟩] ∧ (∀ n ∈ ns, (∃ i ∈ p, n ∈ i) ∨ n = ⟨0x7F, 0x01, []⟩)
  | [], h => absurd rfl h
  | [i], _ => ⟨i, rfl, fun n hn => .inl ⟨i, List.mem_cons_self .., hn⟩⟩
  | i :: j :: is, _ => by
    obtain ⟨ns, h1, h2⟩ := pathNodes_end (p := j :: is) (by simp)
    refine ⟨i ++ ⟨0x7F, 0x01, []⟩ :: ns, by simp only [pathNodes, h1, List.append_assoc, List.cons_append], ?_⟩
    intro n hn
    rcases List.mem_append.1 hn with hn | hn
    · exact .inl ⟨i, List.mem_cons_self .., hn⟩
    · rcases List.mem_cons.1 hn with rfl | hn
      · exact .inr rfl
      · rcases h2 n hn with ⟨k, hk, hnk⟩ | h
        · exact .inl ⟨k, List.mem_cons_of_mem _ hk, hnk⟩
        · exact .inr h

/-- C102: a path in memory is found in full, all its instances, whatever follows it. -/
theorem from_pointer {m : Nat → UInt8} {a fuel : Nat} {p : List (List Node)} (hw : PathWf p) (ha : a ≠ 0) (hm : Holds m a (pathBytes p)) (hf : (pathNodes p).length ≤ fuel) :
    tryFromPtr m a fuel = .ok (some (pathBytes p)) := by
  obtain ⟨ns, h1, h2⟩ := pathNodes_end hw.1
  have hb : pathBytes p = ns.flatMap Node.bytes ++ [0x7F, 0xFF, 4, 0] := by
    rw [pathBytes_nodes, h1, List.flatMap_append]
    rfl
  have hs := sizeAt_nodes (m := m) (p := a) ns 0 fuel (by
    intro n hn
    rcases h2 n hn with ⟨i, hi, hni⟩ | rfl
    · have := hw.2 i hi n hni
      exact ⟨this.1, fun hc => this.2 hc.1⟩
    · exact ⟨by decide, by decide⟩) (by rw [← hb]; exact hm) (by rw [h1] at hf; simp at hf; omega)
  unfold tryFromPtr
  rw [if_neg ha, hs, ← hb]
  simp only [Option.map_some, Nat.zero_add]
  congr 2
  apply List.ext_getElem
  · simp
  · intro i hi1 hi2
    simp only [List.getElem_map, List.getElem_range]
    exact hm i hi2

/-! ### What the code does not do -/

/-- The code does not meet the full property: a node with a length of zero makes the search for the end of a path go on forever. -/
theorem zero_length_never_ends {m : Nat → UInt8} {a : Nat} (ha : a ≠ 0) (h0 : m a ≠ 0x7F) (h2 : m (a + 2) = 0) (h3 : m (a + 3) = 0) (fuel : Nat) : tryFromPtr m a fuel = .ok none := by
  have : ∀ fuel, sizeAt m a fuel 0 = none := by
    intro fuel
    induction fuel with
    | zero => rfl
    | succ fuel ih =>
      unfold sizeAt
      rw [if_neg (by simp [isEndEntire, h0])]
      simp only [Nat.add_zero, h2, h3]
      exact ih
  unfold tryFromPtr
  rw [if_neg ha, this]
  rfl

/-- The code does not meet the full property: a node with a length below four makes iterating panic, in every build. -/
theorem short_length_panics (dbg : Bool) (t s k : UInt8) (hk : k.toNat < 4) (rest : List UInt8) :
    nodeCount dbg (t :: s :: k :: 0 :: rest) = .panic ∧ isMultiInstance dbg (t :: s :: k :: 0 :: rest) = .panic := by
  have hv : leVal [k, 0] = k.toNat := by simp [leVal]
  have : nodes (t :: s :: k :: 0 :: rest) = ([], .panic) := by
    unfold nodes
    simp only [hv]
    rw [if_neg (by simp; omega), dif_pos hk]
  unfold nodeCount isMultiInstance
  rw [this]
  exact ⟨rfl, by simp [finish]⟩

/-- The code does not meet the full property: of a path that is damaged, a release build takes the nodes before the damage for the whole path, and a debug build panics. -/
theorem damaged_ends {i : List Node} (hw : ∀ n ∈ i, n.Wf) (t s : UInt8) (rest : List UInt8) (hr : rest.length < 65531) :
    nodeCount false (i.flatMap Node.bytes ++ t :: s :: 0xFF :: 0xFF :: rest) = .ok i.length ∧
    nodeCount true (i.flatMap Node.bytes ++ t :: s :: 0xFF :: 0xFF :: rest) = .panic := by
  have : nodes (t :: s :: 0xFF :: 0xFF :: rest) = ([], .damaged) := by
    unfold nodes
    have hv : leVal [0xFF, 0xFF] = 65535 := by decide
    simp only [hv]
    rw [if_pos (by simp; omega)]
  unfold nodeCount
  rw [nodes_list i fun n hn => (hw n hn).1, this]
  simp [finish]

/-- The code does not meet the full property: only the first instance of the other path counts. -/
theorem starts_with_first_only {dbg : Bool} {i j k : List Node} (hi : ∀ n ∈ i, n.Wf) (hj : ∀ n ∈ j, n.Wf) (hk : ∀ n ∈ k, n.Wf) :
    startsWith dbg (pathBytes [i, j]) (pathBytes [i, k]) = .ok true := by
  have hw : ∀ {a b : List Node}, (∀ n ∈ a, n.Wf) → (∀ n ∈ b, n.Wf) → PathWf [a, b] := by
    intro a b ha hb
    refine ⟨by simp, fun x hx => ?_⟩
    simp only [List.mem_cons, List.not_mem_nil, or_false] at hx
    rcases hx with rfl | rfl
    · exact ha
    · exact hb
  rw [starts_with_iff (hw hi hj) (hw hi hk)]
  simp

/-! ### Examples -/

def examplePath : List (List Node) := [[⟨2, 1, [0xD0, 0x41, 3, 0x0A, 0, 0, 0, 0]⟩, ⟨1, 1, [0, 2]⟩], [], [⟨3, 0x10, [7]⟩]]

theorem examplePath_wf : PathWf examplePath := by
  refine ⟨by simp [examplePath], ?_⟩
  unfold Node.Wf
  decide

example : (instances true (pathBytes examplePath)) = .ok (examplePath.map fun i => pathBytes [i]) := instances_split examplePath_wf

example : pathBytes [[⟨1, 1, [0, 2]⟩]] = [1, 1, 6, 0, 0, 2, 0x7F, 0xFF, 4, 0] := by decide

end Verif.SdkPath
