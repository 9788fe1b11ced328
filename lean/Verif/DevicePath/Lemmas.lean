import Verif.DevicePath.Spec
namespace Verif.DevicePath
open Spec

theorem node_length (n : Node) : n.bytes.length = n.data.length + 4 := by
  simp [Node.bytes]; omega

theorem readHeader_node {n : Node} (h : n.Wf) (rest : List UInt8) :
    readHeader (n.bytes ++ rest) = some ⟨n.type, n.sub, n.data.length + 4⟩ := by
  have h1 := h.1
  have hv : leVal (leBytes 2 (n.data.length + 4)) = n.data.length + 4 := leVal_leBytes_of_lt (by omega)
  simp only [leBytes] at hv
  simp [Node.bytes, leBytes, readHeader, hv]

theorem readHeader_end (rest : List UInt8) :
    readHeader ([0x7f, 0xff, 0x04, 0x00] ++ rest) = some ⟨0x7f, 0xff, 4⟩ := rfl

theorem drop_node (n : Node) (rest : List UInt8) : (n.bytes ++ rest).drop (n.data.length + 4) = rest := by
  rw [List.drop_left' (node_length n)]

theorem readSlice_append (a rest : List UInt8) (n : Nat) (h : a.length = n) :
    readSlice (a ++ rest) n = some a := by
  subst h; simp [readSlice]

theorem bytes_cons (n : Node) (ns : List Node) : bytes (n :: ns) = n.bytes ++ bytes ns := by
  simp [bytes]

theorem bytes_nil : bytes [] = [0x7f, 0xff, 0x04, 0x00] := rfl

theorem bytes_length_ge (ns : List Node) : 4 ≤ (bytes ns).length := by simp [bytes]

theorem nodeCountLoop_spec (ns : List Node) (hw : ∀ n ∈ ns, n.Wf) (hs : Single ns) (rest : List UInt8)
    (fuel : Nat) (hf : ns.length < fuel) (c z : Nat) :
    nodeCountLoop fuel (bytes ns ++ rest) c z = .ok (c + ns.length + 1, z + (bytes ns).length) := by
  induction ns generalizing fuel c z with
  | nil =>
    obtain ⟨f, rfl⟩ : ∃ f, fuel = f + 1 := ⟨fuel - 1, by simp at hf; omega⟩
    simp [nodeCountLoop, bytes_nil, readHeader_end, TYPE_END, readHeader, leVal]
  | cons n ns ih =>
    obtain ⟨f, rfl⟩ : ∃ f, fuel = f + 1 := ⟨fuel - 1, by simp at hf; omega⟩
    have hn := hw n (by simp)
    have ht : n.type ≠ TYPE_END := hs n (by simp)
    rw [bytes_cons, List.append_assoc]
    simp only [nodeCountLoop, readHeader_node hn, ht, if_false, drop_node]
    rw [ih (fun m hm => hw m (by simp [hm])) (fun m hm => hs m (by simp [hm])) f (by simp at hf; omega)]
    simp only [List.length_cons, List.length_append, node_length, Res.ok.injEq, Prod.mk.injEq]
    omega

theorem asSlice_spec (ns : List Node) (hw : ∀ n ∈ ns, n.Wf) (hs : Single ns) (rest : List UInt8)
    (fuel : Nat) (hf : ns.length < fuel) :
    asSlice fuel (some (bytes ns ++ rest)) = .ok (bytes ns) := by
  simp only [asSlice, nodeCount, nodeCountLoop_spec ns hw hs rest fuel hf, Res.ok_bind, Nat.zero_add]
  rw [readSlice_append _ _ _ rfl]

theorem node_bytes_inj {n m : Node} (h : n.bytes = m.bytes) : n = m := by
  simp only [Node.bytes, List.cons.injEq] at h
  obtain ⟨h1, h2, h3⟩ := h
  have := (List.append_inj h3 (by simp)).2
  cases n; cases m; simp_all

theorem remainingLoop_spec (as bs : List Node) (ha : ∀ n ∈ as, n.Wf) (hb : ∀ n ∈ bs, n.Wf)
    (ra rb : List UInt8) (fuel : Nat) (hf : as.length < fuel) (off c : Nat) :
    remainingLoop fuel (bytes as ++ ra) (bytes bs ++ rb) off c =
      .ok (if as <+: bs then some (off + (as.flatMap Node.bytes).length, c + as.length) else none) := by
  induction as generalizing bs fuel off c with
  | nil =>
    obtain ⟨f, rfl⟩ : ∃ f, fuel = f + 1 := ⟨fuel - 1, by simp at hf; omega⟩
    have hh : ∃ hb', readHeader (bytes bs ++ rb) = some hb' := by
      cases bs with
      | nil => exact ⟨_, readHeader_end rb⟩
      | cons m ms => rw [bytes_cons, List.append_assoc]; exact ⟨_, readHeader_node (hb m (by simp)) _⟩
    obtain ⟨hb', hh⟩ := hh
    have he : readHeader (bytes [] ++ ra) = some ⟨0x7f, 0xff, 4⟩ := readHeader_end ra
    simp [remainingLoop, he, hh, isEnd, TYPE_END, SUBTYPE_ENTIRE]
  | cons n ns ih =>
    obtain ⟨f, rfl⟩ : ∃ f, fuel = f + 1 := ⟨fuel - 1, by simp at hf; omega⟩
    have hn := ha n (by simp)
    have hne : isEnd ⟨n.type, n.sub, n.data.length + 4⟩ = false := by
      have := hn.2
      simp only [isEnd, TYPE_END, SUBTYPE_ENTIRE, Bool.and_eq_false_iff]
      by_cases h : n.type = 0x7f
      · right; exact decide_eq_false (fun h' => this ⟨h, h'⟩)
      · left; exact decide_eq_false h
    cases bs with
    | nil =>
      have he : readHeader (bytes [] ++ rb) = some ⟨0x7f, 0xff, 4⟩ := readHeader_end rb
      rw [bytes_cons, List.append_assoc]
      have hs2 : readSlice (bytes [] ++ rb) 4 = some (bytes []) := readSlice_append _ _ _ rfl
      have hne2 : n.bytes ≠ bytes [] := by
        intro h
        simp only [Node.bytes, bytes_nil, List.cons.injEq] at h
        exact hn.2 ⟨h.1, h.2.1⟩
      simp only [remainingLoop, readHeader_node hn, he, hne, readSlice_append _ _ _ (node_length n), hs2]
      simp [hne2]
    | cons m ms =>
      have hm := hb m (by simp)
      rw [bytes_cons, bytes_cons, List.append_assoc, List.append_assoc]
      simp only [remainingLoop, readHeader_node hn, readHeader_node hm, hne,
        readSlice_append _ _ _ (node_length n), readSlice_append _ _ _ (node_length m), drop_node]
      by_cases hnm : n = m
      · subst hnm
        simp only [ne_eq, not_true, if_false, Bool.false_eq_true]
        rw [ih ms (fun x hx => ha x (by simp [hx])) (fun x hx => hb x (by simp [hx])) f (by simp at hf; omega)]
        simp only [List.cons_prefix_cons, true_and, List.flatMap_cons, List.length_append, List.length_cons,
          node_length]
        split
        · simp only [Res.ok.injEq, Option.some.injEq, Prod.mk.injEq]; omega
        · rfl
      · have : n.bytes ≠ m.bytes := fun h => hnm (node_bytes_inj h)
        simp [this, hnm]

/-- What the walker yields for a node. -/
def Spec.Node.buf (n : Node) : NodeBuf := ⟨⟨n.type, n.sub, n.data.length + 4⟩, n.data⟩

theorem nodeNew_node {n : Node} (h : n.Wf) (rest : List UInt8) : nodeNew (n.bytes ++ rest) = .ok (some n.buf) := by
  simp only [nodeNew, readHeader_node h]
  have hd : (n.bytes ++ rest).drop 4 = n.data ++ rest := by simp [Node.bytes, leBytes]
  simp [hd, readSlice_append, Spec.Node.buf]

theorem walk_spec (ns : List Node) (hw : ∀ n ∈ ns, n.Wf) (rest : List UInt8) (fuel : Nat) (hf : ns.length + 1 < fuel) :
    walk fuel (some (bytes ns ++ rest)) = .ok (ns.map Spec.Node.buf ++ [⟨⟨0x7f, 0xff, 4⟩, []⟩]) := by
  induction ns generalizing fuel with
  | nil =>
    obtain ⟨f, rfl⟩ : ∃ f, fuel = f + 2 := ⟨fuel - 2, by simp at hf; omega⟩
    have : nodeNew (bytes [] ++ rest) = .ok (some ⟨⟨0x7f, 0xff, 4⟩, []⟩) := by
      simp [nodeNew, bytes_nil, readHeader, leVal, readSlice]
    simp [walk, this, isEnd, TYPE_END, SUBTYPE_ENTIRE]
  | cons n ns ih =>
    obtain ⟨f, rfl⟩ : ∃ f, fuel = f + 1 := ⟨fuel - 1, by simp at hf; omega⟩
    have hn := hw n (by simp)
    have hne : isEnd n.buf.header = false := by
      have := hn.2
      simp only [Spec.Node.buf, isEnd, TYPE_END, SUBTYPE_ENTIRE, Bool.and_eq_false_iff]
      by_cases h : n.type = 0x7f
      · right; exact decide_eq_false (fun h' => this ⟨h, h'⟩)
      · left; exact decide_eq_false h
    rw [bytes_cons, List.append_assoc]
    have hd : (n.bytes ++ (bytes ns ++ rest)).drop n.buf.header.length = bytes ns ++ rest := drop_node n _
    simp only [walk, nodeNew_node hn, Res.ok_bind, hne, hd, Bool.false_eq_true, if_false]
    rw [ih (fun m hm => hw m (by simp [hm])) f (by simp at hf; omega)]
    rfl

end Verif.DevicePath
