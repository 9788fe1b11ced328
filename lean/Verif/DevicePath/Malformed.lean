import Verif.DevicePath.Props
/-! C31, continued: what the utilities do with a path that does not end in the usual end node. -/
namespace Verif.DevicePath
open Spec

/-- Counting and copying stop at the first node of type 0x7F and take its length from its own header: an end
node that carries data is counted and copied in full. -/
theorem nodeCount_long_end (ns : List Node) (hw : ∀ n ∈ ns, n.Wf) (hs : Single ns) (e : Node) (he : e.type = 0x7f)
    (hel : e.data.length + 4 < 65536) (rest : List UInt8) (fuel : Nat) (hf : ns.length < fuel) :
    nodeCount fuel (some (ns.flatMap Node.bytes ++ (e.bytes ++ rest))) =
      .ok (ns.length + 1, (ns.flatMap Node.bytes ++ e.bytes).length) ∧
    copy fuel (some (ns.flatMap Node.bytes ++ (e.bytes ++ rest))) = .ok (ns.flatMap Node.bytes ++ e.bytes) := by
  have hhdr : ∀ rest, readHeader (e.bytes ++ rest) = some ⟨e.type, e.sub, e.data.length + 4⟩ := by
    intro rest
    have hv : leVal (leBytes 2 (e.data.length + 4)) = e.data.length + 4 := leVal_leBytes_of_lt (by omega)
    simp only [leBytes] at hv
    simp [Node.bytes, leBytes, readHeader, hv]
  have key : ∀ c z, nodeCountLoop fuel (ns.flatMap Node.bytes ++ (e.bytes ++ rest)) c z =
      .ok (c + ns.length + 1, z + (ns.flatMap Node.bytes ++ e.bytes).length) := by
    induction ns generalizing fuel with
    | nil =>
      intro c z
      obtain ⟨f, rfl⟩ : ∃ f, fuel = f + 1 := ⟨fuel - 1, by simp at hf; omega⟩
      have hl := node_length e
      simp [nodeCountLoop, hhdr, he, TYPE_END, hl]
    | cons n ns ih =>
      intro c z
      obtain ⟨f, rfl⟩ : ∃ f, fuel = f + 1 := ⟨fuel - 1, by simp at hf; omega⟩
      have hn := hw n (by simp)
      have ht : n.type ≠ TYPE_END := hs n (by simp)
      rw [List.flatMap_cons, List.append_assoc]
      simp only [nodeCountLoop, readHeader_node hn, ht, if_false, drop_node]
      rw [ih (fun m hm => hw m (by simp [hm])) (fun m hm => hs m (by simp [hm])) f (by simp at hf; omega)]
      simp only [List.length_cons, List.length_append, node_length, Res.ok.injEq, Prod.mk.injEq]
      omega
  refine ⟨by simp [nodeCount, key], ?_⟩
  simp only [copy, asSlice, nodeCount, key, Res.ok_bind, Nat.zero_add]
  rw [← List.append_assoc, readSlice_append _ _ _ rfl]

/-- The walker yields the nodes in front of a header whose length field is below 4 and stops there; it
neither loops nor reads on. -/
theorem walker_stops (ns : List Node) (hw : ∀ n ∈ ns, n.Wf) (t s l : UInt8) (hl : l.toNat < 4) (rest : List UInt8)
    (fuel : Nat) (hf : ns.length < fuel) :
    walk fuel (some (ns.flatMap Node.bytes ++ (t :: s :: l :: 0 :: rest))) =
      .ok (ns.map fun n => ⟨⟨n.type, n.sub, n.data.length + 4⟩, n.data⟩) := by
  induction ns generalizing fuel with
  | nil =>
    obtain ⟨f, rfl⟩ : ∃ f, fuel = f + 1 := ⟨fuel - 1, by simp at hf; omega⟩
    have : nodeNew (t :: s :: l :: 0 :: rest) = .ok none := by
      simp [nodeNew, readHeader, leVal, hl]
    simp [walk, this]
  | cons n ns ih =>
    obtain ⟨f, rfl⟩ : ∃ f, fuel = f + 1 := ⟨fuel - 1, by simp at hf; omega⟩
    have hn := hw n (by simp)
    have hne : isEnd n.buf.header = false := by
      have := hn.2
      simp only [Spec.Node.buf, isEnd, TYPE_END, SUBTYPE_ENTIRE, Bool.and_eq_false_iff]
      by_cases h : n.type = 0x7f
      · right; exact decide_eq_false (fun h' => this ⟨h, h'⟩)
      · left; exact decide_eq_false h
    rw [List.flatMap_cons, List.append_assoc]
    have hd : (n.bytes ++ (ns.flatMap Node.bytes ++ (t :: s :: l :: 0 :: rest))).drop n.buf.header.length =
      ns.flatMap Node.bytes ++ (t :: s :: l :: 0 :: rest) := drop_node n _
    simp only [walk, nodeNew_node hn, Res.ok_bind, hne, hd, Bool.false_eq_true, if_false]
    rw [ih (fun m hm => hw m (by simp [hm])) f (by simp at hf; omega)]
    rfl

example : copy 5 (some [1, 1, 6, 0, 9, 9, 0x7f, 0xff, 6, 0, 1, 2, 0xAA]) =
    .ok [1, 1, 6, 0, 9, 9, 0x7f, 0xff, 6, 0, 1, 2] := by decide
example : walk 5 (some [1, 1, 6, 0, 9, 9, 1, 1, 3, 0, 0xAA]) = .ok [⟨⟨1, 1, 6⟩, [9, 9]⟩] := by decide

end Verif.DevicePath
