import Verif.DevicePath.Lemmas
/-!
C31: device path utilities agree with the node-list meaning of a path.
In every theorem `rest`, `ra`, `rb` are whatever bytes happen to follow the path in memory.
-/
namespace Verif.DevicePath
open Spec

/-- C31 (counting): for a well-formed single-instance path, the counts include the end node and the byte
size is the size of the whole wire form. -/
theorem nodeCount_spec (ns : List Node) (hw : ∀ n ∈ ns, n.Wf) (hs : Single ns) (rest : List UInt8)
    (fuel : Nat) (hf : ns.length < fuel) :
    nodeCount fuel (some (bytes ns ++ rest)) = .ok (ns.length + 1, (bytes ns).length) := by
  simp [nodeCount, nodeCountLoop_spec ns hw hs rest fuel hf]

/-- C31 (copying): the copy is the wire form, no more and no less. -/
theorem copy_spec (ns : List Node) (hw : ∀ n ∈ ns, n.Wf) (hs : Single ns) (rest : List UInt8)
    (fuel : Nat) (hf : ns.length < fuel) : copy fuel (some (bytes ns ++ rest)) = .ok (bytes ns) :=
  asSlice_spec ns hw hs rest fuel hf

/-- C31 (concatenation): the result is the wire form of the concatenated node lists. -/
theorem concat_spec (as bs : List Node) (ha : ∀ n ∈ as, n.Wf) (hb : ∀ n ∈ bs, n.Wf) (hsa : Single as) (hsb : Single bs)
    (ra rb : List UInt8) (fuel : Nat) (hfa : as.length < fuel) (hfb : bs.length < fuel) :
    concat fuel (some (bytes as ++ ra)) (some (bytes bs ++ rb)) = .ok (bytes (as ++ bs)) := by
  have h1 := bytes_length_ge as
  have h2 := bytes_length_ge bs
  have h3 : ¬ ((bytes as).length < 4 ∨ (bytes bs).length < 4) := by omega
  simp only [concat, asSlice_spec as ha hsa ra fuel hfa, asSlice_spec bs hb hsb rb fuel hfb, Res.ok_bind, h3, if_false]
  congr 1
  rw [List.take_append_of_le_length (by omega)]
  have : (bytes as).take ((bytes as).length - 4) = as.flatMap Node.bytes := by
    simp only [bytes, List.length_append, List.length_cons, List.length_nil, Nat.reduceAdd, Nat.add_sub_cancel]
    exact List.take_left' rfl
  rw [this]
  simp [bytes]

/-- C31 (remaining): the answer is `Some` exactly when the nodes of `a` are a prefix of those of `b`; then
it gives the number of common nodes and the address in `b` of the path made of the other nodes.
Multi-instance paths are allowed. -/
theorem remaining_spec (as bs : List Node) (ha : ∀ n ∈ as, n.Wf) (hb : ∀ n ∈ bs, n.Wf) (ra rb : List UInt8)
    (fuel : Nat) (hf : as.length < fuel) :
    (∀ cs, bs = as ++ cs → ∃ off, remaining fuel (bytes as ++ ra) (bytes bs ++ rb) = .ok (some (off, as.length)) ∧
      (bytes bs ++ rb).drop off = bytes cs ++ rb) ∧
    ((¬ ∃ cs, bs = as ++ cs) → remaining fuel (bytes as ++ ra) (bytes bs ++ rb) = .ok none) := by
  have h := remainingLoop_spec as bs ha hb ra rb fuel hf 0 0
  constructor
  · rintro cs rfl
    refine ⟨(as.flatMap Node.bytes).length, ?_, ?_⟩
    · rw [remaining, h]; simp
    · simp only [bytes, List.flatMap_append, List.append_assoc]
      exact List.drop_left' rfl
  · intro hn
    rw [remaining, h, if_neg]
    rintro ⟨cs, rfl⟩
    exact hn ⟨cs, rfl⟩

/-- C31 (walker): iterating yields every node with its data, then the end node, then nothing.
Multi-instance paths are allowed. -/
theorem walker_spec (ns : List Node) (hw : ∀ n ∈ ns, n.Wf) (rest : List UInt8) (fuel : Nat) (hf : ns.length + 1 < fuel) :
    walk fuel (some (bytes ns ++ rest)) =
      .ok (ns.map (fun n => ⟨⟨n.type, n.sub, n.data.length + 4⟩, n.data⟩) ++ [⟨⟨0x7f, 0xff, 4⟩, []⟩]) :=
  walk_spec ns hw rest fuel hf

/-- C31 (law used when locating devices): removing `a` from `a ++ b` leaves `b`. -/
theorem remaining_concat (as bs : List Node) (ha : ∀ n ∈ as, n.Wf) (hb : ∀ n ∈ bs, n.Wf) (hsa : Single as)
    (hsb : Single bs) (ra rb : List UInt8) (fuel : Nat) (hfa : as.length < fuel) (hfb : bs.length < fuel) :
    ∃ c off, concat fuel (some (bytes as ++ ra)) (some (bytes bs ++ rb)) = .ok c ∧
      remaining fuel (bytes as ++ ra) c = .ok (some (off, as.length)) ∧ c.drop off = bytes bs := by
  have hc := concat_spec as bs ha hb hsa hsb ra rb fuel hfa hfb
  obtain ⟨off, h1, h2⟩ := (remaining_spec as (as ++ bs) ha
    (fun n hn => (List.mem_append.1 hn).elim (ha n) (hb n)) ra [] fuel hfa).1 bs rfl
  simp only [List.append_nil] at h1 h2
  exact ⟨_, off, hc, h1, h2⟩

/-- A null pointer is reported, not followed. -/
theorem null_rejected (fuel : Nat) : nodeCount fuel none = .err .invalidParameter ∧ copy fuel none = .err .invalidParameter :=
  ⟨rfl, rfl⟩

/-! ### Findings -/

/-- Finding: `device_path_node_count` stops at the first end node of any kind, so for a multi-instance path
count, copy and concat only see the first instance, while `remaining_device_path` and the
walker see the whole path. -/
theorem multi_instance_truncated (as bs : List Node) (ha : ∀ n ∈ as, n.Wf) (hs : Single as) (rest : List UInt8)
    (fuel : Nat) (hf : as.length < fuel) :
    nodeCount fuel (some (bytes (as ++ ⟨0x7f, 0x01, []⟩ :: bs) ++ rest)) =
      .ok (as.length + 1, (as.flatMap Node.bytes).length + 4) := by
  suffices h : ∀ c z, nodeCountLoop fuel (bytes (as ++ ⟨0x7f, 0x01, []⟩ :: bs) ++ rest) c z =
      .ok (c + as.length + 1, z + ((as.flatMap Node.bytes).length + 4)) by
    simpa [nodeCount] using h 0 0
  induction as generalizing fuel with
  | nil =>
    intro c z
    obtain ⟨f, rfl⟩ : ∃ f, fuel = f + 1 := ⟨fuel - 1, by simp at hf; omega⟩
    rw [List.nil_append, bytes_cons, List.append_assoc]
    have hw : Node.Wf ⟨0x7f, 0x01, []⟩ := ⟨by simp, by decide⟩
    simp [nodeCountLoop, readHeader_node hw, TYPE_END]
  | cons n ns ih =>
    intro c z
    obtain ⟨f, rfl⟩ : ∃ f, fuel = f + 1 := ⟨fuel - 1, by simp at hf; omega⟩
    have ht : n.type ≠ TYPE_END := hs n (by simp)
    rw [List.cons_append, bytes_cons, List.append_assoc]
    simp only [nodeCountLoop, readHeader_node (ha n (by simp)), ht, if_false, drop_node]
    rw [ih (fun m hm => ha m (by simp [hm])) (fun m hm => hs m (by simp [hm])) f (by simp at hf; omega)]
    simp only [List.length_cons, List.flatMap_cons, List.length_append, node_length, Res.ok.injEq, Prod.mk.injEq]
    omega

/-- Finding: a node with length 0 makes `device_path_node_count` loop forever. -/
theorem zero_length_hangs (t s : UInt8) (ht : t ≠ 0x7f) (rest : List UInt8) (fuel : Nat) :
    nodeCount fuel (some (t :: s :: 0 :: 0 :: rest)) = .running := by
  suffices h : ∀ c z, nodeCountLoop fuel (t :: s :: 0 :: 0 :: rest) c z = .running from h 0 0
  induction fuel with
  | zero => intro c z; rfl
  | succ f ih =>
    intro c z
    simp [nodeCountLoop, readHeader, leVal, TYPE_END, ht, ih]

/-! ### Non-vacuity -/

def pci (f d : UInt8) : Node := ⟨1, 1, [f, d]⟩
example : (pci 0 1).Wf ∧ Single [pci 0 1, pci 0 2] := ⟨⟨by decide, by decide⟩, by intro n hn; simp at hn; rcases hn with rfl | rfl <;> decide⟩
example : nodeCount 9 (some (bytes [pci 0 1, pci 0 2] ++ [1, 2, 3])) = .ok (3, 16) := by decide
example : remaining 9 (bytes [pci 0 1]) (bytes [pci 0 1, pci 0 2]) = .ok (some (6, 1)) := by decide
example : remaining 9 (bytes [pci 0 2]) (bytes [pci 0 1, pci 0 2]) = .ok none := by decide

end Verif.DevicePath
