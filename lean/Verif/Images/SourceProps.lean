import Verif.Images.SourceSpec
import Verif.DevicePath.Lemmas
/-! C125: where the bytes of an image come from, and who is asked about them. -/
namespace Verif.Images.Source
open Verif.DevicePath Verif.DevicePath.Spec

variable {σ ν α β : Type} {env : Env σ}

/-! ### Running -/

theorem run_bind (x : M σ α) (f : α → M σ β) (s : St σ) : (x >>= f) s = M.bind x f s := rfl
theorem run_pure (a : α) (s : St σ) : (pure a : M σ α) s = (.ok a, s) := rfl

theorem bind_ok {x : M σ α} {f : α → M σ β} {s s' : St σ} {a : α} (h : x s = (.ok a, s')) : (x >>= f) s = f a s' := by
  rw [run_bind, M.bind, h]
theorem bind_err {x : M σ α} {f : α → M σ β} {s s' : St σ} {e : Nat} (h : x s = (.err e, s')) : (x >>= f) s = (.err e, s') := by
  rw [run_bind, M.bind, h]
theorem bind_fault {x : M σ α} {f : α → M σ β} {s s' : St σ} (h : x s = (.fault, s')) : (x >>= f) s = (.fault, s') := by
  rw [run_bind, M.bind, h]
theorem bind_panic {x : M σ α} {f : α → M σ β} {s s' : St σ} (h : x s = (.panic, s')) : (x >>= f) s = (.panic, s') := by
  rw [run_bind, M.bind, h]
theorem bind_ret (a : α) (f : α → M σ β) (s : St σ) : (M.ret a >>= f) s = f a s := rfl
theorem bind_ask (g : σ → α) (f : α → M σ β) (s : St σ) : (M.ask g >>= f) s = f (g s.ext) s := rfl
theorem bind_call (c : Call) (g : σ → α × σ) (f : α → M σ β) (s : St σ) :
    (M.call c g >>= f) s = f (g s.ext).1 ⟨(g s.ext).2, s.calls ++ [c]⟩ := rfl
theorem bind_check_ok (f : Unit → M σ β) (s : St σ) : (M.check SUCCESS >>= f) s = f () s := rfl
theorem bind_alloc {room n : Nat} (h : n ≤ room) (f : Unit → M σ β) (s : St σ) : (M.alloc room n >>= f) s = f () s := by
  rw [bind_ok (x := M.alloc room n) (a := ()) (s' := s)]
  unfold M.alloc; rw [if_pos h]; rfl
theorem bind_fill (d : List UInt8) (f : List UInt8 → M σ β) (s : St σ) : (M.fill d.length d >>= f) s = f d s := by
  rw [bind_ok (x := M.fill d.length d) (a := d) (s' := s)]
  unfold M.fill; rw [if_pos (Nat.le_refl _)]; simp [M.ret]

/-! ### What is called -/

/-- `x` only adds calls of a kind. -/
def Adds (P : Call → Prop) (x : M σ α) : Prop := ∀ s, ∃ l, (x s).2.calls = s.calls ++ l ∧ ∀ c ∈ l, P c

theorem adds_ret {P : Call → Prop} (a : α) : Adds (σ := σ) P (M.ret a) := fun s => ⟨[], by simp [M.ret], by simp⟩
theorem adds_fail {P : Call → Prop} (e : Nat) : Adds (σ := σ) P (M.fail e : M σ α) := fun s => ⟨[], by simp [M.fail], by simp⟩
theorem adds_panic {P : Call → Prop} : Adds (σ := σ) P (M.panic : M σ α) := fun s => ⟨[], by simp [M.panic], by simp⟩
theorem adds_fault {P : Call → Prop} : Adds (σ := σ) P (M.fault : M σ α) := fun s => ⟨[], by simp [M.fault], by simp⟩
theorem adds_running {P : Call → Prop} : Adds (σ := σ) P (M.running : M σ α) := fun s => ⟨[], by simp [M.running], by simp⟩
theorem adds_ask {P : Call → Prop} (f : σ → α) : Adds P (M.ask f) := fun s => ⟨[], by simp [M.ask], by simp⟩
theorem adds_call {P : Call → Prop} (c : Call) (f : σ → α × σ) (h : P c) : Adds P (M.call c f) := fun s => ⟨[c], rfl, by simpa using h⟩
theorem adds_check {P : Call → Prop} (st : Nat) : Adds (σ := σ) P (M.check st) := by
  unfold M.check; split
  · exact adds_ret _
  · exact adds_fail _
theorem adds_ofExcept {P : Call → Prop} (r : Except Nat α) : Adds (σ := σ) P (M.ofExcept r) := by
  cases r
  · exact adds_fail _
  · exact adds_ret _
theorem adds_alloc {P : Call → Prop} (r n : Nat) : Adds (σ := σ) P (M.alloc r n) := by
  unfold M.alloc; split
  · exact adds_ret _
  · exact adds_panic
theorem adds_fill {P : Call → Prop} (n : Nat) (d : List UInt8) : Adds (σ := σ) P (M.fill n d) := by
  unfold M.fill; split
  · exact adds_ret _
  · exact adds_fault
theorem adds_bind {P : Call → Prop} {x : M σ α} {f : α → M σ β} (hx : Adds P x) (hf : ∀ a, Adds P (f a)) : Adds P (x >>= f) := by
  intro s
  obtain ⟨l, hl, hp⟩ := hx s
  rw [run_bind, M.bind]
  cases hr : x s with
  | mk r s1 =>
    rw [hr] at hl
    cases r with
    | ok a =>
      obtain ⟨l2, h2, p2⟩ := hf a s1
      exact ⟨l ++ l2, by rw [h2, hl, List.append_assoc], fun c hc => (List.mem_append.1 hc).elim (hp c) (p2 c)⟩
    | err e => exact ⟨l, hl, hp⟩
    | panic => exact ⟨l, hl, hp⟩
    | fault => exact ⟨l, hl, hp⟩
    | running => exact ⟨l, hl, hp⟩
theorem adds_attempt {P : Call → Prop} {x : M σ α} (hx : Adds P x) : Adds P (M.attempt x) := by
  intro s
  obtain ⟨l, hl, hp⟩ := hx s
  unfold M.attempt
  cases hr : x s with
  | mk r s1 => rw [hr] at hl; cases r <;> exact ⟨l, hl, hp⟩
theorem adds_node {P : Call → Prop} (p : Path) : Adds (σ := σ) P (node p) := by
  unfold node; split
  · exact adds_ret _
  · exact adds_fault
  · exact adds_panic
  · exact adds_fault
  · exact adds_running
theorem adds_lift {P : Call → Prop} (r : DevicePath.Res α) : Adds (σ := σ) P (lift r) := by
  cases r
  · exact adds_ret _
  · exact adds_fail _
  · exact adds_panic
  · exact adds_fault
  · exact adds_running

theorem looks_getInfo (f : Nat) : Adds (Call.looks · = true) (getInfo env f) := by
  unfold getInfo
  refine adds_bind (adds_call _ _ rfl) fun r => ?_
  dsimp only
  split
  · refine adds_bind (adds_alloc _ _) fun _ => adds_bind (adds_call _ _ rfl) fun _ => adds_bind (adds_fill _ _) fun _ => adds_bind (adds_check _) fun _ => adds_ret _
  · split
    · exact adds_fail _
    · exact adds_fail _

theorem looks_getSize (f : Nat) : Adds (Call.looks · = true) (getSize env f) := by
  unfold getSize
  refine adds_bind (looks_getInfo f) fun b => ?_
  split
  · exact adds_fail _
  · exact adds_ret _
theorem looks_getAttribute (f : Nat) : Adds (Call.looks · = true) (getAttribute env f) := by
  unfold getAttribute
  refine adds_bind (looks_getInfo f) fun b => ?_
  split
  · exact adds_fail _
  · exact adds_ret _

theorem looks_readFile (f : Nat) : Adds (Call.looks · = true) (readFile env f) := by
  unfold readFile
  refine adds_bind (looks_getAttribute f) fun a => ?_
  split
  · exact adds_fail _
  · refine adds_bind (looks_getSize f) fun n => adds_bind (adds_alloc _ _) fun _ => adds_bind (adds_call _ _ rfl) fun _ => adds_bind (adds_check _) fun _ =>
      adds_bind (adds_call _ _ rfl) fun _ => adds_bind (adds_fill _ _) fun _ => adds_bind (adds_check _) fun _ => ?_
    split
    · exact adds_panic
    · exact adds_ret _

theorem looks_openFile (f : Nat) (ws : List Nat) : Adds (Call.looks · = true) (openFile env f ws) := by
  unfold openFile
  split
  · exact adds_fault
  · refine adds_bind (adds_call _ _ rfl) fun _ => adds_bind (adds_check _) fun _ => ?_
    split
    · exact adds_fail _
    · exact adds_ret _

theorem looks_openVolume (h : Nat) : Adds (Call.looks · = true) (openVolume env h) := by
  unfold openVolume
  refine adds_bind (adds_ask _) fun _ => adds_bind (adds_ofExcept _) fun _ => ?_
  split
  · exact adds_fail _
  · refine adds_bind (adds_call _ _ rfl) fun _ => adds_bind (adds_check _) fun _ => ?_
    split
    · exact adds_fail _
    · exact adds_ret _

theorem looks_openAll (fuel : Nat) : ∀ (p : Path) (f : Nat), Adds (Call.looks · = true) (openAll env fuel p f) := by
  induction fuel with
  | zero => intro p f; exact adds_fault
  | succ n ih =>
    intro p f
    unfold openAll
    refine adds_bind (adds_node _) fun r => ?_
    split
    · exact adds_ret _
    · split
      · exact adds_bind (looks_openFile _ _) fun _ => ih _ _
      · split
        · exact adds_ret _
        · exact adds_fail _

theorem looks_fromSfs (p : Path) : Adds (Call.looks · = true) (fromSfs env p) := by
  unfold fromSfs
  exact adds_bind (adds_ask _) fun _ => adds_bind (adds_ofExcept _) fun _ => adds_bind (looks_openVolume _) fun _ => adds_bind (looks_openAll _ _ _) fun _ =>
    adds_bind (looks_readFile _) fun _ => adds_ret _

theorem looks_fileGuid (p : Path) : Adds (σ := σ) (Call.looks · = true) (fileGuid p) := by
  unfold fileGuid
  refine adds_bind (adds_node _) fun r => ?_
  split
  · exact adds_fail _
  · split
    · exact adds_fail _
    · split
      · exact adds_fail _
      · exact adds_ret _

theorem looks_fromFv (dbg : Bool) (p : Path) : Adds (Call.looks · = true) (fromFv env dbg p) := by
  unfold fromFv
  refine adds_bind (adds_ask _) fun _ => adds_bind (adds_ofExcept _) fun _ => adds_bind (looks_fileGuid _) fun _ => adds_bind (adds_ask _) fun _ =>
    adds_bind (adds_ofExcept _) fun _ => ?_
  split
  · split
    · exact adds_panic
    · exact adds_fail _
  · refine adds_bind (adds_call _ _ rfl) fun _ => adds_bind (adds_check _) fun _ => ?_
    split
    · exact adds_fault
    · exact adds_ret _

theorem looks_fromLoadFile (g : Proto) (pol : Bool) (p : Path) : Adds (Call.looks · = true) (fromLoadFile env g pol p) := by
  unfold fromLoadFile
  split
  · exact adds_fail _
  · split
    · exact adds_fail _
    · refine adds_bind (adds_ask _) fun _ => adds_bind (adds_ofExcept _) fun _ => adds_bind (adds_ask _) fun _ => adds_bind (adds_ofExcept _) fun _ => ?_
      split
      · exact adds_fail _
      · refine adds_bind (adds_call _ _ rfl) fun _ => ?_
        dsimp only
        split
        · exact adds_bind (adds_alloc _ _) fun _ => adds_bind (adds_call _ _ rfl) fun _ => adds_bind (adds_fill _ _) fun _ => adds_bind (adds_check _) fun _ => adds_ret _
        · split
          · exact adds_fail _
          · exact adds_fail _

theorem looks_byPath (dbg pol : Bool) (p : Option Path) : Adds (Call.looks · = true) (byPath env dbg pol p) := by
  unfold byPath
  split
  · exact adds_fail _
  · refine adds_bind (adds_attempt (looks_fromFv _ _)) fun r => ?_
    split
    · exact adds_ret _
    · refine adds_bind (adds_attempt (looks_fromSfs _)) fun r => ?_
      split
      · exact adds_ret _
      · refine adds_bind ?_ fun r => ?_
        · split
          · exact adds_ret _
          · exact adds_attempt (looks_fromLoadFile _ _ _)
        · split
          · exact adds_ret _
          · refine adds_bind (adds_attempt (looks_fromLoadFile _ _ _)) fun r => ?_
            split
            · exact adds_ret _
            · exact adds_fail _

theorem none_keptPath (fuel : Nat) (p : Option Path) (d : Option Nat) : Adds (fun _ => False) (keptPath env fuel p d) := by
  unfold keptPath
  refine adds_bind ?_ fun r => ?_
  · unfold fixedPath
    split
    · exact adds_ret _
    · exact adds_ret _
    · refine adds_bind (adds_ask _) fun r => ?_
      split
      · exact adds_ret _
      · exact adds_bind (adds_lift _) fun _ => adds_ret _
  · split
    · exact adds_ret _
    · exact adds_bind (adds_lift _) fun _ => adds_ret _

/-! ### Files -/

theorem words_flat (ws : List Nat) (h : ∀ w ∈ ws, w < 65536) : words (ws.flatMap (leBytes 2)) = ws := by
  induction ws with
  | nil => rfl
  | cons w ws ih =>
    have h2 : leBytes 2 w = [UInt8.ofNat (w % 256), UInt8.ofNat (w / 256 % 256)] := by simp [leBytes]
    have hv : leVal (leBytes 2 w) = w := leVal_leBytes_of_lt (by have := h w (by simp); omega)
    rw [List.flatMap_cons]
    rw [h2] at hv ⊢
    simp only [List.cons_append, List.nil_append, words]
    rw [hv, ih (fun x hx => h x (by simp [hx]))]

theorem takeWhile_name (nm : List Nat) (h : ∀ w ∈ nm, 0 < w) : (nm ++ [0]).takeWhile (· ≠ 0) = nm := by
  induction nm with
  | nil => rfl
  | cons w ws ih =>
    have := h w (by simp)
    rw [List.cons_append, List.takeWhile_cons, if_pos (by simp; omega), ih (fun x hx => h x (by simp [hx]))]

theorem name_nameBytes {nm : List Nat} (h : NameOk nm) : name (words (nameBytes nm)) = some nm := by
  unfold nameBytes
  rw [words_flat _ (by
    intro w hw
    rcases List.mem_append.1 hw with hw | hw
    · exact (h.1 w hw).2
    · simp at hw; omega)]
  unfold name
  rw [if_pos (by simp), takeWhile_name nm (fun w hw => (h.1 w hw).1)]

theorem flat_length (ws : List Nat) : (ws.flatMap (leBytes 2)).length = 2 * ws.length := by
  induction ws with
  | nil => rfl
  | cons w ws ih => rw [List.flatMap_cons, List.length_append, ih, leBytes_length, List.length_cons]; omega

theorem fileNode_wf {nm : List Nat} (h : NameOk nm) : (fileNode nm).Wf := by
  refine ⟨?_, by rintro ⟨h, -⟩; cases h⟩
  unfold fileNode nameBytes
  rw [flat_length, List.length_append]
  have := h.2
  simp only [List.length_cons, List.length_nil]
  omega

section
variable {fs : Fs ν} {sfs : Nat} (S : Serves env sfs fs)

theorem getInfo_spec (s : St σ) (f : Nat) (v : ν) (p : Nat) (ho : S.opened s.ext f = some (v, p)) (hr : (S.info v).length ≤ env.room) :
    ∃ s', getInfo env f s = (.ok (S.info v), s') ∧ S.opened s'.ext = S.opened s.ext := by
  obtain ⟨d, e1, h1, k1⟩ := S.info_size s.ext f v p ho
  obtain ⟨e2, h2, k2⟩ := S.info_data e1 f v p (by rw [k1]; exact ho)
  refine ⟨⟨e2, s.calls ++ [.getInfo f 0] ++ [.getInfo f (S.info v).length]⟩, ?_, by rw [k2, k1]⟩
  unfold getInfo
  rw [bind_call, h1]
  dsimp only
  rw [if_pos rfl, bind_alloc hr, bind_call, h2]
  dsimp only
  rw [bind_fill, bind_check_ok]
  rfl

theorem getSize_spec (s : St σ) (f : Nat) (v : ν) (p : Nat) (c : List UInt8) (ho : S.opened s.ext f = some (v, p)) (hr : (S.info v).length ≤ env.room)
    (hc : fs.entry v = .file c) :
    ∃ s', getSize env f s = (.ok c.length, s') ∧ S.opened s'.ext = S.opened s.ext := by
  obtain ⟨s', h, k⟩ := getInfo_spec S s f v p ho hr
  refine ⟨s', ?_, k⟩
  have hi := S.is_info v
  have hl := hi.long
  unfold getSize
  rw [bind_ok h, word64, if_pos (by omega), hi.size c hc]
  rfl

theorem getAttribute_spec (s : St σ) (f : Nat) (v : ν) (p : Nat) (ho : S.opened s.ext f = some (v, p)) (hr : (S.info v).length ≤ env.room) :
    ∃ a s', getAttribute env f s = (.ok a, s') ∧ S.opened s'.ext = S.opened s.ext ∧ a.testBit 4 = decide (fs.entry v = .dir) := by
  obtain ⟨s', h, k⟩ := getInfo_spec S s f v p ho hr
  have hi := S.is_info v
  have hl := hi.long
  refine ⟨_, s', ?_, k, hi.directory⟩
  unfold getAttribute
  rw [bind_ok h, word64, if_pos (by omega)]
  rfl

theorem and_directory (a : Nat) : (a &&& DIRECTORY ≠ 0) ↔ a.testBit 4 = true := by
  have hd : DIRECTORY = 2 ^ 4 := rfl
  rw [hd]
  constructor
  · intro h
    cases hb : a.testBit 4
    · exact absurd (Nat.eq_of_testBit_eq (fun i => by
        rw [Nat.testBit_and, Nat.zero_testBit, Nat.testBit_two_pow]
        by_cases h4 : 4 = i
        · subst h4; simp [hb]
        · simp [h4])) h
    · rfl
  · intro hb h
    have := congrArg (fun n => n.testBit 4) h
    simp only [Nat.testBit_and, Nat.zero_testBit, Nat.testBit_two_pow_self, hb, Bool.and_true] at this
    cases this

theorem readFile_spec (s : St σ) (f : Nat) (v : ν) (p : Nat) (c : List UInt8) (ho : S.opened s.ext f = some (v, p)) (hr : (S.info v).length ≤ env.room)
    (hc : fs.entry v = .file c) (hroom : c.length ≤ env.room) :
    ∃ s', readFile env f s = (.ok c, s') ∧ S.opened s'.ext f ≠ none ∧ ∀ g, g ≠ f → S.opened s'.ext g = S.opened s.ext g := by
  obtain ⟨a, s1, h1, k1, hd⟩ := getAttribute_spec S s f v p ho hr
  obtain ⟨s2, h2, k2⟩ := getSize_spec S s1 f v p c (by rw [k1]; exact ho) hr hc
  obtain ⟨e3, h3, o3, k3⟩ := S.seeks s2.ext f v p 0 (by rw [k2, k1]; exact ho)
  obtain ⟨e4, h4, o4, k4⟩ := S.reads e3 f v 0 c c.length o3 hc
  rw [List.drop_zero, List.take_length] at h4 o4
  refine ⟨⟨e4, s2.calls ++ [.setPosition f 0] ++ [.readFile f c.length]⟩, ?_, by rw [o4]; exact Option.some_ne_none _, ?_⟩
  · unfold readFile
    rw [bind_ok h1, if_neg (by rw [and_directory, hd, hc]; simp), bind_ok h2, bind_alloc hroom, bind_call, h3]
    dsimp only
    rw [bind_check_ok, bind_call, h4]
    dsimp only
    rw [bind_fill, bind_check_ok, if_neg (Nat.lt_irrefl _), List.take_length]
    rfl
  · intro g hg
    rw [k4 g hg, k3 g hg, k2, k1]

theorem readDir_spec (s : St σ) (f : Nat) (v : ν) (p : Nat) (ho : S.opened s.ext f = some (v, p)) (hr : (S.info v).length ≤ env.room)
    (hc : fs.entry v = .dir) : ∃ s', readFile env f s = (.err NOT_FOUND, s') := by
  obtain ⟨a, s1, h1, k1, hd⟩ := getAttribute_spec S s f v p ho hr
  refine ⟨s1, ?_⟩
  unfold readFile
  rw [bind_ok h1, if_pos (by rw [and_directory, hd, hc]; simp)]
  rfl

theorem node_file {nm : List Nat} (hn : NameOk nm) (rest : List UInt8) (s : St σ) :
    node ((fileNode nm).bytes ++ rest) s = (.ok (some (fileNode nm).buf), s) := by
  unfold node
  rw [nodeNew_node (fileNode_wf hn)]
  rfl

theorem node_end (rest : List UInt8) (s : St σ) : node (bytes [] ++ rest) s = (.ok (some ⟨⟨0x7f, 0xff, 4⟩, []⟩), s) := by
  unfold node
  have : nodeNew (bytes [] ++ rest) = .ok (some ⟨⟨0x7f, 0xff, 4⟩, []⟩) := by simp [nodeNew, bytes_nil, readHeader, leVal, readSlice]
  rw [this]; rfl

theorem openFile_spec (s : St σ) (f : Nat) (v w : ν) (p : Nat) (nm : List Nat) (hn : NameOk nm) (ho : S.opened s.ext f = some (v, p)) (hc : fs.child v nm = some w) :
    ∃ f' s', openFile env f (words (nameBytes nm)) s = (.ok f', s') ∧ S.opened s.ext f' = none ∧ S.opened s'.ext f' = some (w, 0) ∧
      ∀ g, g ≠ f' → S.opened s'.ext g = S.opened s.ext g := by
  obtain ⟨f', e, h, h0, hf, hn', hk⟩ := S.opens s.ext f v p nm w ho hc
  refine ⟨f', ⟨e, s.calls ++ [.openFile f nm MODE_READ 0]⟩, ?_, hf, hn', hk⟩
  unfold openFile
  rw [name_nameBytes hn]
  dsimp only
  rw [bind_call, h]
  dsimp only
  rw [bind_check_ok, if_neg h0]
  rfl

theorem openAll_spec (names : List (List Nat)) : ∀ (s : St σ) (f : Nat) (v w : ν) (p fuel : Nat) (rest : List UInt8) (_ : ∀ nm ∈ names, NameOk nm)
    (_ : S.opened s.ext f = some (v, p)) (_ : fs.find v names = some w) (_ : names.length < fuel),
    ∃ f' q s', openAll env fuel (bytes (names.map fileNode) ++ rest) f s = (.ok f', s') ∧ S.opened s'.ext f' = some (w, q) ∧
      (f' = f ∨ S.opened s.ext f' = none) ∧ ∀ g, S.opened s.ext g ≠ none → S.opened s'.ext g = S.opened s.ext g := by
  induction names with
  | nil =>
    intro s f v w p fuel rest _ ho hf hfu
    obtain ⟨n, rfl⟩ : ∃ n, fuel = n + 1 := ⟨fuel - 1, by simp at hfu; omega⟩
    simp only [Fs.find, Option.some.injEq] at hf
    subst hf
    refine ⟨f, p, s, ?_, ho, Or.inl rfl, fun _ _ => rfl⟩
    unfold openAll
    rw [List.map_nil, bind_ok (node_end rest s)]
    rfl
  | cons nm ns ih =>
    intro s f v w p fuel rest hok ho hf hfu
    obtain ⟨n, rfl⟩ : ∃ n, fuel = n + 1 := ⟨fuel - 1, by simp at hfu; omega⟩
    cases hc : fs.child v nm with
    | none => rw [Fs.find, hc] at hf; cases hf
    | some u =>
      rw [Fs.find, hc] at hf
      dsimp only at hf
      have hn := hok nm (by simp)
      obtain ⟨f1, s1, h1, a1, b1, c1⟩ := openFile_spec S s f v u p nm hn ho hc
      obtain ⟨f2, q, s2, h2, a2, b2, c2⟩ := ih s1 f1 u w 0 n rest (fun m hm => hok m (by simp [hm])) b1 hf (by simp at hfu; omega)
      have hnew : ∀ g, S.opened s.ext g ≠ none → S.opened s1.ext g = S.opened s.ext g := fun g hg =>
        c1 g (fun e => hg (by rw [e]; exact a1))
      refine ⟨f2, q, s2, ?_, a2, ?_, ?_⟩
      · unfold openAll
        rw [List.map_cons, bytes_cons, List.append_assoc, bind_ok (node_file hn _ s)]
        dsimp only
        rw [if_pos ⟨rfl, rfl⟩]
        have hd : ((fileNode nm).bytes ++ (bytes (ns.map fileNode) ++ rest)).drop (fileNode nm).buf.header.length = bytes (ns.map fileNode) ++ rest :=
          drop_node _ _
        have hw : words (fileNode nm).buf.data = words (nameBytes nm) := rfl
        rw [hd, hw, bind_ok h1, h2]
      · rcases b2 with rfl | b2
        · exact Or.inr a1
        · right
          by_cases hg : S.opened s.ext f2 = none
          · exact hg
          · rw [hnew f2 hg] at b2; exact absurd b2 hg
      · intro g hg
        rw [c2 g (by rw [hnew g hg]; exact hg), hnew g hg]

theorem openVolume_spec (s : St σ) (h : Nat) (hi : env.iface s.ext h .simpleFileSystem = .ok sfs) (h0 : sfs ≠ 0) :
    ∃ f s', openVolume env h s = (.ok f, s') ∧ S.opened s.ext f = none ∧ S.opened s'.ext f = some (fs.root, 0) ∧
      ∀ g, g ≠ f → S.opened s'.ext g = S.opened s.ext g := by
  obtain ⟨f, e, hv, hf, a, b, c⟩ := S.volume s.ext
  refine ⟨f, ⟨e, s.calls ++ [.openVolume sfs]⟩, ?_, a, b, c⟩
  unfold openVolume
  rw [bind_ask, hi]
  show (M.ret sfs >>= _) s = _
  rw [bind_ret]
  dsimp only
  rw [if_neg h0, bind_call, hv]
  dsimp only
  rw [bind_check_ok, if_neg hf]
  rfl

theorem bind_ofExcept (a : α) (f : α → M σ β) (s : St σ) : (M.ofExcept (.ok a) >>= f) s = f a s := rfl

/-- **The file that the path names is what is read**: for a device that serves a tree of files, and a path behind the device's whose nodes are the names of a file of that tree, the result is the
content of this file, all of it. Files that were open are untouched; but the volume, which was not open before, is open now. -/
theorem file_bytes (s : St σ) (path : Path) (dev : Nat) (names : List (List Nat)) (rest : List UInt8) (v : ν) (c : List UInt8)
    (hl : env.locate s.ext .simpleFileSystem path = .ok (bytes (names.map fileNode) ++ rest, dev)) (hi : env.iface s.ext dev .simpleFileSystem = .ok sfs)
    (h0 : sfs ≠ 0) (hn : ∀ nm ∈ names, NameOk nm) (hf : fs.find fs.root names = some v) (hc : fs.entry v = .file c) (hroom : c.length ≤ env.room)
    (hinfo : (S.info v).length ≤ env.room) :
    ∃ s', fromSfs env path s = (.ok (c, dev), s') ∧ (∀ g, S.opened s.ext g ≠ none → S.opened s'.ext g = S.opened s.ext g) ∧
      ∃ g, S.opened s.ext g = none ∧ S.opened s'.ext g ≠ none := by
  obtain ⟨r, s1, h1, a1, b1, c1⟩ := openVolume_spec S s dev hi h0
  have hlen : ∀ l : List Node, l.length ≤ (bytes l).length := by
    intro l
    induction l with
    | nil => simp
    | cons n l ih => rw [bytes_cons, List.length_append, node_length, List.length_cons]; omega
  obtain ⟨f2, q, s2, h2, a2, b2, c2⟩ := openAll_spec S names s1 r fs.root v 0 ((bytes (names.map fileNode) ++ rest).length + 1) rest hn b1 hf
    (by have := hlen (names.map fileNode); rw [List.length_map] at this; rw [List.length_append]; omega)
  obtain ⟨s3, h3, a3, c3⟩ := readFile_spec S s2 f2 v q c a2 hinfo hc hroom
  have hnew : ∀ g, S.opened s.ext g ≠ none → S.opened s1.ext g = S.opened s.ext g := fun g hg => c1 g (fun e => hg (by rw [e]; exact a1))
  refine ⟨s3, ?_, ?_, r, a1, ?_⟩
  · unfold fromSfs
    rw [bind_ask, hl, bind_ofExcept]
    dsimp only
    rw [bind_ok h1, bind_ok h2, bind_ok h3]
    rfl
  · intro g hg
    have hg1 : S.opened s1.ext g ≠ none := by rw [hnew g hg]; exact hg
    have hne : g ≠ f2 := by
      rintro rfl
      rcases b2 with h | h
      · exact hg (by rw [h]; exact a1)
      · exact hg1 h
    rw [c3 g hne, c2 g hg1, hnew g hg]
  · by_cases hrf : r = f2
    · rw [hrf]; exact a3
    · rw [c3 r hrf, c2 r (by rw [b1]; exact Option.some_ne_none _), b1]; exact Option.some_ne_none _

/-- A directory is not read. -/
theorem directory_refused (s : St σ) (path : Path) (dev : Nat) (names : List (List Nat)) (rest : List UInt8) (v : ν)
    (hl : env.locate s.ext .simpleFileSystem path = .ok (bytes (names.map fileNode) ++ rest, dev)) (hi : env.iface s.ext dev .simpleFileSystem = .ok sfs)
    (h0 : sfs ≠ 0) (hn : ∀ nm ∈ names, NameOk nm) (hf : fs.find fs.root names = some v) (hc : fs.entry v = .dir)
    (hinfo : (S.info v).length ≤ env.room) :
    (fromSfs env path s).1 = .err NOT_FOUND := by
  obtain ⟨r, s1, h1, a1, b1, c1⟩ := openVolume_spec S s dev hi h0
  have hlen : ∀ l : List Node, l.length ≤ (bytes l).length := by
    intro l
    induction l with
    | nil => simp
    | cons n l ih => rw [bytes_cons, List.length_append, node_length, List.length_cons]; omega
  obtain ⟨f2, q, s2, h2, a2, b2, c2⟩ := openAll_spec S names s1 r fs.root v 0 ((bytes (names.map fileNode) ++ rest).length + 1) rest hn b1 hf
    (by have := hlen (names.map fileNode); rw [List.length_map] at this; rw [List.length_append]; omega)
  obtain ⟨s3, h3⟩ := readDir_spec S s2 f2 v q a2 hinfo hc
  unfold fromSfs
  rw [bind_ask, hl, bind_ofExcept]
  dsimp only
  rw [bind_ok h1, bind_ok h2, bind_err h3]

theorem openAll_missing (names : List (List Nat)) : ∀ (s : St σ) (f : Nat) (v : ν) (p fuel : Nat) (rest : List UInt8) (_ : ∀ nm ∈ names, NameOk nm)
    (_ : S.opened s.ext f = some (v, p)) (_ : fs.find v names = none) (_ : names.length < fuel),
    (openAll env fuel (bytes (names.map fileNode) ++ rest) f s).1 = .err NOT_FOUND := by
  induction names with
  | nil => intro s f v p fuel rest _ _ hf; cases hf
  | cons nm ns ih =>
    intro s f v p fuel rest hok ho hf hfu
    obtain ⟨n, rfl⟩ : ∃ n, fuel = n + 1 := ⟨fuel - 1, by simp at hfu; omega⟩
    have hn := hok nm (by simp)
    unfold openAll
    rw [List.map_cons, bytes_cons, List.append_assoc, bind_ok (node_file hn _ s)]
    dsimp only
    rw [if_pos ⟨rfl, rfl⟩]
    have hd : ((fileNode nm).bytes ++ (bytes (ns.map fileNode) ++ rest)).drop (fileNode nm).buf.header.length = bytes (ns.map fileNode) ++ rest :=
      drop_node _ _
    have hw : words (fileNode nm).buf.data = words (nameBytes nm) := rfl
    rw [hd, hw]
    cases hc : fs.child v nm with
    | none =>
      have hm := S.missing s.ext f v p nm ho hc
      have : openFile env f (words (nameBytes nm)) s = (.err NOT_FOUND, ⟨(env.openFile s.ext f nm MODE_READ 0).2, s.calls ++ [.openFile f nm MODE_READ 0]⟩) := by
        unfold openFile
        rw [name_nameBytes hn]
        dsimp only
        rw [bind_call]
        cases hr : env.openFile s.ext f nm MODE_READ 0 with
        | mk r e =>
          rw [hr] at hm
          obtain ⟨st, f'⟩ := r
          dsimp only at hm ⊢
          subst hm
          rfl
      rw [bind_err this]
    | some u =>
      rw [Fs.find, hc] at hf
      dsimp only at hf
      obtain ⟨f1, s1, h1, a1, b1, c1⟩ := openFile_spec S s f v u p nm hn ho hc
      rw [bind_ok h1]
      exact ih s1 f1 u 0 n rest (fun m hm => hok m (by simp [hm])) b1 hf (by simp at hfu; omega)

include S in
/-- A file that is not there is not found. -/
theorem missing_refused (s : St σ) (path : Path) (dev : Nat) (names : List (List Nat)) (rest : List UInt8)
    (hl : env.locate s.ext .simpleFileSystem path = .ok (bytes (names.map fileNode) ++ rest, dev)) (hi : env.iface s.ext dev .simpleFileSystem = .ok sfs)
    (h0 : sfs ≠ 0) (hn : ∀ nm ∈ names, NameOk nm) (hf : fs.find fs.root names = none) :
    (fromSfs env path s).1 = .err NOT_FOUND := by
  obtain ⟨r, s1, h1, a1, b1, c1⟩ := openVolume_spec S s dev hi h0
  have hlen : ∀ l : List Node, l.length ≤ (bytes l).length := by
    intro l
    induction l with
    | nil => simp
    | cons n l ih => rw [bytes_cons, List.length_append, node_length, List.length_cons]; omega
  have h2 := openAll_missing S names s1 r fs.root 0 ((bytes (names.map fileNode) ++ rest).length + 1) rest hn b1 hf
    (by have := hlen (names.map fileNode); rw [List.length_map] at this; rw [List.length_append]; omega)
  unfold fromSfs
  rw [bind_ask, hl, bind_ofExcept]
  dsimp only
  rw [bind_ok h1]
  cases hr : openAll env ((bytes (names.map fileNode) ++ rest).length + 1) (bytes (names.map fileNode) ++ rest) r s1 with
  | mk x s2 => rw [hr] at h2; dsimp only at h2; subst h2; rw [bind_err hr]
end

/-! ### Firmware volumes and load file -/

/-- **The file of a firmware volume that the path names is what is read**: the volume is asked once, for the first PE32 section of the file with the name of the path's node, and the result is what
it gives. -/
theorem fv_bytes (dbg : Bool) (s : St σ) (path : Path) (dev fv : Nat) (g rest b : List UInt8) (auth : Nat) (e : σ) (hg : g.length = 16)
    (hl : env.locate s.ext .firmwareVolume path = .ok ((⟨4, 6, g⟩ : Node).bytes ++ rest, dev)) (hi : env.iface s.ext dev .firmwareVolume = .ok fv) (h0 : fv ≠ 0)
    (hr : env.readSection s.ext fv g 0x10 0 = ((SUCCESS, some b, auth), e)) :
    fromFv env dbg path s = (.ok (b, dev), ⟨e, s.calls ++ [.readSection fv g 0x10 0]⟩) := by
  have hw : (⟨4, 6, g⟩ : Node).Wf := ⟨by show g.length + 4 < _; omega, by rintro ⟨h, -⟩; cases h⟩
  have hgd : fileGuid (σ := σ) ((⟨4, 6, g⟩ : Node).bytes ++ rest) s = (.ok g, s) := by
    unfold fileGuid
    rw [bind_ok (x := node _) (a := some (⟨4, 6, g⟩ : Node).buf) (s' := s) (by unfold node; rw [nodeNew_node hw]; rfl)]
    dsimp only [Spec.Node.buf]
    rw [if_neg (by decide), if_neg (by simpa using hg)]
    rfl
  unfold fromFv
  rw [bind_ask, hl, bind_ofExcept]
  dsimp only
  rw [bind_ok hgd, bind_ask, hi, bind_ofExcept, if_neg h0, bind_call]
  simp only [PE32]
  rw [hr]
  rfl

/-- Another node than a file's name is refused. -/
theorem fv_other_node (dbg : Bool) (s : St σ) (path : Path) (dev : Nat) (n : Node) (rest : List UInt8) (hw : n.Wf)
    (hl : env.locate s.ext .firmwareVolume path = .ok (n.bytes ++ rest, dev)) (hn : ¬ (n.type = 4 ∧ n.sub = 6 ∧ n.data.length = 16)) :
    (∃ e, (fromFv env dbg path s).1 = .err e) ∧ (fromFv env dbg path s).2 = s := by
  have hgd : ∃ e, fileGuid (σ := σ) (n.bytes ++ rest) s = (.err e, s) := by
    unfold fileGuid
    rw [bind_ok (x := node _) (a := some n.buf) (s' := s) (by unfold node; rw [nodeNew_node hw]; rfl)]
    dsimp only [Spec.Node.buf]
    by_cases h1 : n.type ≠ TYPE_MEDIA ∨ n.sub ≠ SUB_FIRMWARE_FILE
    · rw [if_pos h1]; exact ⟨_, rfl⟩
    · rw [if_neg h1]
      by_cases h2 : n.data.length ≠ 16
      · rw [if_pos h2]; exact ⟨_, rfl⟩
      · refine absurd ⟨?_, ?_, Decidable.not_not.1 h2⟩ hn
        · exact Decidable.not_not.1 (fun h => h1 (Or.inl h))
        · exact Decidable.not_not.1 (fun h => h1 (Or.inr h))
  obtain ⟨e, hgd⟩ := hgd
  unfold fromFv
  rw [bind_ask, hl, bind_ofExcept]
  dsimp only
  rw [bind_err hgd]
  exact ⟨⟨e, rfl⟩, rfl⟩

/-- **What the load file protocol gives is what is loaded**: it is asked for the size, then for the bytes, both with the rest of the path and the policy, and the result is what it writes. -/
theorem load_file_bytes (g : Proto) (policy : Bool) (s : St σ) (path rest : Path) (dev lf : Nat) (b d : List UInt8) (e1 e2 : σ)
    (hg : g = .loadFile ∨ (g = .loadFile2 ∧ policy = false))
    (hl : env.locate s.ext g path = .ok (rest, dev)) (hi : env.iface s.ext dev g = .ok lf) (h0 : lf ≠ 0) (hroom : b.length ≤ env.room)
    (h1 : env.loadFile s.ext lf rest policy 0 true = ((BUFFER_TOO_SMALL, b.length, d), e1))
    (h2 : env.loadFile e1 lf rest policy b.length false = ((SUCCESS, b.length, b), e2)) :
    fromLoadFile env g policy path s = (.ok (b, dev), ⟨e2, s.calls ++ [.loadFile lf rest policy 0 true] ++ [.loadFile lf rest policy b.length false]⟩) := by
  unfold fromLoadFile
  rw [if_neg (by rcases hg with rfl | ⟨rfl, -⟩ <;> simp), if_neg (by rcases hg with rfl | ⟨rfl, rfl⟩ <;> simp), bind_ask, hl, bind_ofExcept]
  dsimp only
  rw [bind_ask, hi, bind_ofExcept, if_neg h0, bind_call, h1]
  dsimp only
  rw [if_pos rfl, bind_alloc hroom, bind_call, h2]
  dsimp only
  rw [bind_fill, bind_check_ok]
  rfl

/-- The load file protocol that gives bytes without being asked for the size, or that fails, gives nothing. -/
theorem load_file_refused (g : Proto) (policy : Bool) (s : St σ) (path rest : Path) (dev lf st n : Nat) (d : List UInt8) (e1 : σ)
    (hg : g = .loadFile ∨ (g = .loadFile2 ∧ policy = false))
    (hl : env.locate s.ext g path = .ok (rest, dev)) (hi : env.iface s.ext dev g = .ok lf) (h0 : lf ≠ 0)
    (h1 : env.loadFile s.ext lf rest policy 0 true = ((st, n, d), e1)) (hst : st ≠ BUFFER_TOO_SMALL) :
    (fromLoadFile env g policy path s).1 = .err (if st = SUCCESS then DEVICE_ERROR else st) := by
  unfold fromLoadFile
  rw [if_neg (by rcases hg with rfl | ⟨rfl, -⟩ <;> simp), if_neg (by rcases hg with rfl | ⟨rfl, rfl⟩ <;> simp), bind_ask, hl, bind_ofExcept]
  dsimp only
  rw [bind_ask, hi, bind_ofExcept, if_neg h0, bind_call, h1]
  dsimp only
  rw [if_neg hst]
  by_cases h : st = SUCCESS
  · rw [if_pos h, if_pos h]; rfl
  · rw [if_neg h, if_neg h]; rfl

/-! ### The order -/

/-- The first of the sources that gives bytes; errors are forgotten. -/
def firstOf : List (M σ Found) → M σ Found
  | [] => M.fail NOT_FOUND
  | x :: xs => fun s => match x s with
    | (.err _, s) => firstOf xs s
    | r => r

/-- A source with what is said of its bytes. -/
def via (fromFv : Bool) (x : M σ (List UInt8 × Nat)) : M σ Found := fun s =>
  match x s with
  | (.ok (b, h), s) => (.ok ⟨b, fromFv, some h, 0⟩, s)
  | (.err e, s) => (.err e, s)
  | (.panic, s) => (.panic, s)
  | (.fault, s) => (.fault, s)
  | (.running, s) => (.running, s)

/-- **The order of the sources**: firmware volumes, file systems, load file 2 if it is not the boot manager that loads, load file; the first that gives bytes is used. Only bytes of a firmware
volume are said to be of one. -/
theorem source_order (dbg policy : Bool) (p : Path) (s : St σ) :
    byPath env dbg policy (some p) s =
      firstOf ([via true (fromFv env dbg p), via false (fromSfs env p)] ++ (if policy then [] else [via false (fromLoadFile env .loadFile2 false p)]) ++
        [via false (fromLoadFile env .loadFile policy p)]) s := by
  have last : ∀ s, (do
      match ← M.attempt (fromLoadFile env .loadFile policy p) with
      | some (b, h) => M.ret (⟨b, false, some h, 0⟩ : Found)
      | none => M.fail NOT_FOUND : M σ Found) s = firstOf [via false (fromLoadFile env .loadFile policy p)] s := by
    intro s
    rw [run_bind, M.bind]
    unfold M.attempt
    simp only [firstOf, via]
    cases fromLoadFile env .loadFile policy p s with
    | mk r s => cases r <;> rfl
  have third : ∀ s, (do
      match ← (if policy then M.ret none else M.attempt (fromLoadFile env .loadFile2 false p)) with
      | some (b, h) => M.ret (⟨b, false, some h, 0⟩ : Found)
      | none =>
        match ← M.attempt (fromLoadFile env .loadFile policy p) with
        | some (b, h) => M.ret (⟨b, false, some h, 0⟩ : Found)
        | none => M.fail NOT_FOUND : M σ Found) s =
      firstOf ((if policy then [] else [via false (fromLoadFile env .loadFile2 false p)]) ++ [via false (fromLoadFile env .loadFile policy p)]) s := by
    intro s
    cases policy with
    | true =>
      rw [if_pos rfl, if_pos rfl, bind_ret, List.nil_append]
      exact last s
    | false =>
      rw [if_neg (by decide), if_neg (by decide), run_bind, M.bind, List.cons_append, List.nil_append]
      unfold M.attempt firstOf
      unfold via
      cases fromLoadFile env .loadFile2 false p s with
      | mk r s =>
        cases r with
        | err e => exact last s
        | ok a => rfl
        | panic => rfl
        | fault => rfl
        | running => rfl
  have second : ∀ s, (do
      match ← M.attempt (fromSfs env p) with
      | some (b, h) => M.ret (⟨b, false, some h, 0⟩ : Found)
      | none =>
        match ← (if policy then M.ret none else M.attempt (fromLoadFile env .loadFile2 false p)) with
        | some (b, h) => M.ret (⟨b, false, some h, 0⟩ : Found)
        | none =>
          match ← M.attempt (fromLoadFile env .loadFile policy p) with
          | some (b, h) => M.ret (⟨b, false, some h, 0⟩ : Found)
          | none => M.fail NOT_FOUND : M σ Found) s =
      firstOf (via false (fromSfs env p) :: ((if policy then [] else [via false (fromLoadFile env .loadFile2 false p)]) ++
        [via false (fromLoadFile env .loadFile policy p)])) s := by
    intro s
    rw [run_bind, M.bind]
    conv => rhs; unfold firstOf via
    unfold M.attempt
    cases fromSfs env p s with
    | mk r s =>
      cases r with
      | err e => exact third s
      | ok a => rfl
      | panic => rfl
      | fault => rfl
      | running => rfl
  unfold byPath
  dsimp only
  rw [run_bind, M.bind]
  conv => rhs; simp only [List.cons_append, List.nil_append]; unfold firstOf via
  cases hx : fromFv env dbg p s with
  | mk r s1 =>
    cases r with
    | err e =>
      have ha : M.attempt (fromFv env dbg p) s = (.ok none, s1) := by unfold M.attempt; rw [hx]
      rw [ha]; exact second s1
    | ok a =>
      have ha : M.attempt (fromFv env dbg p) s = (.ok (some a), s1) := by unfold M.attempt; rw [hx]
      rw [ha]; rfl
    | panic =>
      have ha : M.attempt (fromFv env dbg p) s = (.panic, s1) := by unfold M.attempt; rw [hx]
      rw [ha]
    | fault =>
      have ha : M.attempt (fromFv env dbg p) s = (.fault, s1) := by unfold M.attempt; rw [hx]
      rw [ha]
    | running =>
      have ha : M.attempt (fromFv env dbg p) s = (.running, s1) := by unfold M.attempt; rw [hx]
      rw [ha]

/-! ### Authentication -/

/-- What Security2 says in a state. -/
def accepts (env : Env σ) (e : σ) (path : Option Path) (b : List UInt8) (policy : Bool) : Bool := (env.fileAuthentication e path b policy).1 == SUCCESS

/-- **Who is asked about an image, and what comes of it**: exactly those who have to be asked, in that order, about these bytes; the image is accepted exactly if all of them accept it. (With
Security2 but not Security, an image of a firmware volume is excluded: see `security2_alone_panics`.) -/
theorem authenticate_asks (s : St σ) (path : Option Path) (b : List UInt8) (policy fv : Bool)
    (hs : ¬ (env.hasSecurity2 s.ext = true ∧ env.hasSecurity s.ext = false ∧ fv = true)) :
    ∃ st s', authenticate env path b policy fv 0 s = (.ok st, s') ∧
      s'.calls = s.calls ++ toAsk (env.hasSecurity2 s.ext) (env.hasSecurity s.ext) (accepts env s.ext path b policy) fv path b policy ∧
      (st = SUCCESS ↔ Accepted env s.ext path b policy fv) := by
  unfold authenticate toAsk Accepted
  rw [bind_ask, bind_ask]
  cases h2 : env.hasSecurity2 s.ext with
  | false =>
    cases h1 : env.hasSecurity s.ext with
    | false => exact ⟨_, _, rfl, by simp, by simp⟩
    | true => exact ⟨_, _, rfl, by simp, by simp⟩
  | true =>
    rw [if_pos rfl, bind_call]
    unfold accepts
    by_cases ha : (env.fileAuthentication s.ext path b policy).1 = SUCCESS
    · cases fv with
      | false =>
        rw [if_neg (by simp)]
        exact ⟨_, _, rfl, by simp, by simp [ha]⟩
      | true =>
        rw [if_pos ⟨ha, rfl⟩]
        cases h1 : env.hasSecurity s.ext with
        | false => exact absurd ⟨h2, h1, rfl⟩ hs
        | true =>
          rw [if_pos rfl]
          exact ⟨_, _, rfl, by simp [ha, SUCCESS], by simp [ha]⟩
    · rw [if_neg (fun h => ha h.1)]
      refine ⟨_, _, rfl, ?_, by simp [ha]⟩
      have : (((env.fileAuthentication s.ext path b policy).1 == SUCCESS) = false) := by simpa using ha
      simp [this]

/-- Finding: with Security2 and without Security, an image of a firmware volume that Security2 accepts panics. -/
theorem security2_alone_panics (s : St σ) (path : Option Path) (b : List UInt8) (policy : Bool) (auth : Nat)
    (h2 : env.hasSecurity2 s.ext = true) (h1 : env.hasSecurity s.ext = false) (ha : (env.fileAuthentication s.ext path b policy).1 = SUCCESS) :
    (authenticate env path b policy true auth s).1 = .panic := by
  unfold authenticate
  rw [bind_ask, bind_ask, h2, h1]
  rw [if_pos rfl, bind_call, if_pos ⟨ha, rfl⟩, if_neg (by decide)]
  rfl

/-- The authentication status that a firmware volume gives is not kept. -/
theorem auth_status_dropped (dbg policy : Bool) (path : Option Path) (image : Option (List UInt8)) (s s' : St σ) (f : Found)
    (h : fetch env dbg policy path image s = (.ok f, s')) : f.auth = 0 := by
  unfold fetch at h
  cases image with
  | some b =>
    dsimp only at h
    split at h
    · cases h; rfl
    · cases h; rfl
  | none =>
    dsimp only at h
    cases path with
    | none => unfold byPath at h; cases h
    | some p =>
      rw [source_order] at h
      have hv : ∀ fv (x : M σ (List UInt8 × Nat)) s s' f, via fv x s = (.ok f, s') → f.auth = 0 := by
        intro fv x s s' f h
        unfold via at h
        split at h <;> cases h
        rfl
      have hf : ∀ (l : List (M σ Found)), (∀ x ∈ l, ∀ s s' f, x s = (.ok f, s') → f.auth = 0) → ∀ s s' f, firstOf l s = (.ok f, s') → f.auth = 0 := by
        intro l
        induction l with
        | nil => intro _ s s' f h; cases h
        | cons x l ih =>
          intro hl s s' f h
          unfold firstOf at h
          split at h
          · exact ih (fun y hy => hl y (by simp [hy])) _ _ _ h
          · rename_i r hr
            exact hl x (by simp) _ _ _ h
      refine hf _ ?_ _ _ _ h
      intro x hx
      rcases List.mem_append.1 hx with hx | hx
      · rcases List.mem_append.1 hx with hx | hx
        · rcases List.mem_cons.1 hx with rfl | hx
          · exact hv _ _
          · rcases List.mem_cons.1 hx with rfl | hx
            · exact hv _ _
            · cases hx
        · cases policy with
          | true => cases hx
          | false =>
            rcases List.mem_cons.1 hx with rfl | hx
            · exact hv _ _
            · cases hx
      · rcases List.mem_cons.1 hx with rfl | hx
        · exact hv _ _
        · cases hx

theorem looks_fetch (dbg policy : Bool) (path : Option Path) (image : Option (List UInt8)) : Adds (Call.looks · = true) (fetch env dbg policy path image) := by
  unfold fetch
  split
  · intro s
    dsimp only
    split
    · exact adds_ret _ s
    · exact adds_ret _ s
  · exact looks_byPath _ _ _

/-- What has happened when the loader is called. -/
structure Asked (env : Env σ) (dbg : Bool) (path : Option Path) (source : Option (List UInt8)) (policy : Bool) (b : List UInt8) (st : Nat) (s : St σ)
    (calls : List Call) where
  /-- the calls that look for the bytes -/
  looking : List Call
  /-- the state after them -/
  e : σ
  fromFv : Bool
  kept : Option Path
  device : Option Nat
  looked : ∀ c ∈ looking, c.looks = true
  /-- the bytes and whether they are of a firmware volume: see `given_bytes` and `source_order` -/
  found : fetch env dbg policy path source s = (.ok ⟨b, fromFv, device, 0⟩, ⟨e, s.calls ++ looking⟩)
  all : calls = s.calls ++ looking ++ toAsk (env.hasSecurity2 e) (env.hasSecurity e) (accepts env e path b policy) fromFv path b policy ++ [.loadPe b kept device]
  /-- the status of `LoadImage` -/
  answer : st = SUCCESS ↔ Accepted env e path b policy fromFv

theorem authenticate_panic (s : St σ) (path : Option Path) (b : List UInt8) (policy fv : Bool) (auth : Nat)
    (h : env.hasSecurity2 s.ext = true ∧ env.hasSecurity s.ext = false ∧ fv = true) (ha : ¬ accepts env s.ext path b policy = true) :
    ∃ st, authenticate env path b policy fv auth s = (.ok st, ⟨(env.fileAuthentication s.ext path b policy).2, s.calls ++ [.fileAuthentication path b policy]⟩) ∧
      st = (env.fileAuthentication s.ext path b policy).1 := by
  obtain ⟨h2, h1, rfl⟩ := h
  unfold authenticate
  rw [bind_ask, bind_ask, h2, h1]
  rw [if_pos rfl, bind_call]
  have : ¬ ((env.fileAuthentication s.ext path b policy).1 = SUCCESS) := fun h => ha (by unfold accepts; rw [h]; rfl)
  rw [if_neg (fun h => this h.1)]
  exact ⟨_, rfl, rfl⟩

/-- **The bytes that are loaded are those that were asked about**: when `LoadImage` gives a handle, the last call is that of the loader, with the bytes `b`; before it those who have to be asked
were asked about `b`, with the path and the policy of the caller, and before that there were only calls that looked for the bytes. The loader is called once, and nobody can change the bytes in
between. The status is that all accept them. If the caller gave the bytes, `b` are these. -/
theorem loaded_is_authenticated (dbg : Bool) (fuel : Nat) (policy : Bool) (parent : Nat) (path : Option Path) (source : Option (List UInt8)) (out : Bool)
    (s s' : St σ) (st h : Nat) (hr : loadImage env dbg fuel policy parent path source out s = (.ok (st, some h), s')) :
    ∃ b, Nonempty (Asked env dbg path source policy b st s s'.calls) ∧ (∀ b', source = some b' → b = b') := by
  unfold loadImage at hr
  by_cases ho : ¬ out = true
  · rw [if_pos ho] at hr; cases hr
  rw [if_neg ho] at hr
  by_cases he : source = some []
  · rw [if_pos he] at hr; cases hr
  rw [if_neg he] at hr
  cases hc : coreLoad env dbg fuel policy parent path source s with
  | mk r s1 =>
    rw [hc] at hr
    cases r with
    | err e => cases hr
    | panic => cases hr
    | fault => cases hr
    | running => cases hr
    | ok x =>
      obtain ⟨h', sec⟩ := x
      cases hr
      unfold coreLoad at hc
      by_cases hn : source = none ∧ path = none
      · rw [if_pos hn] at hc; cases hc
      rw [if_neg hn] at hc
      by_cases hv : ¬ env.valid s.ext parent = true
      · rw [if_pos hv] at hc; cases hc
      rw [if_neg hv] at hc
      by_cases hi : ¬ env.isImage s.ext parent = true
      · rw [if_pos hi] at hc; cases hc
      rw [if_neg hi] at hc
      unfold loadChecked at hc
      obtain ⟨l, hl, hlook⟩ := looks_fetch (env := env) dbg policy path source s
      cases hf : fetch env dbg policy path source s with
      | mk r s2 =>
        rw [hf] at hl
        rw [run_bind, M.bind, hf] at hc
        cases r with
        | err e => cases hc
        | panic => cases hc
        | fault => cases hc
        | running => cases hc
        | ok f =>
          have hauth := auth_status_dropped dbg policy path source s s2 f hf
          dsimp only at hc
          have hsrc : ∀ b', source = some b' → f.bytes = b' := by
            rintro b' rfl
            unfold fetch at hf
            dsimp only at hf
            split at hf <;> · cases hf; rfl
          refine ⟨f.bytes, ?_, hsrc⟩
          rw [hauth] at hc
          -- who is asked
          have hask : ∃ st s3, authenticate env path f.bytes policy f.fromFv 0 s2 = (.ok st, s3) ∧
              s3.calls = s2.calls ++ toAsk (env.hasSecurity2 s2.ext) (env.hasSecurity s2.ext) (accepts env s2.ext path f.bytes policy) f.fromFv path f.bytes policy ∧
              (st = SUCCESS ↔ Accepted env s2.ext path f.bytes policy f.fromFv) := by
            by_cases hs : env.hasSecurity2 s2.ext = true ∧ env.hasSecurity s2.ext = false ∧ f.fromFv = true
            · by_cases ha : accepts env s2.ext path f.bytes policy = true
              · have := security2_alone_panics (env := env) s2 path f.bytes policy 0 hs.1 hs.2.1 (by unfold accepts at ha; simpa using ha)
                cases hx : authenticate env path f.bytes policy f.fromFv 0 s2 with
                | mk r s3 =>
                  rw [← hs.2.2, hx] at this
                  dsimp only at this
                  subst this
                  rw [bind_panic hx] at hc
                  cases hc
              · obtain ⟨st, hx, hst⟩ := authenticate_panic (env := env) s2 path f.bytes policy f.fromFv 0 hs ha
                refine ⟨st, _, hx, ?_, ?_⟩
                · unfold toAsk
                  rw [hs.1, hs.2.1]
                  simp
                · rw [hst]
                  refine ⟨fun h => absurd (by unfold accepts; rw [h]; rfl) ha, fun h => h.1 hs.1⟩
            · obtain ⟨st, s3, h1, h2, h3⟩ := authenticate_asks (env := env) s2 path f.bytes policy f.fromFv hs
              exact ⟨st, s3, h1, h2, h3⟩
          obtain ⟨st3, s3, hx, hcalls, hans⟩ := hask
          rw [bind_ok hx] at hc
          obtain ⟨l4, hl4, hnone⟩ := none_keptPath (env := env) fuel path f.device s3
          cases hk : keptPath env fuel path f.device s3 with
          | mk r s4 =>
            rw [hk] at hl4
            have : l4 = [] := by
              cases l4 with
              | nil => rfl
              | cons c _ => exact absurd (hnone c (by simp)) id
            subst this
            rw [run_bind, M.bind, hk] at hc
            cases r with
            | err e => cases hc
            | panic => cases hc
            | fault => cases hc
            | running => cases hc
            | ok k =>
              dsimp only at hc
              rw [bind_call] at hc
              have hs' : s'.calls = s4.calls ++ [.loadPe f.bytes k f.device] ∧ st3 = st := by
                cases hp : (env.loadPe s4.ext f.bytes k f.device).1 with
                | error e => rw [hp] at hc; cases hc
                | ok h6 => rw [hp, bind_ofExcept] at hc; cases hc; exact ⟨rfl, rfl⟩
              dsimp only at hl hl4
              refine ⟨⟨l, s2.ext, f.fromFv, k, f.device, hlook, ?_, ?_, hs'.2 ▸ hans⟩⟩
              · rw [hf, ← hl, ← hauth]
              · rw [hs'.1, hl4, hcalls, hl, List.append_nil]

/-- Bytes that the caller gives are used as they are, and are not of a firmware volume; nothing is called. Without bytes they are looked for. -/
theorem given_bytes (dbg policy : Bool) (path : Option Path) (s : St σ) :
    (∀ b, ∃ d, fetch env dbg policy path (some b) s = (.ok ⟨b, false, d, 0⟩, s)) ∧ fetch env dbg policy path none s = byPath env dbg policy path s := by
  refine ⟨fun b => ?_, rfl⟩
  unfold fetch
  dsimp only
  split
  · exact ⟨_, rfl⟩
  · exact ⟨_, rfl⟩

/-- What a driver says of the size and of its read is used as it is, whatever the driver: the bytes it read, and as many as it says. -/
theorem any_read (s s1 s2 : St σ) (f a n st got : Nat) (d : List UInt8) (e3 e4 : σ) (h1 : getAttribute env f s = (.ok a, s1)) (ha : a &&& DIRECTORY = 0)
    (h2 : getSize env f s1 = (.ok n, s2)) (hn : n ≤ env.room) (h3 : env.setPosition s2.ext f 0 = (SUCCESS, e3)) (h4 : env.readFile e3 f n = ((st, got, d), e4))
    (hd : d.length ≤ n) :
    (readFile env f s).1 = if st ≠ SUCCESS then .err st else if n < got then .panic else .ok ((d ++ List.replicate (n - d.length) 0).take got) := by
  unfold readFile
  rw [bind_ok h1, if_neg (by simpa using ha), bind_ok h2, bind_alloc hn, bind_call, h3]
  dsimp only
  rw [bind_check_ok, bind_call, h4]
  dsimp only
  rw [bind_ok (x := M.fill n d) (a := d ++ List.replicate (n - d.length) 0) (by unfold M.fill; rw [if_pos hd]; rfl)]
  by_cases hs : st = SUCCESS
  · subst hs
    rw [bind_check_ok]
    by_cases hg : n < got
    · rw [if_pos hg, if_neg (fun h => h rfl), if_pos hg]; rfl
    · rw [if_neg hg, if_neg (fun h => h rfl), if_neg hg]; rfl
  · rw [if_pos hs, run_bind, M.bind]
    unfold M.check
    rw [if_neg hs]
    rfl

/-- The errors of a driver that is asked about a file are passed on. -/
theorem info_error (s : St σ) (f n st : Nat) (d1 d2 : List UInt8) (m : Nat) (e1 e2 : σ) (h1 : env.getInfo s.ext f 0 = ((BUFFER_TOO_SMALL, n, d1), e1)) (hn : n ≤ env.room)
    (h2 : env.getInfo e1 f n = ((st, m, d2), e2)) (hd : d2.length ≤ n) (hs : st ≠ SUCCESS) : (getInfo env f s).1 = .err st ∧ (readFile env f s).1 = .err st := by
  have h : ∃ s', getInfo env f s = (.err st, s') := by
    unfold getInfo
    rw [bind_call, h1]
    dsimp only
    rw [if_pos rfl, bind_alloc hn, bind_call, h2]
    dsimp only
    rw [bind_ok (x := M.fill n d2) (a := d2 ++ List.replicate (n - d2.length) 0) (by unfold M.fill; rw [if_pos hd]; rfl)]
    refine ⟨⟨e2, s.calls ++ [.getInfo f 0] ++ [.getInfo f n]⟩, ?_⟩
    rw [run_bind, M.bind]
    unfold M.check
    rw [if_neg hs]
    rfl
  obtain ⟨s', h⟩ := h
  refine ⟨by rw [h], ?_⟩
  have ha : getAttribute env f s = (.err st, s') := by unfold getAttribute; rw [bind_err h]
  unfold readFile
  rw [bind_err ha]

/-- A node behind the device that is no file name and no end is refused. -/
theorem other_node_refused (fuel : Nat) (n : Node) (rest : List UInt8) (f : Nat) (s : St σ) (hw : n.Wf) (h4 : ¬ (n.type = 4 ∧ n.sub = 4)) (he : n.type ≠ 0x7f) :
    openAll env (fuel + 1) (n.bytes ++ rest) f s = (.err UNSUPPORTED, s) := by
  unfold openAll
  rw [bind_ok (x := node _) (a := some n.buf) (s' := s) (by unfold node; rw [nodeNew_node hw]; rfl)]
  dsimp only [Spec.Node.buf]
  rw [if_neg (show ¬ (n.type = TYPE_MEDIA ∧ n.sub = SUB_FILE_PATH) from h4), if_neg he]
  rfl

/-- The checks of the arguments: nothing is called. -/
theorem arguments_checked (dbg : Bool) (fuel : Nat) (policy : Bool) (parent : Nat) (path : Option Path) (source : Option (List UInt8)) (s : St σ) :
    loadImage env dbg fuel policy parent path source false s = (.ok (INVALID_PARAMETER, none), s) ∧
    loadImage env dbg fuel policy parent path (some []) true s = (.ok (LOAD_ERROR, none), s) ∧
    loadImage env dbg fuel policy parent none none true s = (.ok (INVALID_PARAMETER, none), s) ∧
    (source ≠ some [] → (env.valid s.ext parent = false ∨ env.isImage s.ext parent = false) →
      loadImage env dbg fuel policy parent path source true s = (.ok (INVALID_PARAMETER, none), s)) := by
  refine ⟨rfl, rfl, rfl, ?_⟩
  intro hs hp
  have hc : coreLoad env dbg fuel policy parent path source s = (.err INVALID_PARAMETER, s) := by
    unfold coreLoad
    split
    · rfl
    · rcases hp with hp | hp
      · rw [if_pos (by simp [hp])]
      · split
        · rfl
        · rw [if_pos (by simp [hp])]
  unfold loadImage
  rw [if_neg (by decide), if_neg hs, hc]

/-- **The path that is kept with the image is what follows the path of its device**, in a copy of its own. -/
theorem kept_path (fuel : Nat) (s : St σ) (ds rs : List Node) (rest rest' : List UInt8) (dev : Nat) (hd : ∀ n ∈ ds, n.Wf) (hr : ∀ n ∈ rs, n.Wf)
    (hds : Single ds) (hrs : Single rs) (hp : env.devicePath s.ext dev = some (bytes ds ++ rest')) (hf : ds.length < fuel) (hf' : rs.length < fuel) :
    keptPath env fuel (some (bytes (ds ++ rs) ++ rest)) (some dev) s = (.ok (some (bytes rs)), s) := by
  have hsplit : bytes (ds ++ rs) = ds.flatMap Node.bytes ++ bytes rs := by simp [bytes]
  have hfix : fixedPath env fuel (some (bytes (ds ++ rs) ++ rest)) (some dev) s = (.ok (some (bytes rs ++ rest)), s) := by
    unfold fixedPath
    dsimp only
    rw [bind_ask, hp]
    dsimp only
    have hn : nodeCount fuel (some (bytes ds ++ rest')) = .ok (ds.length + 1, (bytes ds).length) := by
      have := nodeCountLoop_spec ds hd hds rest' fuel hf 0 0
      simpa [nodeCount] using this
    rw [hn]
    show (M.ret _ >>= _) s = _
    rw [bind_ret]
    dsimp only
    have hlen : (bytes ds).length - 4 = (ds.flatMap Node.bytes).length := by simp [bytes]
    rw [hlen, hsplit, List.append_assoc, List.drop_left]
    rfl
  unfold keptPath
  rw [bind_ok hfix]
  dsimp only
  rw [DevicePath.copy, asSlice_spec rs hr hrs rest fuel hf']
  rfl

/-! ### Findings -/

/-- Finding: whatever Security2 answers, `EFI_ACCESS_DENIED` too, the image is loaded and the caller has its handle. -/
theorem refused_loaded (dbg : Bool) (fuel : Nat) (policy : Bool) (parent st h : Nat) (b : List UInt8) (s : St σ) (e e' : σ) (hb : b ≠ [])
    (hv : env.valid s.ext parent = true) (hi : env.isImage s.ext parent = true) (h2 : env.hasSecurity2 s.ext = true)
    (ha : env.fileAuthentication s.ext none b policy = (st, e)) (hp : env.loadPe e b none none = (.ok h, e')) :
    ∃ s', loadImage env dbg fuel policy parent none (some b) true s = (.ok (st, some h), s') := by
  have hauth : authenticate env none b policy false 0 s = (.ok st, ⟨e, s.calls ++ [.fileAuthentication none b policy]⟩) := by
    unfold authenticate
    rw [bind_ask, bind_ask, h2, if_pos rfl, bind_call, ha, if_neg (by simp)]
    rfl
  have hc : coreLoad env dbg fuel policy parent none (some b) s =
      (.ok (h, st), ⟨e', s.calls ++ [.fileAuthentication none b policy] ++ [.loadPe b none none]⟩) := by
    unfold coreLoad
    rw [if_neg (by simp), if_neg (by simp [hv]), if_neg (by simp [hi])]
    unfold loadChecked
    rw [bind_ok (x := fetch env dbg policy none (some b)) (a := ⟨b, false, none, 0⟩) (s' := s) rfl]
    dsimp only
    rw [bind_ok hauth]
    have hk : ∀ s, keptPath env fuel none none s = (.ok none, s) := fun _ => rfl
    rw [bind_ok (hk _), bind_call, hp]
    rfl
  refine ⟨⟨e', s.calls ++ [.fileAuthentication none b policy] ++ [.loadPe b none none]⟩, ?_⟩
  unfold loadImage
  rw [if_neg (by decide), if_neg (by simpa using hb), hc]

/-- Finding: without a security protocol every image is accepted. -/
theorem unasked_accepted (path : Option Path) (b : List UInt8) (policy fv : Bool) (s : St σ) (h2 : env.hasSecurity2 s.ext = false) (h1 : env.hasSecurity s.ext = false) :
    authenticate env path b policy fv 0 s = (.ok SUCCESS, s) := by
  unfold authenticate
  rw [bind_ask, bind_ask, h2, h1]
  rfl

/-- Finding: a driver that has fewer bytes for the second call than it said in the first: the rest of the image is zeros, and its size the size first said. -/
theorem load_file_padded (g : Proto) (policy : Bool) (s : St σ) (path rest : Path) (dev lf n : Nat) (b d : List UInt8) (e1 e2 : σ)
    (hg : g = .loadFile ∨ (g = .loadFile2 ∧ policy = false))
    (hl : env.locate s.ext g path = .ok (rest, dev)) (hi : env.iface s.ext dev g = .ok lf) (h0 : lf ≠ 0) (hroom : n ≤ env.room)
    (h1 : env.loadFile s.ext lf rest policy 0 true = ((BUFFER_TOO_SMALL, n, d), e1)) (hb : b.length ≤ n)
    (h2 : env.loadFile e1 lf rest policy n false = ((SUCCESS, b.length, b), e2)) :
    (fromLoadFile env g policy path s).1 = .ok (b ++ List.replicate (n - b.length) 0, dev) := by
  unfold fromLoadFile
  rw [if_neg (by rcases hg with rfl | ⟨rfl, -⟩ <;> simp), if_neg (by rcases hg with rfl | ⟨rfl, rfl⟩ <;> simp), bind_ask, hl, bind_ofExcept]
  dsimp only
  rw [bind_ask, hi, bind_ofExcept, if_neg h0, bind_call, h1]
  dsimp only
  rw [if_pos rfl, bind_alloc hroom, bind_call, h2]
  dsimp only
  rw [bind_ok (x := M.fill n b) (a := b ++ List.replicate (n - b.length) 0) (by unfold M.fill; rw [if_pos hb]; rfl), bind_check_ok]
  rfl

/-- Finding: a name without a zero is read behind its end. -/
theorem unterminated_name (f : Nat) (ws : List Nat) (h : 0 ∉ ws) (s : St σ) : openFile env f ws s = (.fault, s) := by
  unfold openFile name
  rw [if_neg h]
  rfl

/-- Finding: a file that announces more than there is memory, of which only its driver knows the truth, panics. -/
theorem huge_file_panics (s : St σ) (f a n : Nat) (s1 s2 : St σ) (h1 : getAttribute env f s = (.ok a, s1)) (ha : a &&& DIRECTORY = 0)
    (h2 : getSize env f s1 = (.ok n, s2)) (hn : env.room < n) : (readFile env f s).1 = .panic := by
  unfold readFile
  rw [bind_ok h1, if_neg (by simpa using ha), bind_ok h2, bind_panic (x := M.alloc env.room n) (s' := s2) (by unfold M.alloc; rw [if_neg (by omega)]; rfl)]

/-- Finding: a node of less than 4 bytes ends the path: the file opened so far is taken for the one that was named. -/
theorem short_node_ends (fuel : Nat) (p : Path) (f : Nat) (s : St σ) (h : nodeNew p = .ok none) : openAll env (fuel + 1) p f s = (.ok f, s) := by
  unfold openAll
  rw [bind_ok (x := node p) (a := none) (s' := s) (by unfold node; rw [h]; rfl)]
  rfl


end Verif.Images.Source
