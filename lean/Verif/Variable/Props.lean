import Verif.Variable.Spec
/-!
C85 (reading and writing variables) and C86 (listing variables).
-/
namespace Verif.Variable
open Spec

variable {σ T : Type}

/-! ### Names -/

theorem cstr_some {b n : Str} (h : cstr b = some n) : 0 ∉ n ∧ ∃ r, b = n ++ 0 :: r := by
  induction b generalizing n with
  | nil => cases h
  | cons c cs ih =>
    unfold cstr at h
    split at h
    · rename_i hc
      injection h with h
      subst h; subst hc
      exact ⟨by simp, cs, rfl⟩
    · rename_i hc
      cases hcs : cstr cs with
      | none => rw [hcs] at h; cases h
      | some m =>
        rw [hcs] at h
        injection h with h
        subst h
        obtain ⟨h1, r, rfl⟩ := ih hcs
        refine ⟨?_, r, rfl⟩
        intro hm
        rcases List.mem_cons.1 hm with hm | hm
        · exact hc hm.symm
        · exact h1 hm

theorem cstr_append {n : Str} (h : 0 ∉ n) (r : Str) : cstr (n ++ 0 :: r) = some n := by
  induction n with
  | nil => simp [cstr]
  | cons c cs ih =>
    simp only [List.mem_cons, not_or] at h
    simp only [List.cons_append, cstr]
    rw [if_neg (fun e => h.1 e.symm), ih h.2]
    rfl

theorem cstr_mem {b n : Str} (h : cstr b = some n) : 0 ∈ b := by
  obtain ⟨_, r, rfl⟩ := cstr_some h
  simp

theorem cstr_none {b : Str} : cstr b = none ↔ 0 ∉ b := by
  induction b with
  | nil => simp [cstr]
  | cons c cs ih =>
    unfold cstr
    by_cases hc : c = 0
    · subst hc; simp
    · rw [if_neg hc]
      simp only [Option.map_eq_none_iff, ih, List.mem_cons, not_or]
      exact ⟨fun h => ⟨fun e => hc e.symm, h⟩, fun h => h.2⟩

/-! ### C85: reading and writing -/

theorem resize_nil {α : Type} (n : Nat) (x : α) : resize [] n x = List.replicate n x := by simp [resize]

theorem resize_grow {α : Type} (l : List α) {n : Nat} (x : α) (h : l.length ≤ n) :
    resize l n x = l ++ List.replicate (n - l.length) x := by
  unfold resize
  rw [List.take_of_length_le h]

theorem length_resize {α : Type} (l : List α) (n : Nat) (x : α) : (resize l n x).length = n := by
  unfold resize
  simp only [List.length_append, List.length_take, List.length_replicate]
  omega

theorem overwrite_nil {α : Type} (l : List α) : overwrite l [] = l := by simp [overwrite]

theorem bufferOf_len (data : List UInt8) : bufLen (bufferOf data) = data.length := by
  unfold bufferOf
  split
  · rename_i e; rw [e]; rfl
  · rfl

/-- One call, as the firmware answers it. -/
theorem get_call (dbg : Bool) {unit : Nat} {fw : Firmware σ} {s : σ} {vs : Vars} (h : Has unit fw s vs) {buf name : Str}
    (hn : cstr buf = some name) (ns : Nat) (data : List UInt8) :
    (vs.lookup name ns = none ∧ ∃ b, getUnchecked dbg fw s buf ns (bufferOf data) = .ok (.error NOT_FOUND, b)) ∨
    (∃ v, vs.lookup name ns = some v ∧ data.length < v.data.length ∧
      getUnchecked dbg fw s buf ns (bufferOf data) = .ok (.tooSmall v.data.length v.attrs, data)) ∨
    (∃ v, vs.lookup name ns = some v ∧ v.data.length ≤ data.length ∧
      getUnchecked dbg fw s buf ns (bufferOf data) = .ok (.success v.data.length v.attrs, overwrite data v.data)) := by
  obtain ⟨f, hf, hg⟩ := h.get
  have hs := hg buf name ns data.length hn
  unfold getUnchecked
  rw [hf]
  dsimp only
  rw [bufferOf_len]
  unfold GetOk at hs
  cases hl : vs.lookup name ns with
  | none =>
    rw [hl] at hs
    dsimp only at hs
    refine Or.inl ⟨rfl, ?_⟩
    rw [hs, if_neg (by decide), if_pos (by decide)]
    exact ⟨_, rfl⟩
  | some v =>
    rw [hl] at hs
    dsimp only at hs
    obtain ⟨ha, hz, hr⟩ := hs
    right
    have hv : v.data ≠ [] := (h.valid.1 v (List.mem_of_find?_eq_some hl)).2.2
    by_cases hsz : data.length < v.data.length
    · rw [if_pos hsz] at hr
      refine Or.inl ⟨v, rfl, hsz, ?_⟩
      rw [hr.1, hr.2, if_pos rfl, ha, hz]
      unfold bufferOf
      by_cases hd : data = []
      · rw [if_pos hd, hd]
      · rw [if_neg hd]
        simp only [overwrite_nil]
    · rw [if_neg hsz] at hr
      refine Or.inr ⟨v, rfl, by omega, ?_⟩
      have hd : data ≠ [] := by
        intro e
        subst e
        cases hv' : v.data with
        | nil => exact hv hv'
        | cons x xs => rw [hv'] at hsz; simp at hsz
      rw [hr.1, hr.2, if_neg (by decide), if_neg (by decide), ha, hz]
      unfold bufferOf
      rw [if_neg hd]

/-- What the caller gets of bytes: the value they convert to. -/
def converted (conv : List UInt8 → Option T) (bytes : List UInt8) (attrs : Nat) : Outcome Status (T × Nat) :=
  match conv bytes with
  | some t => .ok (t, attrs)
  | none => .err INVALID_PARAMETER

theorem finish_success (conv : List UInt8 → Option T) (n a : Nat) (d : List UInt8) :
    finish conv (.ok (.success n a, d)) = converted conv d a := by
  unfold finish converted
  dsimp only
  cases conv d <;> rfl

/-- **C85**: what `get_variable` delivers, whatever the hint, if nothing writes the variable between
the calls: the bytes of the variable, followed by as many zeros as the hint was too large. -/
theorem get_variable_value (dbg : Bool) {unit : Nat} {fw : Firmware σ} {later : σ → σ} {s : σ} {vs : Vars}
    (h : Has unit fw s vs) (h2 : Has unit fw (later s) vs) {buf name : Str} (hn : cstr buf = some name) {ns : Nat} {v : Var}
    (hv : vs.lookup name ns = some v) (hint : Option Nat) (conv : List UInt8 → Option T) :
    getVariable dbg fw later s buf ns hint conv =
      converted conv (v.data ++ List.replicate (hint.getD 0 - v.data.length) 0) v.attrs := by
  unfold getVariable
  rw [if_pos (cstr_mem hn), resize_nil]
  rcases get_call dbg h hn ns (List.replicate (hint.getD 0) (0 : UInt8)) with ⟨hl, _⟩ | ⟨w, hl, hlt, he⟩ | ⟨w, hl, hle, he⟩
  · rw [hv] at hl; cases hl
  · rw [hv] at hl
    injection hl with hl
    subst hl
    simp only [he]
    simp only [List.length_replicate] at hlt
    rcases get_call dbg h2 hn ns (resize (List.replicate (hint.getD 0) (0 : UInt8)) v.data.length 10) with
      ⟨hl, _⟩ | ⟨w, hl, hlt', he'⟩ | ⟨w, hl, hle', he'⟩
    · rw [hv] at hl; cases hl
    · rw [hv] at hl
      injection hl with hl
      subst hl
      rw [length_resize] at hlt'
      omega
    · rw [hv] at hl
      injection hl with hl
      subst hl
      rw [he']
      have e1 : hint.getD 0 - v.data.length = 0 := by omega
      have e2 : overwrite (resize (List.replicate (hint.getD 0) (0 : UInt8)) v.data.length 10) v.data = v.data := by
        unfold overwrite
        rw [List.drop_of_length_le (by rw [length_resize]; exact Nat.le_refl _), List.append_nil]
      rw [e1, e2]
      simp only [finish_success, List.replicate_zero, List.append_nil]
  · rw [hv] at hl
    injection hl with hl
    subst hl
    simp only [he]
    have e : overwrite (List.replicate (hint.getD 0) (0 : UInt8)) v.data =
        v.data ++ List.replicate (hint.getD 0 - v.data.length) 0 := by
      unfold overwrite
      rw [List.drop_replicate]
    rw [e, finish_success]

/-- **C85**: the caller gets the value and the attributes of the variable. Partial: not if the hint
is larger than the variable; see `get_variable_large_hint`. -/
theorem get_variable_exact_partial (dbg : Bool) {unit : Nat} {fw : Firmware σ} {later : σ → σ} {s : σ} {vs : Vars}
    (h : Has unit fw s vs) (h2 : Has unit fw (later s) vs) {buf name : Str} (hn : cstr buf = some name) {ns : Nat} {v : Var}
    (hv : vs.lookup name ns = some v) {hint : Option Nat} (hh : ∀ n, hint = some n → n ≤ v.data.length)
    (conv : List UInt8 → Option T) :
    getVariable dbg fw later s buf ns hint conv = converted conv v.data v.attrs := by
  rw [get_variable_value dbg h h2 hn hv hint conv]
  have : hint.getD 0 - v.data.length = 0 := by
    cases hint with
    | none => simp
    | some n => have := hh n rfl; simp only [Option.getD_some]; omega
  rw [this, List.replicate_zero, List.append_nil]

/-- A hint that is too large makes the value longer than the variable: with `Vec<u8>` the caller gets
bytes that are not in it. -/
theorem get_variable_large_hint (dbg : Bool) {unit : Nat} {fw : Firmware σ} {s : σ} {vs : Vars}
    (h : Has unit fw s vs) {buf name : Str} (hn : cstr buf = some name) {ns : Nat} {v : Var}
    (hv : vs.lookup name ns = some v) {n : Nat} (hh : v.data.length < n) :
    ∃ d, getVariable dbg fw id s buf ns (some n) some = .ok (d, v.attrs) ∧ d.length = n ∧ d ≠ v.data := by
  refine ⟨v.data ++ List.replicate (n - v.data.length) 0, ?_, ?_, ?_⟩
  · rw [get_variable_value dbg h h hn hv]
    rfl
  · simp only [List.length_append, List.length_replicate]; omega
  · intro e
    have := congrArg List.length e
    simp only [List.length_append, List.length_replicate] at this
    omega

/-- **C85**: a variable that is not there is not found. -/
theorem get_variable_absent (dbg : Bool) {unit : Nat} {fw : Firmware σ} {s : σ} {vs : Vars} (h : Has unit fw s vs)
    {buf name : Str} (hn : cstr buf = some name) {ns : Nat} (hv : vs.lookup name ns = none) (later : σ → σ)
    (hint : Option Nat) (conv : List UInt8 → Option T) :
    getVariable dbg fw later s buf ns hint conv = .err NOT_FOUND ∧ sizeAndAttributes dbg fw s buf ns = .err NOT_FOUND := by
  constructor
  · unfold getVariable
    rw [if_pos (cstr_mem hn), resize_nil]
    rcases get_call dbg h hn ns (List.replicate (hint.getD 0) (0 : UInt8)) with ⟨_, b, he⟩ | ⟨w, hl, _⟩ | ⟨w, hl, _⟩
    · simp only [he, finish]
    · rw [hv] at hl; cases hl
    · rw [hv] at hl; cases hl
  · unfold sizeAndAttributes
    rw [if_pos (cstr_mem hn)]
    rcases get_call dbg h hn ns [] with ⟨_, b, he⟩ | ⟨w, hl, _⟩ | ⟨w, hl, _⟩
    · simp only [bufferOf, if_pos] at he
      simp only [he]
    · rw [hv] at hl; cases hl
    · rw [hv] at hl; cases hl

/-- **C85**: the size and attributes are those of the variable. -/
theorem size_and_attributes (dbg : Bool) {unit : Nat} {fw : Firmware σ} {s : σ} {vs : Vars} (h : Has unit fw s vs)
    {buf name : Str} (hn : cstr buf = some name) {ns : Nat} {v : Var} (hv : vs.lookup name ns = some v) :
    sizeAndAttributes dbg fw s buf ns = .ok (v.data.length, v.attrs) := by
  unfold sizeAndAttributes
  rw [if_pos (cstr_mem hn)]
  rcases get_call dbg h hn ns [] with ⟨hl, _⟩ | ⟨w, hl, _, he⟩ | ⟨w, hl, hle, he⟩
  · rw [hv] at hl; cases hl
  · rw [hv] at hl
    injection hl with hl
    subst hl
    simp only [bufferOf, if_pos] at he
    simp only [he]
  · have := (h.valid.1 w (List.mem_of_find?_eq_some hl)).2.2
    cases hw : w.data with
    | nil => exact absurd hw this
    | cons x xs => rw [hw] at hle; simp at hle

/-- **C85**, if something writes the variable between the two calls: the caller gets the new value if
it is as long as the old one; a larger one is refused, a deleted one is not found; of a smaller one
the caller gets the value followed by bytes that belong to no variable. -/
theorem get_variable_raced (dbg : Bool) {unit : Nat} {fw : Firmware σ} {later : σ → σ} {s : σ} {vs vs2 : Vars}
    (h : Has unit fw s vs) (h2 : Has unit fw (later s) vs2) {buf name : Str} (hn : cstr buf = some name) {ns : Nat} {v : Var}
    (hv : vs.lookup name ns = some v) (conv : List UInt8 → Option T) :
    getVariable dbg fw later s buf ns none conv =
      match vs2.lookup name ns with
      | none => .err NOT_FOUND
      | some w => if v.data.length < w.data.length then .err BUFFER_TOO_SMALL
        else converted conv (w.data ++ List.replicate (v.data.length - w.data.length) 10) w.attrs := by
  unfold getVariable
  rw [if_pos (cstr_mem hn), resize_nil]
  have hne := (h.valid.1 v (List.mem_of_find?_eq_some hv)).2.2
  rcases get_call dbg h hn ns (List.replicate ((none : Option Nat).getD 0) (0 : UInt8)) with ⟨hl, _⟩ | ⟨w, hl, hlt, he⟩ | ⟨w, hl, hle, he⟩
  · rw [hv] at hl; cases hl
  · rw [hv] at hl
    injection hl with hl
    subst hl
    simp only [he]
    have er : resize (List.replicate ((none : Option Nat).getD 0) (0 : UInt8)) v.data.length 10 = List.replicate v.data.length 10 := by
      simp only [Option.getD_none, List.replicate_zero, resize_nil]
    rw [er]
    rcases get_call dbg h2 hn ns (List.replicate v.data.length (10 : UInt8)) with
      ⟨hl, b, he'⟩ | ⟨w, hl, hlt', he'⟩ | ⟨w, hl, hle', he'⟩
    · rw [hl, he']
      simp only [finish]
    · rw [List.length_replicate] at hlt'
      rw [hl, he']
      simp only [finish]
      rw [if_pos hlt']
    · rw [List.length_replicate] at hle'
      rw [hl, he']
      dsimp only
      rw [if_neg (by omega), finish_success]
      unfold overwrite
      rw [List.drop_replicate]
  · rw [hv] at hl
    injection hl with hl
    subst hl
    simp only [Option.getD_none, List.replicate_zero, List.length_nil, Nat.le_zero, List.length_eq_zero_iff] at hle
    exact absurd hle hne

/-- **C85**: after a successful `set_variable`, reading gives what was written (or nothing, if nothing
was), and every other variable is as it was. -/
theorem set_then_get (dbg : Bool) {unit : Nat} {fw : Firmware σ} (hs : Sets unit fw) {s : σ} {vs : Vars} (h : Has unit fw s vs)
    {buf name : Str} (hn : cstr buf = some name) {ns attrs : Nat} {data : List UInt8} {s' : σ}
    (he : setVariable dbg fw s buf ns attrs data = (.ok (), s')) :
    getVariable dbg fw id s' buf ns none some = (if data = [] then .err NOT_FOUND else .ok (data, attrs)) ∧
    ∀ buf' name' ns', cstr buf' = some name' → ¬ (name' = name ∧ ns' = ns) →
      getVariable dbg fw id s' buf' ns' none some = getVariable dbg fw id s buf' ns' none some := by
  obtain ⟨f, hf, hset⟩ := hs.set
  have hm := hset s vs buf name ns attrs data h hn
  unfold setVariable setUnchecked at he
  rw [if_pos (cstr_mem hn), hf] at he
  dsimp only at he
  cases hr : f s buf ns attrs data with
  | mk st s1 =>
    rw [hr] at he hm
    injection he with h1 h2
    subst h2
    have hne : isError st = false := by
      cases hb : isError st with
      | false => rfl
      | true => rw [if_pos hb] at h1; cases h1
    obtain ⟨vs', hvs', hl, ho⟩ := hm hne
    constructor
    · by_cases hd : data = []
      · rw [if_pos hd] at hl ⊢
        exact (get_variable_absent dbg hvs' hn hl id none some).1
      · rw [if_neg hd] at hl ⊢
        rw [get_variable_exact_partial dbg hvs' hvs' hn hl (by intro n hn; cases hn)]
        rfl
    · intro buf' name' ns' hn' hdiff
      have hlo := ho name' ns' hdiff
      cases hl' : vs.lookup name' ns' with
      | none =>
        rw [hl'] at hlo
        rw [(get_variable_absent dbg hvs' hn' hlo id none some).1, (get_variable_absent dbg h hn' hl' id none some).1]
      | some v =>
        rw [hl'] at hlo
        rw [get_variable_exact_partial dbg hvs' hvs' hn' hlo (by intro n hn; cases hn),
          get_variable_exact_partial dbg h h hn' hl' (by intro n hn; cases hn)]

/-- **C85**: a name that is not terminated never reaches the firmware: refused in a release build,
a failed assertion in a debug build. -/
theorem unterminated_refused (dbg : Bool) (fw : Firmware σ) (later : σ → σ) (s : σ) {buf : Str} (hn : 0 ∉ buf)
    (ns attrs : Nat) (data : List UInt8) (hint : Option Nat) (conv : List UInt8 → Option T) :
    setVariable dbg fw s buf ns attrs data = (if dbg then .panic else .err INVALID_PARAMETER, s) ∧
    getVariable dbg fw later s buf ns hint conv = (if dbg then .panic else .err INVALID_PARAMETER) ∧
    sizeAndAttributes dbg fw s buf ns = (if dbg then .panic else .err INVALID_PARAMETER) := by
  refine ⟨?_, ?_, ?_⟩
  · unfold setVariable; rw [if_neg hn]
  · unfold getVariable; rw [if_neg hn]
  · unfold sizeAndAttributes; rw [if_neg hn]

/-- **C85**: an error of the firmware is the error the caller gets, and a refused write leaves the
variables to what the firmware left. A warning is not an error. -/
theorem set_reports (dbg : Bool) {fw : Firmware σ} {f : σ → Str → Nat → Nat → List UInt8 → Status × σ} (hf : fw.set = some f)
    (s : σ) {buf : Str} (hn : 0 ∈ buf) (ns attrs : Nat) (data : List UInt8) :
    setVariable dbg fw s buf ns attrs data =
      (if 2 ^ 63 ≤ (f s buf ns attrs data).1 then .err (f s buf ns attrs data).1 else .ok (), (f s buf ns attrs data).2) := by
  unfold setVariable setUnchecked
  rw [if_pos hn, hf]
  simp only [isError, decide_eq_true_eq]

theorem query_reports (dbg : Bool) {fw : Firmware σ} {f : σ → Nat → Status × Nat × Nat × Nat} (hf : fw.query = some f)
    (s : σ) (attrs : Nat) :
    queryInfo dbg fw s attrs = (if 2 ^ 63 ≤ (f s attrs).1 then .err (f s attrs).1 else .ok (f s attrs).2) := by
  unfold queryInfo
  rw [hf]
  simp only [isError, decide_eq_true_eq]

/-! ### C86: listing -/

/-- A name as the listing functions can use it: terminated, and so long that the terminator is inside
the size they pass. -/
def Usable (unit : Nat) (buf name : Str) : Prop := cstr buf = some name ∧ unit * (name.length + 1) ≤ buf.length

theorem usable_one {buf name : Str} (h : cstr buf = some name) : Usable 1 buf name := by
  refine ⟨h, ?_⟩
  obtain ⟨_, r, rfl⟩ := cstr_some h
  simp only [List.length_append, List.length_cons]
  omega

theorem overwrite_length {α : Type} (l w : List α) (h : w.length ≤ l.length) : (overwrite l w).length = l.length := by
  unfold overwrite
  simp only [List.length_append, List.length_drop]
  omega

theorem startName_length (prev next : Str) : (startName prev next).length = max prev.length next.length := by
  unfold startName
  split
  · rename_i h
    rw [overwrite_length _ _ (by rw [length_resize]; exact Nat.le_refl _), length_resize]
    omega
  · rename_i h
    rw [overwrite_length _ _ (by omega)]
    omega

theorem startName_prefix (prev next : Str) : ∃ r, startName prev next = prev ++ r := by
  unfold startName overwrite
  exact ⟨_, rfl⟩

theorem cstr_prefix {buf name : Str} (h : cstr buf = some name) (r : Str) {n : Nat} (hn : name.length + 1 ≤ n) :
    cstr ((buf ++ r).take n) = some name := by
  obtain ⟨h0, r', rfl⟩ := cstr_some h
  have : (name ++ 0 :: r' ++ r).take n = name ++ 0 :: (r' ++ r).take (n - (name.length + 1)) := by
    rw [List.append_assoc, List.take_append, List.take_of_length_le (by omega)]
    congr 1
    rw [List.cons_append, show n - name.length = (n - (name.length + 1)) + 1 by omega, List.take_succ_cons]
  rw [this]
  exact cstr_append h0 _

/-- What one step of the listing does. `buf'`, `ns'` are the name and namespace it hands out. -/
theorem next_call (dbg : Bool) {unit : Nat} (hu : 0 < unit) {fw : Firmware σ} {s : σ} {vs : Vars} (h : Has unit fw s vs)
    {prev name : Str} (hp : Usable unit prev name) (ns : Nat) (next : Str) (nextNs : Nat) :
    match vs.after name ns with
    | none => (nextUnchecked dbg fw s prev ns next nextNs).1 = .err INVALID_PARAMETER
    | some [] => (nextUnchecked dbg fw s prev ns next nextNs).1 = .err NOT_FOUND
    | some (v :: _) => ∃ buf, nextUnchecked dbg fw s prev ns next nextNs = (.ok (), buf, v.ns) ∧ Usable unit buf v.name := by
  obtain ⟨f, hf, hN⟩ := h.next
  have hsz : name.length + 1 ≤ (startName prev next).length / unit := by
    rw [Nat.le_div_iff_mul_le hu, startName_length, Nat.mul_comm]
    exact Nat.le_trans hp.2 (Nat.le_max_left _ _)
  obtain ⟨r0, hr0⟩ := startName_prefix prev next
  have hc : cstr ((startName prev next).take ((startName prev next).length / unit)) = some name := by
    rw [hr0] at hsz ⊢
    exact cstr_prefix hp.1 r0 hsz
  have h1 := hN (startName prev next).length (startName prev next) ns
  unfold NextOk at h1
  rw [hc] at h1
  dsimp only at h1
  unfold nextUnchecked
  rw [hf]
  dsimp only
  cases ha : vs.after name ns with
  | none =>
    rw [ha] at h1
    dsimp only at h1 ⊢
    rw [h1, if_neg (by decide), if_pos (by decide)]
  | some l =>
    rw [ha] at h1
    cases l with
    | nil =>
      dsimp only at h1 ⊢
      rw [h1, if_neg (by decide), if_pos (by decide)]
    | cons v rest =>
      dsimp only at h1 ⊢
      have hv : v ∈ vs := by
        have : ∀ l, vs.after name ns = some l → ∀ x ∈ l, x ∈ vs := by
          intro l hl x hx
          unfold Vars.after at hl
          split at hl
          · injection hl with hl; rw [hl]; exact hx
          · split at hl
            · cases hl
            · rename_i y rest' hd
              injection hl with hl
              subst hl
              have : x ∈ vs.dropWhile fun v => ¬ (v.name = name ∧ v.ns = ns) := by
                rw [hd]; exact List.mem_cons_of_mem _ hx
              exact List.dropWhile_sublist _ |>.subset this
        exact this _ ha v (List.mem_cons_self ..)
      have hv0 := (h.valid.1 v hv).2.1
      have done : ∀ (b : Str), unit * (v.name.length + 1) ≤ b.length → Usable unit (overwrite b (v.name ++ [0])) v.name := by
        intro b hb
        refine ⟨?_, ?_⟩
        · unfold overwrite
          rw [List.append_assoc]
          exact cstr_append hv0 _
        · rw [overwrite_length]
          · exact hb
          · simp only [List.length_append, List.length_cons, List.length_nil]
            have : 1 * (v.name.length + 1) ≤ unit * (v.name.length + 1) := Nat.mul_le_mul_right _ hu
            omega
      by_cases hlt : (startName prev next).length < unit * (v.name.length + 1)
      · rw [if_pos hlt] at h1
        obtain ⟨e1, e2, e3⟩ := h1
        rw [if_pos e1, e2, if_pos hlt]
        have hplen : prev.length ≤ unit * (v.name.length + 1) := by
          have := startName_length prev next
          omega
        -- the second call sees the same name
        generalize hb : overwrite (resize (overwrite (startName prev next)
          (f s (startName prev next).length (startName prev next) ns).written) (unit * (v.name.length + 1)) 0) prev = b
        have hbl : b.length = unit * (v.name.length + 1) := by
          rw [← hb, overwrite_length _ _ (by rw [length_resize]; exact hplen), length_resize]
        have hbp : ∃ r, b = prev ++ r := ⟨_, hb.symm⟩
        obtain ⟨r, hr⟩ := hbp
        have hc2 : cstr (b.take (unit * (v.name.length + 1) / unit)) = some name := by
          have hb2 : name.length + 1 ≤ unit * (v.name.length + 1) / unit := by
            rw [Nat.le_div_iff_mul_le hu, Nat.mul_comm]
            exact Nat.le_trans hp.2 hplen
          rw [hr]
          exact cstr_prefix hp.1 r hb2
        have h2 := hN (unit * (v.name.length + 1)) b ns
        unfold NextOk at h2
        rw [hc2] at h2
        dsimp only at h2
        rw [ha] at h2
        dsimp only at h2
        rw [if_neg (Nat.lt_irrefl _)] at h2
        obtain ⟨g1, g2, g3⟩ := h2
        unfold secondTry
        dsimp only
        rw [g1, g2, g3, if_neg (by decide)]
        exact ⟨_, rfl, done b (by omega)⟩
      · rw [if_neg hlt] at h1
        obtain ⟨e1, e2, e3⟩ := h1
        rw [e1, if_neg (by decide), if_neg (by decide), e2, e3]
        exact ⟨_, rfl, done _ (by omega)⟩

/-- The variables after one are those after its successor, behind it. -/
theorem after_step {vs : Vars} (hv : vs.Valid) {name : Str} {ns : Nat} {v : Var} {rest : Vars}
    (h : vs.after name ns = some (v :: rest)) : vs.after v.name v.ns = some rest := by
  have key : ∀ (pre : Vars), vs = pre ++ v :: rest → vs.after v.name v.ns = some rest := by
    intro pre e
    unfold Vars.after
    have hne := (hv.1 v (by rw [e]; simp)).1
    rw [if_neg hne]
    have hd : (vs.dropWhile fun x => ¬ (x.name = v.name ∧ x.ns = v.ns)) = v :: rest := by
      rw [e]
      have hp := hv.2
      rw [e, List.pairwise_append] at hp
      have hall : ∀ x ∈ pre, decide (¬ (x.name = v.name ∧ x.ns = v.ns)) = true := by
        intro x hx
        exact decide_eq_true (hp.2.2 x hx v (List.mem_cons_self ..))
      rw [List.dropWhile_append_of_pos hall, List.dropWhile_cons_of_neg (by simp)]
    rw [hd]
  unfold Vars.after at h
  split at h
  · injection h with h
    exact key [] h
  · split at h
    · cases h
    · rename_i y rest' hd
      injection h with h
      subst h
      have := List.takeWhile_append_dropWhile (p := fun x => decide (¬ (x.name = name ∧ x.ns = ns))) (l := vs)
      rw [hd] at this
      exact key (vs.takeWhile (fun x => decide (¬ (x.name = name ∧ x.ns = ns))) ++ [y]) (by rw [List.append_assoc]; exact this.symm)

/-- `n` steps of the iterator: what each returned. -/
def Iter.steps (dbg : Bool) (fw : Firmware σ) (s : σ) : Nat → Iter → List (Outcome Status (Option (Str × Nat)))
  | 0, _ => []
  | n + 1, it => (it.step dbg fw s).1 :: Iter.steps dbg fw s n (it.step dbg fw s).2

/-- A step handed out that variable. -/
def Gives (v : Var) (r : Outcome Status (Option (Str × Nat))) : Prop := ∃ buf, r = .ok (some (buf, v.ns)) ∧ cstr buf = some v.name

theorem steps_finished (dbg : Bool) (fw : Firmware σ) (s : σ) (n : Nat) {it : Iter} (h : it.finished = true) :
    Iter.steps dbg fw s n it = List.replicate n (.ok none) := by
  induction n with
  | zero => rfl
  | succ n ih =>
    have hs : it.step dbg fw s = (.ok none, it) := by
      unfold Iter.step Iter.advance
      rw [if_pos h]
      simp only [Iter.get, h, if_pos]
    unfold Iter.steps
    rw [hs, ih, List.replicate_succ]

/-- **C86**: an iterator at a usable name hands out the variables after it, each once, in order, and
then nothing, however often it is asked. -/
theorem iterator_lists (dbg : Bool) {unit : Nat} (hu : 0 < unit) {fw : Firmware σ} {s : σ} {vs : Vars} (h : Has unit fw s vs)
    {it : Iter} (hf : it.finished = false) {name : Str} (hp : Usable unit it.current.1 name) {rest : Vars}
    (ha : vs.after name it.current.2 = some rest) (more : Nat) :
    ∃ gs, Iter.steps dbg fw s (rest.length + 1 + more) it = gs ++ List.replicate (1 + more) (.ok none) ∧
      gs.length = rest.length ∧ ∀ i (hi : i < rest.length), ∃ r, gs[i]? = some r ∧ Gives rest[i] r := by
  induction rest generalizing it name with
  | nil =>
    refine ⟨[], ?_, rfl, by intro i hi; simp at hi⟩
    have hc := next_call dbg hu h hp it.current.2 it.next.1 it.next.2
    rw [ha] at hc
    dsimp only at hc
    cases hr : nextUnchecked dbg fw s it.current.1 it.current.2 it.next.1 it.next.2 with
    | mk r n =>
      rw [hr] at hc
      dsimp only at hc
      subst hc
      have hs : it.step dbg fw s = (.ok none, ⟨n, it.current, true⟩) := by
        unfold Iter.step Iter.advance
        rw [if_neg (by rw [hf]; decide), hr]
        simp only [if_pos, Iter.get]
      rw [show ([] : Vars).length + 1 + more = more + 1 by simp [Nat.add_comm], Iter.steps, hs, steps_finished _ _ _ _ rfl,
        List.nil_append, Nat.add_comm 1 more, List.replicate_succ]
  | cons v rest ih =>
    have hc := next_call dbg hu h hp it.current.2 it.next.1 it.next.2
    rw [ha] at hc
    dsimp only at hc
    obtain ⟨buf, hr, hub⟩ := hc
    have hs : it.step dbg fw s = (.ok (some (buf, v.ns)), ⟨(buf, v.ns), it.current, false⟩) := by
      unfold Iter.step Iter.advance
      rw [if_neg (by rw [hf]; decide), hr]
      simp [Iter.get]
    obtain ⟨gs, hg, hl, hgi⟩ := ih (it := ⟨(buf, v.ns), it.current, false⟩) rfl hub (after_step h.valid ha)
    refine ⟨.ok (some (buf, v.ns)) :: gs, ?_, by simp [hl], ?_⟩
    · rw [show (v :: rest).length + 1 + more = (rest.length + 1 + more) + 1 by simp; omega, Iter.steps, hs, hg]
      rfl
    · intro i hi
      cases i with
      | zero => exact ⟨_, rfl, buf, rfl, hub.1⟩
      | succ i =>
        simp only [List.length_cons] at hi
        obtain ⟨r, h1, h2⟩ := hgi i (by omega)
        exact ⟨r, by simpa using h1, by simpa using h2⟩

/-- **C86**: an iterator from the start lists every variable. Partial: with firmware that counts
characters, like the mock the project tests with; not with firmware that counts bytes as the
specification says (`iterator_refused`). -/
theorem iterator_from_first_partial (dbg : Bool) {fw : Firmware σ} {s : σ} {vs : Vars} (h : Has 1 fw s vs) (more : Nat) :
    ∃ gs, Iter.steps dbg fw s (vs.length + 1 + more) Iter.first = gs ++ List.replicate (1 + more) (.ok none) ∧
      gs.length = vs.length ∧ ∀ i (hi : i < vs.length), ∃ r, gs[i]? = some r ∧ Gives vs[i] r :=
  iterator_lists dbg (by decide) h (it := Iter.first) rfl (name := []) (usable_one rfl) rfl more

/-- The same from a variable. -/
theorem iterator_from_variable_partial (dbg : Bool) {fw : Firmware σ} {s : σ} {vs : Vars} (h : Has 1 fw s vs) {buf name : Str}
    (hn : cstr buf = some name) {ns : Nat} {rest : Vars} (ha : vs.after name ns = some rest) (more : Nat) :
    ∃ gs, Iter.steps dbg fw s (rest.length + 1 + more) (Iter.fromVariable buf ns) = gs ++ List.replicate (1 + more) (.ok none) ∧
      gs.length = rest.length ∧ ∀ i (hi : i < rest.length), ∃ r, gs[i]? = some r ∧ Gives rest[i] r :=
  iterator_lists dbg (by decide) h (it := Iter.fromVariable buf ns) rfl (usable_one hn) ha more

/-- The size passed to the firmware is the number of characters, not of bytes: firmware that follows
the specification does not find the terminator of a name that is passed without padding, and
refuses it. So `get_next_variable_name` refuses the name of every variable there is. -/
theorem next_exact_refused (dbg : Bool) {fw : Firmware σ} {s : σ} {vs : Vars} (h : Has 2 fw s vs) {name : Str}
    (hn : 0 ∉ name) (ns : Nat) (next : Str) (hl : next.length ≤ name.length + 1) (nextNs : Nat) :
    (nextUnchecked dbg fw s (name ++ [0]) ns next nextNs).1 = .err INVALID_PARAMETER ∧
    getNextVariableName dbg fw s (name ++ [0]) ns = .err INVALID_PARAMETER := by
  have key : ∀ (next : Str) (nextNs : Nat), next.length ≤ name.length + 1 →
      (nextUnchecked dbg fw s (name ++ [0]) ns next nextNs).1 = .err INVALID_PARAMETER := by
    intro next nextNs hl
    obtain ⟨f, hf, hN⟩ := h.next
    have hlen : (startName (name ++ [0]) next).length = name.length + 1 := by
      rw [startName_length]
      simp only [List.length_append, List.length_cons, List.length_nil]
      omega
    have hc : cstr ((startName (name ++ [0]) next).take ((startName (name ++ [0]) next).length / 2)) = none := by
      rw [hlen]
      obtain ⟨r, hr⟩ := startName_prefix (name ++ [0]) next
      rw [hr, cstr_none, List.append_assoc, List.take_append_of_le_length (by omega)]
      intro hm
      exact hn (List.mem_of_mem_take hm)
    have h1 := hN (startName (name ++ [0]) next).length (startName (name ++ [0]) next) ns
    unfold NextOk at h1
    rw [hc] at h1
    dsimp only at h1
    unfold nextUnchecked
    rw [hf]
    dsimp only
    rw [h1, if_neg (by decide), if_pos (by decide)]
  refine ⟨key next nextNs hl, ?_⟩
  unfold getNextVariableName
  rw [if_neg (by simp)]
  have := key [] 0 (by simp)
  cases hr : nextUnchecked dbg fw s (name ++ [0]) ns [] 0 with
  | mk r n =>
    rw [hr] at this
    dsimp only at this
    rw [this]

/-- So an iterator from the start lists nothing: its first step fails. -/
theorem iterator_refused (dbg : Bool) {fw : Firmware σ} {s : σ} {vs : Vars} (h : Has 2 fw s vs) :
    (Iter.first.step dbg fw s).1 = .err INVALID_PARAMETER := by
  have := (next_exact_refused dbg h (name := []) (by simp) 0 [] (by simp) 0).1
  unfold Iter.step Iter.advance
  rw [if_neg (by decide)]
  simp only [List.nil_append] at this
  cases hr : nextUnchecked dbg fw s Iter.first.current.1 Iter.first.current.2 Iter.first.next.1 Iter.first.next.2 with
  | mk r n =>
    have : r = .err INVALID_PARAMETER := by
      rw [← this]
      exact (congrArg Prod.fst hr).symm
    subst this
    simp only
    rw [if_neg (by decide)]

/-- **C86**, with firmware that follows the specification: from a name with enough room behind it
`get_next_variable_name` gives the next variable, with a name that can be passed on. So a caller that
starts with `[0, 0]` and passes on what it gets sees every variable. -/
theorem next_passed_on (dbg : Bool) {unit : Nat} (hu : 0 < unit) {fw : Firmware σ} {s : σ} {vs : Vars} (h : Has unit fw s vs)
    {prev name : Str} (hp : Usable unit prev name) (ns : Nat) :
    match vs.after name ns with
    | none => getNextVariableName dbg fw s prev ns = .err INVALID_PARAMETER
    | some [] => getNextVariableName dbg fw s prev ns = .err NOT_FOUND
    | some (v :: rest) => ∃ buf, getNextVariableName dbg fw s prev ns = .ok (buf, v.ns) ∧ Usable unit buf v.name ∧
        vs.after v.name v.ns = some rest := by
  have hc := next_call dbg hu h hp ns [] 0
  have hne : prev ≠ [] := by
    intro e
    have := cstr_mem hp.1
    rw [e] at this
    simp at this
  unfold getNextVariableName
  rw [if_neg hne]
  cases ha : vs.after name ns with
  | none =>
    rw [ha] at hc
    dsimp only at hc ⊢
    cases hr : nextUnchecked dbg fw s prev ns [] 0 with
    | mk r n => rw [hr] at hc; dsimp only at hc; rw [hc]
  | some l =>
    rw [ha] at hc
    cases l with
    | nil =>
      dsimp only at hc ⊢
      cases hr : nextUnchecked dbg fw s prev ns [] 0 with
      | mk r n => rw [hr] at hc; dsimp only at hc; rw [hc]
    | cons v rest =>
      dsimp only at hc ⊢
      obtain ⟨buf, hr, hub⟩ := hc
      rw [hr]
      exact ⟨buf, rfl, hub, after_step h.valid ha⟩

theorem usable_start : Usable 2 [0, 0] [] := ⟨rfl, by decide⟩

/-- **C86**: the size the firmware is told is never more than the buffer it gets has: whatever it does
with a larger one has no effect. -/
theorem next_in_bounds (dbg : Bool) {fw fw' : Firmware σ} {f f' : σ → Nat → Str → Nat → NextReply}
    (hf : fw.next = some f) (hf' : fw'.next = some f')
    (hs : ∀ s size buf ns, size ≤ 2 * buf.length → f' s size buf ns = f s size buf ns)
    (s : σ) (prev : Str) (ns : Nat) (next : Str) (nextNs : Nat) :
    nextUnchecked dbg fw' s prev ns next nextNs = nextUnchecked dbg fw s prev ns next nextNs := by
  unfold nextUnchecked
  rw [hf, hf']
  dsimp only
  rw [hs s (startName prev next).length (startName prev next) ns (by omega)]
  split
  · split
    · unfold secondTry
      rw [hs _ _ _ _ ?_]
      unfold overwrite
      simp only [List.length_append, List.length_drop, length_resize]
      omega
    · rfl
  · rfl

end Verif.Variable
