import Verif.Stack.Image
/-! Unwinding on x64: the frame of the caller from a prologue and its record. -/
namespace Verif.Stack.X64
open Verif Verif.Stack Verif.Stack.Spec Verif.Stack.Spec.X64

/-! ### The table -/

theorem entries_get (m : Mem) : ∀ (fs : List Func) (a : Nat), Entries m a fs → ∀ j (hj : j < fs.length), entry m (a + j * 12) = .ok fs[j]
  | [], _, _, j, hj => by simp at hj
  | f :: fs, a, h, 0, _ => by
    obtain ⟨h1, h2, h3, _⟩ := h
    simp only [Nat.zero_mul, Nat.add_zero, List.getElem_cons_zero, entry, h1, h2, h3]
  | f :: fs, a, h, j + 1, hj => by
    have := entries_get m fs (a + 12) h.2.2.2 j (by simpa using hj)
    rw [show a + (j + 1) * 12 = a + 12 + j * 12 by omega]
    simpa using this

/-- C87: in a table in order, the function a return address belongs to is found: the one that has the byte before it. -/
theorem find_function (dbg : Bool) (m : Mem) (base off size rva : Nat) (name : Option (List UInt8)) (fs : List Func) (hl : Loaded m base off size)
    (hd : Directory m base off size rva (fs.length * 12)) (he : Entries m (base + rva) fs) (hs : fs.Pairwise (fun f g => f.end_ ≤ g.start))
    (f : Func) (hf : f ∈ fs) (pc : Nat) (h1 : f.start < pc) (h2 : pc ≤ f.end_) :
    findFunction dbg m ⟨base, name, ⟨base, size⟩⟩ pc = .ok f := by
  unfold findFunction
  rw [tableSlice_ok dbg m base off size rva _ name hl hd]
  simp only [bind, Outcome.bind]
  rw [Nat.mul_mod_left, Nat.mul_div_cancel _ (by decide)]
  exact findEntry_sorted _ 12 0 pc fs (base + rva) (entries_get m fs _ he) hs f hf h1 h2

/-- C87: an address that is in no function is reported as such. -/
theorem find_function_none (dbg : Bool) (m : Mem) (base off size rva : Nat) (name : Option (List UInt8)) (fs : List Func) (hl : Loaded m base off size)
    (hd : Directory m base off size rva (fs.length * 12)) (he : Entries m (base + rva) fs) (pc : Nat)
    (hn : ∀ f ∈ fs, ¬ (f.start ≤ pc ∧ pc ≤ f.end_)) :
    findFunction dbg m ⟨base, name, ⟨base, size⟩⟩ pc = .err .runtimeFunctionNotFound := by
  unfold findFunction
  rw [tableSlice_ok dbg m base off size rva _ name hl hd]
  simp only [bind, Outcome.bind]
  rw [Nat.mul_mod_left, Nat.mul_div_cancel _ (by decide)]
  exact findEntry_none _ 12 0 pc fs (base + rva) (entries_get m fs _ he) hn

/-- Finding: if the size of the table is not that of whole entries, looking up an address that is in no function panics. -/
theorem cut_table_panics (dbg : Bool) (m : Mem) (base off size rva extra : Nat) (name : Option (List UInt8)) (fs : List Func) (hl : Loaded m base off size)
    (hd : Directory m base off size rva (fs.length * 12 + extra)) (hx : 0 < extra) (hx2 : extra < 12) (he : Entries m (base + rva) fs) (pc : Nat)
    (hn : ∀ f ∈ fs, ¬ (f.start ≤ pc ∧ pc ≤ f.end_)) :
    findFunction dbg m ⟨base, name, ⟨base, size⟩⟩ pc = .panic := by
  unfold findFunction
  rw [tableSlice_ok dbg m base off size rva _ name hl hd]
  simp only [bind, Outcome.bind]
  rw [show (fs.length * 12 + extra) % 12 = extra by omega, show (fs.length * 12 + extra) / 12 = fs.length by omega]
  rw [findEntry_none _ 12 extra pc fs (base + rva) (entries_get m fs _ he) hn, if_neg (by omega)]

/-- Finding: the first byte of a function is taken to be in the function before it if there is no gap. -/
theorem first_byte_misattributed (dbg : Bool) (m : Mem) (base off size rva : Nat) (name : Option (List UInt8)) (fs : List Func)
    (hl : Loaded m base off size) (hd : Directory m base off size rva (fs.length * 12)) (he : Entries m (base + rva) fs)
    (hs : fs.Pairwise (fun f g => f.end_ ≤ g.start)) (hne : ∀ f ∈ fs, f.start < f.end_) (f g : Func) (hf : f ∈ fs) (hg : g ∈ fs) (h : g.end_ = f.start) :
    findFunction dbg m ⟨base, name, ⟨base, size⟩⟩ f.start = .ok g :=
  h ▸ find_function dbg m base off size rva name fs hl hd he hs g hg g.end_ (hne g hg) (Nat.le_refl _)

/-! ### The codes -/

theorem byte (n : Nat) (h : n < 256) : (UInt8.ofNat n).toNat = n := by simp [Nat.mod_eq_of_lt h]

theorem plus_zero (r : Outcome Err Nat) : plus 0 r = r := by cases r <;> simp [plus]

theorem plus_plus (a b : Nat) (r : Outcome Err Nat) : plus a (plus b r) = plus (a + b) r := by
  cases r <;> simp [plus, Nat.add_assoc]

theorem two (n : Nat) : leBytes 2 n = [UInt8.ofNat (n % 256), UInt8.ofNat (n / 256 % 256)] := rfl

theorem four (n : Nat) : leBytes 4 n =
    [UInt8.ofNat (n % 256), UInt8.ofNat (n / 256 % 256), UInt8.ofNat (n / 256 / 256 % 256), UInt8.ofNat (n / 256 / 256 / 256 % 256)] := rfl

/-- Each operation the trace handles adds what the processor took. -/
theorem offset_op (a : UInt8) (o : Op) (rest : List UInt8) (hok : o.Ok) (hh : o.Handled) :
    offset (o.encode a ++ rest) = plus o.size (offset rest) := by
  cases o with
  | push r =>
    simp only [Op.Ok] at hok
    simp only [Op.encode, List.cons_append, List.nil_append, Op.size]
    conv => lhs; unfold offset
    simp only [byte _ (show r * 16 + 0 < 256 by omega), show (r * 16 + 0) % 16 = 0 by omega]
  | allocSmall n =>
    simp only [Op.Ok] at hok
    simp only [Op.encode, List.cons_append, List.nil_append, Op.size]
    conv => lhs; unfold offset
    simp only [byte _ (show (n / 8 - 1) * 16 + 2 < 256 by omega), show ((n / 8 - 1) * 16 + 2) % 16 = 2 by omega]
    rw [show ((n / 8 - 1) * 16 + 2) / 16 * 8 + 8 = n by omega]
  | allocLarge n =>
    simp only [Op.Ok] at hok
    have hv : leVal (leBytes 2 (n / 8)) = n / 8 := leVal_leBytes_of_lt (by omega)
    rw [two] at hv
    simp only [Op.encode, two, List.cons_append, List.nil_append, Op.size]
    conv => lhs; unfold offset
    simp only [byte _ (show 0 * 16 + 1 < 256 by omega), show (0 * 16 + 1) % 16 = 1 by omega, show (0 * 16 + 1) / 16 = 0 by omega]
    rw [hv, show n / 8 * 8 = n by omega]
  | allocHuge n =>
    simp only [Op.Ok] at hok
    have hv : leVal (leBytes 4 n) = n := leVal_leBytes_of_lt (by omega)
    rw [four] at hv
    simp only [Op.encode, four, List.cons_append, List.nil_append, Op.size]
    conv => lhs; unfold offset
    simp only [byte _ (show 1 * 16 + 1 < 256 by omega), show (1 * 16 + 1) % 16 = 1 by omega, show (1 * 16 + 1) / 16 = 1 by omega]
    rw [hv]
  | setFp =>
    simp only [Op.encode, List.cons_append, List.nil_append, Op.size, plus_zero]
    conv => lhs; unfold offset
    simp only [byte _ (show 0 * 16 + 3 < 256 by omega), show (0 * 16 + 3) % 16 = 3 by omega]
  | saveReg r o =>
    simp only [Op.Ok] at hok
    simp only [Op.encode, two, List.cons_append, List.nil_append, Op.size, plus_zero]
    conv => lhs; unfold offset
    simp only [byte _ (show r * 16 + 4 < 256 by omega), show (r * 16 + 4) % 16 = 4 by omega]
  | saveRegFar r o =>
    simp only [Op.Ok] at hok
    simp only [Op.encode, four, List.cons_append, List.nil_append, Op.size, plus_zero]
    conv => lhs; unfold offset
    simp only [byte _ (show r * 16 + 5 < 256 by omega), show (r * 16 + 5) % 16 = 5 by omega]
  | epilog x =>
    simp only [Op.Ok] at hok
    simp only [Op.encode, List.cons_append, List.nil_append, Op.size, plus_zero]
    conv => lhs; unfold offset
    simp only [byte _ (show x * 16 + 6 < 256 by omega), show (x * 16 + 6) % 16 = 6 by omega]
  | saveXmm r o => exact hh.elim
  | saveXmmFar r o => exact hh.elim
  | machFrame c => exact hh.elim

theorem codes_snoc (p : Prologue) (x : UInt8 × Op) : codes (p ++ [x]) = x.2.encode x.1 ++ codes p := by
  simp [codes]

/-- The bytes a prologue takes from the stack. -/
def total : Prologue → Nat
  | [] => 0
  | x :: p => x.2.size + total p

theorem total_append : ∀ p q : Prologue, total (p ++ q) = total p + total q
  | [], q => by simp [total]
  | x :: p, q => by simp [total, total_append p q, Nat.add_assoc]

theorem runs_total {p : Prologue} {sp0 sp : Nat} (h : Runs p sp0 sp) : sp + total p = sp0 := by
  induction h with
  | nil => rfl
  | snoc x _ he ih => rw [total_append]; simp only [total]; omega

theorem exists_snoc {α : Type} : ∀ l : List α, l = [] ∨ ∃ p x, l = p ++ [x]
  | [] => .inl rfl
  | a :: l => by
    rcases exists_snoc l with rfl | ⟨p, x, rfl⟩
    · exact .inr ⟨[], a, rfl⟩
    · exact .inr ⟨a :: p, x, rfl⟩

/-- The codes add up to what the prologue takes from the stack. -/
theorem offset_codes : ∀ (n : Nat) (p : Prologue), p.length = n → (∀ x ∈ p, x.2.Ok) → (∀ x ∈ p, x.2.Handled) → offset (codes p) = .ok (total p)
  | 0, p, hn, _, _ => by
    rw [List.length_eq_zero_iff] at hn
    subst hn
    simp [codes, offset, total]
  | n + 1, p, hn, h1, h2 => by
    rcases exists_snoc p with rfl | ⟨q, x, rfl⟩
    · simp at hn
    · rw [codes_snoc, offset_op _ _ _ (h1 x (by simp)) (h2 x (by simp)),
        offset_codes n q (by simpa using hn) (fun y hy => h1 y (by simp [hy])) (fun y hy => h2 y (by simp [hy]))]
      simp only [plus, total_append, total]
      congr 1
      omega

theorem parse_record (m : Mem) (a limit : Nat) (p : Prologue) (h : Record m a limit p) :
    ∃ u, parse m ⟨a, limit - a⟩ = .ok u ∧ u.codes = codes p := by
  have hr := h.room
  have hc := h.count
  refine ⟨⟨num m a 1 % 8, num m a 1 / 8, num m (a + 1) 1, num m (a + 2) 1, num m (a + 3) 1 % 16, num m (a + 3) 1 / 16 * 16,
    bytesAt m (a + 4) (num m (a + 2) 1 * 2)⟩, ?_, by simp only [hc]; exact h.slots⟩
  unfold parse
  have r : ∀ i, i < 4 → (⟨a, limit - a⟩ : Slice).read m i 1 = .ok (num m (a + i) 1) := fun i hi => read_ok m _ _ _ (by simp only; omega)
  rw [r 0 (by omega), r 1 (by omega), r 2 (by omega), r 3 (by omega)]
  simp only [bind, Outcome.bind, Nat.add_zero]
  rw [if_neg (by have := h.version; omega), if_neg (by omega)]

/-- Whatever the stack pointer is: the caller's frame is computed from it as if the whole prologue had run, and nothing else had moved it. -/
theorem caller_computed (dbg : Bool) (m : Mem) (base size : Nat) (name : Option (List UInt8)) (f : Func) (p : Prologue)
    (h : Record m (base + f.unwind) (base + size) p) (hh : ∀ x ∈ p, x.2.Handled) (sp : Nat) (hsp : sp + total p + 8 < 2 ^ 64) :
    (do let u ← unwindInfo m ⟨base, name, ⟨base, size⟩⟩ f; callerFrame dbg m u sp)
      = .ok (sp + total p + 8, num m (sp + total p) 8) := by
  have hr := h.room
  obtain ⟨u, hu, hc⟩ := parse_record m _ _ p h
  unfold unwindInfo
  have hsub : Slice.sub ⟨base, size⟩ f.unwind size = .ok ⟨base + f.unwind, size - f.unwind⟩ := by
    unfold Slice.sub; rw [if_pos (by simp only; omega)]
  rw [show base + size - (base + f.unwind) = size - f.unwind by omega] at hu
  simp only [bind, Outcome.bind, hsub, hu]
  unfold callerFrame infoOffset
  rw [hc, offset_codes _ p rfl h.ok hh]
  simp only [bind, Outcome.bind]
  rw [add_ok _ _ _ _ (by omega)]
  simp only
  rw [add_ok _ _ _ _ (by omega)]

/-- C87, for prologues without XMM registers and machine frames, in the body of a function that keeps the stack pointer where the prologue left it
and has an unwind record of its own: the frame computed is that of the caller, its stack pointer behind the return address and the return address.
The full property, for every point of every function, does not hold: see the theorems below. -/
theorem frame_partial (dbg : Bool) (utf8 : List UInt8 → Bool) (m : Mem) (pc sp base : Nat) (name : Option (List UInt8)) (sp0 ret : Nat)
    (h : Active utf8 m pc sp base name sp0 ret) :
    ∃ size, locateImage utf8 m pc = .ok ⟨base, name, ⟨base, size⟩⟩ ∧
      frame dbg m ⟨base, name, ⟨base, size⟩⟩ ((pc - base) % 2 ^ 32) sp = some (.ok (sp0 + 8, ret)) := by
  obtain ⟨off, size, rva, fs, f, p, ha, hn, hd, he, hs, hf, h1, h2, hrec, hh, hrun, hret, hlt⟩ := h.call
  refine ⟨size, locate_around utf8 m pc base off size name ha hn, ?_⟩
  have hsz : size < 2 ^ 32 := by have := num_lt m (base + off + 0x50) 4; rw [ha.loaded.imageSize] at this; exact this
  have hi := ha.inside
  have ht := runs_total hrun
  unfold frame
  rw [Nat.mod_eq_of_lt (show pc - base < 2 ^ 32 by omega),
    find_function dbg m base off size rva name fs ha.loaded hd he hs f hf _ h1 h2]
  have := caller_computed dbg m base size name f p hrec hh sp (by omega)
  rw [ht, hret] at this
  exact congrArg some this

/-! ### What is not handled -/

/-- Finding: in the prologue, when only `p` of `p ++ q` has run, the frame is off by what the rest takes. -/
theorem prologue_off (dbg : Bool) (m : Mem) (base size : Nat) (name : Option (List UInt8)) (f : Func) (p q : Prologue)
    (h : Record m (base + f.unwind) (base + size) (p ++ q)) (hh : ∀ x ∈ p ++ q, x.2.Handled) (sp0 sp : Nat) (hrun : Runs p sp0 sp)
    (hlt : sp0 + total q + 8 < 2 ^ 64) :
    (do let u ← unwindInfo m ⟨base, name, ⟨base, size⟩⟩ f; callerFrame dbg m u sp)
      = .ok (sp0 + total q + 8, num m (sp0 + total q) 8) := by
  have ht := runs_total hrun
  have := caller_computed dbg m base size name f (p ++ q) h hh sp (by rw [total_append]; omega)
  rwa [total_append, ← Nat.add_assoc, ht] at this

/-- Finding: a function that takes `d` more bytes from the stack, which the frame pointer is for, has its caller's frame computed `d` too low. -/
theorem alloca_off (dbg : Bool) (m : Mem) (base size : Nat) (name : Option (List UInt8)) (f : Func) (p : Prologue)
    (h : Record m (base + f.unwind) (base + size) p) (hh : ∀ x ∈ p, x.2.Handled) (sp0 sp d : Nat) (hrun : Runs p sp0 (sp + d))
    (hlt : sp0 + 8 < 2 ^ 64) :
    (do let u ← unwindInfo m ⟨base, name, ⟨base, size⟩⟩ f; callerFrame dbg m u sp) = .ok (sp0 - d + 8, num m (sp0 - d) 8) := by
  have ht := runs_total hrun
  have := caller_computed dbg m base size name f p h hh sp (by omega)
  rwa [show sp + total p = sp0 - d by omega] at this

/-- How many XMM registers a prologue stores. -/
def xmms : Prologue → Nat
  | [] => 0
  | x :: p => (match x.2 with | .saveXmm .. => 1 | _ => 0) + xmms p

theorem xmms_append : ∀ p q : Prologue, xmms (p ++ q) = xmms p + xmms q
  | [], q => by simp [xmms]
  | x :: p, q => by simp [xmms, xmms_append p q, Nat.add_assoc]

theorem offset_xmm (a : UInt8) (r o : Nat) (rest : List UInt8) (hr : r < 16) (ho : o < 4096) :
    offset ((Op.saveXmm r o).encode a ++ rest) = plus 8 (offset rest) := by
  simp only [Op.encode, two, List.cons_append, List.nil_append]
  conv => lhs; unfold offset
  simp only [byte _ (show r * 16 + 8 < 256 by omega), show (r * 16 + 8) % 16 = 8 by omega]
  conv => lhs; unfold offset
  simp only [byte _ (show o / 16 / 256 % 256 < 256 by omega), show o / 16 / 256 % 256 % 16 = 0 by omega]

/-- Finding: an XMM register stored at an offset below 4096 counts as 8 bytes of stack, since its operand is read as a code, a push. -/
theorem xmm_counted : ∀ (n : Nat) (p : Prologue), p.length = n → (∀ x ∈ p, x.2.Ok) →
    (∀ x ∈ p, x.2.Handled ∨ ∃ r o, x.2 = .saveXmm r o ∧ o < 4096) → offset (codes p) = .ok (total p + 8 * xmms p)
  | 0, p, hn, _, _ => by
    rw [List.length_eq_zero_iff] at hn
    subst hn
    simp [codes, offset, total, xmms]
  | n + 1, p, hn, h1, h2 => by
    rcases exists_snoc p with rfl | ⟨q, x, rfl⟩
    · simp at hn
    · have ih := xmm_counted n q (by simpa using hn) (fun y hy => h1 y (by simp [hy])) (fun y hy => h2 y (by simp [hy]))
      have hx := h1 x (by simp)
      rcases h2 x (by simp) with hh | ⟨r, o, he, ho⟩
      · rw [codes_snoc, offset_op _ _ _ hx hh, ih]
        have h0 : xmms [x] = 0 := by
          obtain ⟨a, o⟩ := x
          cases o <;> first | rfl | exact hh.elim
        simp only [plus, total_append, total, xmms_append, h0]
        congr 1
        omega
      · obtain ⟨a, op⟩ := x
        simp only at he
        subst he
        rw [codes_snoc, offset_xmm a r o _ hx.1 ho, ih]
        simp only [plus, total_append, total, xmms_append, xmms, Op.size]
        congr 1
        omega

/-- Finding: the trace takes a function that stores an XMM register for one with a larger frame. -/
theorem xmm_wrong (p : Prologue) (hok : ∀ x ∈ p, x.2.Ok) (h : ∀ x ∈ p, x.2.Handled ∨ ∃ r o, x.2 = .saveXmm r o ∧ o < 4096) (hx : 0 < xmms p) :
    offset (codes p) ≠ .ok (total p) := by
  rw [xmm_counted _ p rfl hok h]
  intro e
  injection e with e
  omega

/-- Finding: the frame the processor pushes on an interrupt does not count. -/
theorem machine_frame_ignored (a : UInt8) (code : Bool) (p : Prologue) (hok : ∀ x ∈ p, x.2.Ok) (hh : ∀ x ∈ p, x.2.Handled) :
    offset (codes ((a, Op.machFrame code) :: p)) = .ok (total p) ∧ total ((a, Op.machFrame code) :: p) = (if code then 48 else 40) + total p := by
  refine ⟨?_, rfl⟩
  have key : ∀ (n : Nat) (p : Prologue), p.length = n → (∀ x ∈ p, x.2.Ok) → (∀ x ∈ p, x.2.Handled) → ∀ rest, offset rest = .ok 0 →
      offset (codes p ++ rest) = .ok (total p) := by
    intro n
    induction n with
    | zero =>
      intro p hn _ _ rest hr
      rw [List.length_eq_zero_iff] at hn
      subst hn
      simpa [codes, total] using hr
    | succ n ih =>
      intro p hn h1 h2 rest hr
      rcases exists_snoc p with rfl | ⟨q, x, rfl⟩
      · simp at hn
      · rw [codes_snoc, List.append_assoc, offset_op _ _ _ (h1 x (by simp)) (h2 x (by simp)),
          ih q (by simpa using hn) (fun y hy => h1 y (by simp [hy])) (fun y hy => h2 y (by simp [hy])) rest hr]
        simp only [plus, total_append, total]
        congr 1
        omega
  rw [show codes ((a, Op.machFrame code) :: p) = codes p ++ (Op.machFrame code).encode a by simp [codes]]
  refine key _ p rfl hok hh _ ?_
  cases code <;> simp [Op.encode, offset]

/-- Finding: a code of the kinds 11 to 15 panics. -/
theorem unknown_panics (a c : UInt8) (rest : List UInt8) (h : 11 ≤ c.toNat % 16) : offset (a :: c :: rest) = .panic := by
  have h16 : c.toNat % 16 < 16 := Nat.mod_lt _ (by decide)
  unfold offset
  generalize c.toNat % 16 = k at h h16 ⊢
  have : k = 11 ∨ k = 12 ∨ k = 13 ∨ k = 14 ∨ k = 15 := by omega
  rcases this with rfl | rfl | rfl | rfl | rfl <;> rfl

/-- Finding: unwind data that is not in the image panics. -/
theorem outside_panics (m : Mem) (i : Image) (f : Func) (h : i.bytes.len < f.unwind) : unwindInfo m i f = .panic := by
  unfold unwindInfo
  simp only [bind, Outcome.bind]
  unfold Slice.sub
  rw [if_neg (by omega)]

/-- Finding: a record whose codes end where the image ends is refused. -/
theorem last_refused (m : Mem) (i : Image) (f : Func) (h4 : 4 ≤ i.bytes.len - f.unwind)
    (h : i.bytes.len = f.unwind + 4 + num m (i.bytes.base + f.unwind + 2) 1 * 2) : unwindInfo m i f = .err .unwindInfoNotFound := by
  unfold unwindInfo
  simp only [bind, Outcome.bind]
  unfold Slice.sub
  rw [if_pos (by omega)]
  simp only
  have : parse m ⟨i.bytes.base + f.unwind, i.bytes.len - f.unwind⟩ = .err .malformed := by
    unfold parse
    have r : ∀ k, k < 4 → (⟨i.bytes.base + f.unwind, i.bytes.len - f.unwind⟩ : Slice).read m k 1 = .ok (num m (i.bytes.base + f.unwind + k) 1) :=
      fun k hk => read_ok m _ _ _ (by simp only; omega)
    rw [r 0 (by omega), r 1 (by omega), r 2 (by omega), r 3 (by omega)]
    simp only [bind, Outcome.bind]
    split
    · rfl
    · rw [if_pos (by omega)]
  rw [this]

/-- Finding: a record that continues another one is read as if it were the only one: what it is chained to does not matter. -/
theorem chained_ignored (m m' : Mem) (s : Slice) (hsame : ∀ a, a ≠ s.base → m' a = m a) (hv : (m' s.base).toNat % 8 = (m s.base).toNat % 8)
    (u : Info) (h : parse m s = .ok u) : ∃ u', parse m' s = .ok u' ∧ infoOffset u' = infoOffset u := by
  have same : ∀ n a, s.base < a → bytesAt m' a n = bytesAt m a n := by
    intro n
    induction n with
    | zero => intro a _; rfl
    | succ n ih => intro a ha; simp only [bytesAt]; rw [hsame a (by omega), ih (a + 1) (by omega)]
  have first : ∀ mm : Mem, num mm s.base 1 = (mm s.base).toNat := fun mm => by simp [num, bytesAt, leVal]
  unfold parse at h ⊢
  by_cases h4 : 4 ≤ s.len
  · have r : ∀ mm : Mem, ∀ k, k < 4 → s.read mm k 1 = .ok (num mm (s.base + k) 1) := fun mm k hk => read_ok mm _ _ _ (by omega)
    rw [r m 0 (by omega), r m 1 (by omega), r m 2 (by omega), r m 3 (by omega)] at h
    rw [r m' 0 (by omega), r m' 1 (by omega), r m' 2 (by omega), r m' 3 (by omega)]
    simp only [bind, Outcome.bind, Nat.add_zero] at h ⊢
    rw [first, hv, ← first]
    have e : ∀ k, 0 < k → num m' (s.base + k) 1 = num m (s.base + k) 1 := fun k hk => by unfold num; rw [same _ _ (by omega)]
    rw [e 1 (by omega), e 2 (by omega), e 3 (by omega), same _ _ (by omega)]
    split at h
    · cases h
    · split at h
      · cases h
      · rename_i h1 h2
        rw [if_neg h1, if_neg h2]
        injection h with h
        subst h
        exact ⟨_, rfl, rfl⟩
  · exfalso
    by_cases h0 : s.len = 0
    · rw [read_short m s 0 1 (by omega)] at h; cases h
    · rw [read_ok m s 0 1 (by omega)] at h
      simp only [bind, Outcome.bind] at h
      split at h
      · cases h
      · by_cases h1 : s.len = 1
        · rw [read_short m s 1 1 (by omega)] at h; cases h
        · rw [read_ok m s 1 1 (by omega)] at h
          simp only at h
          by_cases h2 : s.len = 2
          · rw [read_short m s 2 1 (by omega)] at h; cases h
          · rw [read_ok m s 2 1 (by omega)] at h
            simp only at h
            rw [read_short m s 3 1 (by omega)] at h
            cases h

end Verif.Stack.X64
