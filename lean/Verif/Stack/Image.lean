import Verif.Stack.Spec
/-! The image around an address, its name and its exception table. -/
namespace Verif.Stack
open Verif Verif.Stack.Spec

theorem bytesAt_length (m : Mem) : ∀ (n a : Nat), (bytesAt m a n).length = n
  | 0, _ => rfl
  | n + 1, a => by simp [bytesAt, bytesAt_length m n]

theorem bytesAt_append (m : Mem) : ∀ (n a k : Nat), bytesAt m a (n + k) = bytesAt m a n ++ bytesAt m (a + n) k
  | 0, a, k => by simp [bytesAt]
  | n + 1, a, k => by
    rw [show n + 1 + k = (n + k) + 1 by omega]
    simp only [bytesAt, List.cons_append]
    rw [bytesAt_append m n (a + 1) k, show a + 1 + n = a + (n + 1) by omega]

theorem leVal_bound : ∀ l : List UInt8, leVal l < 256 ^ l.length
  | [] => by decide
  | b :: l => by
    have := leVal_bound l
    have hb := b.toNat_lt
    simp only [leVal, List.length_cons, Nat.pow_succ]
    omega

theorem num_lt (m : Mem) (a n : Nat) : num m a n < 256 ^ n := by
  have := leVal_bound (bytesAt m a n); rw [bytesAt_length] at this; exact this

theorem read_ok (m : Mem) (s : Slice) (i n : Nat) (h : i + n ≤ s.len) : s.read m i n = .ok (num m (s.base + i) n) := by
  unfold Slice.read; rw [if_neg (by omega)]

theorem read_short (m : Mem) (s : Slice) (i n : Nat) (h : s.len < i + n) : s.read m i n = .err .bufferTooShort := by
  unfold Slice.read; rw [if_pos (by omega)]

theorem add_ok (dbg : Bool) (bits a b : Nat) (h : a + b < 2 ^ bits) : add dbg bits a b = .ok (a + b) := by
  unfold add; rw [if_pos h]

/-! ### The name -/

theorem takeWhile_skip (c : UInt8) (a b : List UInt8) (h : c ∉ a) : (a ++ c :: b).takeWhile (· ≠ c) = a := by
  induction a with
  | nil => simp
  | cons x a ih =>
    simp only [List.mem_cons, not_or] at h
    rw [List.cons_append, List.takeWhile_cons_of_pos (by simpa using fun e => h.1 e.symm), ih h.2]

theorem dropWhile_skip (c : UInt8) (a b : List UInt8) (h : c ∉ a) : (a ++ c :: b).dropWhile (· ≠ c) = c :: b := by
  induction a with
  | nil => simp
  | cons x a ih =>
    simp only [List.mem_cons, not_or] at h
    rw [List.cons_append, List.dropWhile_cons_of_pos (by simpa using fun e => h.1 e.symm), ih h.2]

theorem takeWhile_all (c : UInt8) (a : List UInt8) (h : c ∉ a) : a.takeWhile (· ≠ c) = a := by
  induction a with
  | nil => rfl
  | cons x a ih =>
    simp only [List.mem_cons, not_or] at h
    rw [List.takeWhile_cons_of_pos (by simpa using fun e => h.1 e.symm), ih h.2]

theorem behindLast_none (c : UInt8) (l : List UInt8) (h : c ∉ l) : behindLast c l = l := by
  unfold behindLast; rw [takeWhile_all c l.reverse (by simpa using h), List.reverse_reverse]

theorem behindLast_some (c : UInt8) (d l : List UInt8) (h : c ∉ l) : behindLast c (d ++ [c] ++ l) = l := by
  unfold behindLast
  rw [show (d ++ [c] ++ l).reverse = l.reverse ++ c :: d.reverse by simp, takeWhile_skip c _ _ (by simpa using h), List.reverse_reverse]

theorem beforeLast_some (c : UInt8) (d l : List UInt8) (h : c ∉ l) : beforeLast c (d ++ [c] ++ l) = some d := by
  unfold beforeLast
  rw [if_pos (by simp), show (d ++ [c] ++ l).reverse = l.reverse ++ c :: d.reverse by simp, dropWhile_skip c _ _ (by simpa using h)]
  simp

theorem entry_ok (m : Mem) (a i : Nat) (h : i + 4 ≤ 0x1c) : orZero ((⟨a, 0x1c⟩ : Slice).read m i 4) = num m (a + i) 4 := by
  rw [read_ok m _ _ _ h]; rfl

theorem codeView_finds (m : Mem) (a n k fuel : Nat) (hk : k < n) (hf : k < fuel) (hno : ∀ j, j < k → num m (a + j * 0x1c + 0xc) 4 ≠ 2)
    (hy : num m (a + k * 0x1c + 0xc) 4 = 2) :
    codeView m fuel ⟨a, n * 0x1c⟩ = some (num m (a + k * 0x1c + 0x14) 4, num m (a + k * 0x1c + 0x10) 4) := by
  induction k generalizing a n fuel with
  | zero =>
    obtain ⟨fuel, rfl⟩ : ∃ x, fuel = x + 1 := ⟨fuel - 1, by omega⟩
    unfold codeView
    rw [if_neg (show ¬ n * 0x1c = 0 by omega)]
    have hm : min 0x1c (n * 0x1c) = 0x1c := by omega
    simp only [hm]
    simp only [Nat.zero_mul, Nat.add_zero] at hy ⊢
    rw [entry_ok m a 0xc (by omega), entry_ok m a 0x14 (by omega), entry_ok m a 0x10 (by omega), if_pos hy]
  | succ k ih =>
    obtain ⟨fuel, rfl⟩ : ∃ x, fuel = x + 1 := ⟨fuel - 1, by omega⟩
    unfold codeView
    rw [if_neg (show ¬ n * 0x1c = 0 by omega)]
    have hm : min 0x1c (n * 0x1c) = 0x1c := by omega
    have h0 := hno 0 (by omega)
    simp only [Nat.zero_mul, Nat.add_zero] at h0
    simp only [hm]
    rw [entry_ok m a 0xc (by omega), if_neg h0, show n * 0x1c - 0x1c = (n - 1) * 0x1c by omega]
    rw [ih (a + 0x1c) (n - 1) fuel (by omega) (by omega)
      (fun j hj => by have := hno (j + 1) (by omega); rwa [show a + (j + 1) * 0x1c + 0xc = a + 0x1c + j * 0x1c + 0xc by omega] at this)
      (by rwa [show a + (k + 1) * 0x1c + 0xc = a + 0x1c + k * 0x1c + 0xc by omega] at hy)]
    rw [show a + 0x1c + k * 0x1c + 0x14 = a + (k + 1) * 0x1c + 0x14 by omega,
      show a + 0x1c + k * 0x1c + 0x10 = a + (k + 1) * 0x1c + 0x10 by omega]

theorem page_ok (m : Mem) (rip i n : Nat) (h : i + n ≤ 4096) : page m rip i n = .ok (num m (rip + i) n) :=
  read_ok m ⟨rip, 4096⟩ i n h

theorem page_short (m : Mem) (rip i n : Nat) (h : 4096 < i + n) : page m rip i n = .err .bufferTooShort :=
  read_short m ⟨rip, 4096⟩ i n h

theorem imageAt_loaded (utf8 : List UInt8 → Bool) (m : Mem) (base off size : Nat) (h : Loaded m base off size) :
    imageAt utf8 m base
      = (nameIf utf8 m base (num m (base + off + 0xb8) 4) (num m (base + off + 0xbc) 4)).bind
          fun name => .ok (some ⟨base, name, ⟨base, size⟩⟩) := by
  have hr := h.room
  unfold imageAt
  rw [page_ok m base 0x3c 4 (by omega)]
  simp only [h.lfanew, bind, Outcome.bind]
  rw [page_ok m base off 4 (by omega)]
  simp only [h.signature, if_true]
  rw [page_ok m base (off + 0x50) 4 (by omega), page_ok m base (off + 0xb8) 4 (by omega), page_ok m base (off + 0xb8 + 4) 4 (by omega)]
  simp only [orZero]
  rw [show base + (off + 0xb8 + 4) = base + off + 0xbc by omega, show base + (off + 0xb8) = base + off + 0xb8 by omega,
    show base + (off + 0x50) = base + off + 0x50 by omega, h.imageSize]

/-- The image found has the name of its symbol file. -/
theorem imageAt_named (utf8 : List UInt8 → Bool) (m : Mem) (base off size : Nat) (stem : List UInt8) (h : Loaded m base off size)
    (hn : Named utf8 m base off stem) : imageAt utf8 m base = .ok (some ⟨base, some stem, ⟨base, size⟩⟩) := by
  obtain ⟨rva, n, k, path, folder, ext, at_, h1, h2, h3, h4, h5, h6, h7, h8, h9, h10, h11, h12, h13, h14, h15, h16⟩ := hn.directory
  have hb : behindLast 92 path = stem ++ [46] ++ ext := by
    have hx : (92 : UInt8) ∉ stem ++ [46] ++ ext := by
      simp only [List.mem_append, List.mem_singleton, not_or]
      exact ⟨⟨h14, by decide⟩, h15⟩
    rw [h12]
    rcases h13 with rfl | ⟨d, rfl⟩
    · simpa using behindLast_none 92 _ hx
    · rw [show d ++ [92] ++ stem ++ [46] ++ ext = d ++ [92] ++ (stem ++ [46] ++ ext) by simp]
      exact behindLast_some 92 d _ hx
  rw [imageAt_loaded utf8 m base off size h, h1, h2]
  unfold nameIf
  rw [if_pos (show n * 0x1c ≠ 0 by omega)]
  unfold imageName
  rw [codeView_finds m (base + rva) n k (n * 0x1c) h3 (by omega) h4 h5, h6, h7]
  simp only
  rw [if_neg (show ¬ (at_ = 0 ∨ 0x18 + path.length = 0) by omega), if_neg (show ¬ num m (base + at_) 4 ≠ 0x53445352 by simp [h9]),
    if_neg (show ¬ 0x18 + path.length < 0x18 by omega), Nat.add_sub_cancel_left, h10]
  simp only [h11, if_true]
  rw [hb, beforeLast_some 46 stem ext h16]
  rfl

/-- The image found has no name if it does not tell one. -/
theorem imageAt_unnamed (utf8 : List UInt8 → Bool) (m : Mem) (base off size : Nat) (h : Loaded m base off size)
    (hn : Unnamed m base off) : imageAt utf8 m base = .ok (some ⟨base, none, ⟨base, size⟩⟩) := by
  rw [imageAt_loaded utf8 m base off size h, hn]
  rfl

theorem imageAt_ok (utf8 : List UInt8 → Bool) (m : Mem) (base off size : Nat) (name : Option (List UInt8)) (h : Loaded m base off size)
    (hn : match name with | none => Unnamed m base off | some stem => Named utf8 m base off stem) :
    imageAt utf8 m base = .ok (some ⟨base, name, ⟨base, size⟩⟩) := by
  cases name with
  | none => exact imageAt_unnamed utf8 m base off size h hn
  | some stem => exact imageAt_named utf8 m base off size stem h hn

/-! ### The search -/

theorem locateFrom_down (utf8 : List UInt8 → Bool) (m : Mem) (q : Nat) : ∀ d, (∀ k, q < k → k ≤ q + d → num m (k * 4096) 2 ≠ 0x5a4d) →
    locateFrom utf8 m (q + d) = locateFrom utf8 m q
  | 0, _ => rfl
  | d + 1, h => by
    show locateFrom utf8 m (q + d + 1) = _
    rw [locateFrom, if_neg (h (q + d + 1) (by omega) (by omega)), locateFrom_down utf8 m q d (fun k h1 h2 => h k h1 (by omega))]

/-- C89: the image an address is in is found, with its name, if none of its pages up to there looks like an image. -/
theorem locate_around (utf8 : List UInt8 → Bool) (m : Mem) (pc base off size : Nat) (name : Option (List UInt8)) (h : Around m pc base off size)
    (hn : match name with | none => Unnamed m base off | some stem => Named utf8 m base off stem) :
    locateImage utf8 m pc = .ok ⟨base, name, ⟨base, size⟩⟩ := by
  have ha := h.loaded.aligned
  have hz := h.loaded.notZero
  have hi := h.inside
  unfold locateImage
  obtain ⟨q, hq⟩ : ∃ q, base = (q + 1) * 4096 := ⟨base / 4096 - 1, by omega⟩
  rw [show pc / 4096 = q + 1 + (pc / 4096 - (q + 1)) by omega,
    locateFrom_down utf8 m (q + 1) _ (fun k h1 h2 => h.plain k (by omega) (by omega))]
  unfold locateFrom
  rw [← hq, if_pos h.loaded.dos, imageAt_ok utf8 m base off size name h.loaded hn]

theorem below (pc q j : Nat) (hin : q * 4096 ≤ pc) (h : j ≤ q + (pc / 4096 - q)) : j * 4096 ≤ pc := by
  rw [Nat.add_sub_cancel' ((Nat.le_div_iff_mul_le (by decide)).2 hin)] at h
  exact Nat.le_trans (Nat.mul_le_mul_right _ h) (Nat.div_mul_le_self _ _)

/-- C89: an address above an image, and not in it, is taken to be in it: nothing compares it with the size of the image. -/
theorem locate_beyond (utf8 : List UInt8 → Bool) (m : Mem) (pc base off size : Nat) (h : Loaded m base off size) (hn : Unnamed m base off)
    (habove : base + size ≤ pc) (hplain : ∀ k, base < k * 4096 → k * 4096 ≤ pc → num m (k * 4096) 2 ≠ 0x5a4d) :
    locateImage utf8 m pc = .ok ⟨base, none, ⟨base, size⟩⟩ := by
  have ha := h.aligned
  have hz := h.notZero
  unfold locateImage
  obtain ⟨q, hq⟩ : ∃ q, base = (q + 1) * 4096 := ⟨base / 4096 - 1, by omega⟩
  rw [show pc / 4096 = q + 1 + (pc / 4096 - (q + 1)) by omega,
    locateFrom_down utf8 m (q + 1) _ (fun k h1 h2 => hplain k (by omega) (by omega))]
  unfold locateFrom
  rw [← hq, if_pos h.dos, imageAt_unnamed utf8 m base off size h hn]

/-- C89: a page that starts with `MZ` and is not an image ends the search if the place it gives for the header is not in the page. -/
theorem locate_stopped (utf8 : List UInt8 → Bool) (m : Mem) (pc k : Nat) (hk : 0 < k) (hin : k * 4096 ≤ pc) (hmz : num m (k * 4096) 2 = 0x5a4d)
    (hoff : 4092 < num m (k * 4096 + 0x3c) 4) (hplain : ∀ j, k < j → j * 4096 ≤ pc → num m (j * 4096) 2 ≠ 0x5a4d) :
    locateImage utf8 m pc = .err .bufferTooShort := by
  obtain ⟨q, rfl⟩ : ∃ q, k = q + 1 := ⟨k - 1, by omega⟩
  unfold locateImage
  rw [show pc / 4096 = q + 1 + (pc / 4096 - (q + 1)) by omega,
    locateFrom_down utf8 m (q + 1) _ (fun j h1 h2 => hplain j h1 (below pc (q + 1) j hin h2))]
  unfold locateFrom
  rw [if_pos hmz]
  have : imageAt utf8 m ((q + 1) * 4096) = .err .bufferTooShort := by
    unfold imageAt
    rw [page_ok m _ 0x3c 4 (by omega)]
    simp only [bind, Outcome.bind]
    rw [page_short m _ _ 4 (by omega)]
  rw [this]

theorem imageAt_sound (utf8 : List UInt8 → Bool) (m : Mem) (a : Nat) (i : Image) (h : imageAt utf8 m a = .ok (some i)) :
    i.base = a ∧ i.bytes.base = a ∧ num m (a + num m (a + 0x3c) 4) 4 = 0x4550 ∧ i.bytes.len = num m (a + num m (a + 0x3c) 4 + 0x50) 4 := by
  unfold imageAt at h
  rw [page_ok m a 0x3c 4 (by omega)] at h
  simp only [bind, Outcome.bind] at h
  generalize num m (a + 0x3c) 4 = off at h ⊢
  by_cases h1 : off + 4 ≤ 4096
  · rw [page_ok m a off 4 h1] at h
    simp only at h
    split at h
    · rename_i hs
      by_cases h2 : off + 0x50 + 4 ≤ 4096
      · rw [page_ok m a (off + 0x50) 4 h2] at h
        simp only at h
        generalize nameIf utf8 m a (orZero (page m a (off + 0xb8) 4)) (orZero (page m a (off + 0xb8 + 4) 4)) = nm at h
        cases nm with
        | ok nm =>
          simp only [Outcome.ok.injEq, Option.some.injEq] at h
          subst h
          exact ⟨rfl, rfl, hs, by rw [Nat.add_assoc]⟩
        | err _ => cases h
        | panic => cases h
      · rw [page_short m a _ 4 (by omega)] at h
        cases h
    · cases h
  · rw [page_short m a off 4 (by omega)] at h
    cases h

/-- C89: what is found starts with `MZ`, is at or below the address, and no page in between does unless it has no PE header. -/
theorem locate_sound (utf8 : List UInt8 → Bool) (m : Mem) (pc : Nat) (i : Image) (h : locateImage utf8 m pc = .ok i) :
    i.base % 4096 = 0 ∧ 0 < i.base ∧ i.base ≤ pc ∧ num m i.base 2 = 0x5a4d ∧ i.bytes.base = i.base ∧
    num m (i.base + num m (i.base + 0x3c) 4) 4 = 0x4550 ∧ i.bytes.len = num m (i.base + num m (i.base + 0x3c) 4 + 0x50) 4 := by
  unfold locateImage at h
  have key : ∀ q, locateFrom utf8 m q = .ok i → i.base % 4096 = 0 ∧ 0 < i.base ∧ i.base ≤ q * 4096 ∧ num m i.base 2 = 0x5a4d ∧
      i.bytes.base = i.base ∧
      num m (i.base + num m (i.base + 0x3c) 4) 4 = 0x4550 ∧ i.bytes.len = num m (i.base + num m (i.base + 0x3c) 4 + 0x50) 4 := by
    intro q
    induction q with
    | zero => intro h; simp [locateFrom] at h
    | succ q ih =>
      intro h
      unfold locateFrom at h
      have lift : locateFrom utf8 m q = .ok i → i.base % 4096 = 0 ∧ 0 < i.base ∧ i.base ≤ (q + 1) * 4096 ∧ num m i.base 2 = 0x5a4d ∧
          i.bytes.base = i.base ∧
          num m (i.base + num m (i.base + 0x3c) 4) 4 = 0x4550 ∧ i.bytes.len = num m (i.base + num m (i.base + 0x3c) 4 + 0x50) 4 := fun h => by
        obtain ⟨a, b, c, d⟩ := ih h
        exact ⟨a, b, Nat.le_trans c (Nat.mul_le_mul_right _ (Nat.le_succ q)), d⟩
      split at h
      · rename_i hmz
        cases e : imageAt utf8 m ((q + 1) * 4096) with
        | err _ => rw [e] at h; cases h
        | panic => rw [e] at h; cases h
        | ok o =>
          rw [e] at h
          cases o with
          | none => exact lift h
          | some j =>
            simp only [Outcome.ok.injEq] at h
            subst h
            obtain ⟨o2, o3, o4, o5⟩ := imageAt_sound utf8 m _ j e
            exact ⟨by rw [o2]; omega, by rw [o2]; omega, by rw [o2]; exact Nat.le_refl _, by rw [o2]; exact hmz, by rw [o2, o3], by rw [o2]; exact o4,
              by rw [o2]; exact o5⟩
      · exact lift h
  obtain ⟨a, b, c, d⟩ := key _ h
  exact ⟨a, b, by omega, d⟩

/-! ### The exception table -/

theorem tableSlice_ok (dbg : Bool) (m : Mem) (base off size rva bytes : Nat) (name : Option (List UInt8)) (hl : Loaded m base off size)
    (h : Directory m base off size rva bytes) :
    tableSlice dbg m ⟨base, name, ⟨base, size⟩⟩ = .ok ⟨base + rva, bytes⟩ := by
  have hh := h.header
  have hi := h.inside
  have hs : size < 2 ^ 32 := by have := num_lt m (base + off + 0x50) 4; rw [hl.imageSize] at this; exact this
  unfold tableSlice exceptionTable
  rw [read_ok m _ _ _ (show 0x3c + 4 ≤ size by omega)]
  simp only [bind, Outcome.bind, hl.lfanew]
  rw [read_ok m _ _ _ (show off + 0x18 + 2 ≤ size by omega)]
  simp only [show base + (off + 0x18) = base + off + 0x18 by omega, h.magic, if_true]
  rw [read_ok m _ _ _ (show off + 0xa0 + 4 ≤ size by omega), read_ok m _ _ _ (show off + 0xa0 + 4 + 4 ≤ size by omega)]
  simp only [show base + (off + 0xa0) = base + off + 0xa0 by omega, show base + (off + 0xa0 + 4) = base + off + 0xa4 by omega, h.at_, h.len]
  rw [if_neg (by have := h.notZero; omega)]
  simp only
  rw [add_ok dbg 32 rva bytes (by omega)]
  simp only
  unfold Slice.sub
  rw [if_pos (by simp only; omega), Nat.add_sub_cancel_left]

/-- C89: an image without an exception table is reported as one. -/
theorem table_missing (dbg : Bool) (m : Mem) (base off size : Nat) (name : Option (List UInt8)) (hl : Loaded m base off size)
    (hm : num m (base + off + 0x18) 2 = 0x20b) (hh : off + 0xa8 ≤ size)
    (h0 : num m (base + off + 0xa0) 4 = 0 ∨ num m (base + off + 0xa4) 4 = 0) :
    tableSlice dbg m ⟨base, name, ⟨base, size⟩⟩ = .err .exceptionDirectoryNotFound := by
  unfold tableSlice exceptionTable
  rw [read_ok m _ _ _ (show 0x3c + 4 ≤ size by omega)]
  simp only [bind, Outcome.bind, hl.lfanew]
  rw [read_ok m _ _ _ (show off + 0x18 + 2 ≤ size by omega)]
  simp only [show base + (off + 0x18) = base + off + 0x18 by omega, hm, if_true]
  rw [read_ok m _ _ _ (show off + 0xa0 + 4 ≤ size by omega), read_ok m _ _ _ (show off + 0xa0 + 4 + 4 ≤ size by omega)]
  simp only [show base + (off + 0xa0) = base + off + 0xa0 by omega, show base + (off + 0xa0 + 4) = base + off + 0xa4 by omega]
  rw [if_pos h0]

/-! ### The search in the table -/

/-- The function an address in the table is in is found, if the table is in order: a return address may be the end of the function, and the start
of the next one. -/
theorem findEntry_sorted (entry : Nat → Outcome Err Func) (width extra rva : Nat) : ∀ (fs : List Func) (a : Nat),
    (∀ j (hj : j < fs.length), entry (a + j * width) = .ok fs[j]) → fs.Pairwise (fun f g => f.end_ ≤ g.start) →
    ∀ f ∈ fs, f.start < rva → rva ≤ f.end_ → findEntry entry width extra rva fs.length a = .ok f
  | [], _, _, _, f, hf, _, _ => by simp at hf
  | g :: fs, a, he, hs, f, hf, h1, h2 => by
    have h0 := he 0 (by simp)
    simp only [Nat.zero_mul, Nat.add_zero, List.getElem_cons_zero] at h0
    show findEntry entry width extra rva (fs.length + 1) a = _
    unfold findEntry
    simp only [h0, bind, Outcome.bind]
    rw [List.pairwise_cons] at hs
    rcases List.mem_cons.1 hf with rfl | hf
    · rw [if_pos ⟨by omega, h2⟩]
    · have := hs.1 f hf
      rw [if_neg (by omega)]
      exact findEntry_sorted entry width extra rva fs (a + width)
        (fun j hj => by
          have := he (j + 1) (by simpa using hj)
          rw [show a + (j + 1) * width = a + width + j * width by rw [Nat.succ_mul]; omega] at this
          simpa using this) hs.2 f hf h1 h2

/-- An address in no function is not found; if the table does not end with a whole entry, that is a panic. -/
theorem findEntry_none (entry : Nat → Outcome Err Func) (width extra rva : Nat) : ∀ (fs : List Func) (a : Nat),
    (∀ j (hj : j < fs.length), entry (a + j * width) = .ok fs[j]) → (∀ f ∈ fs, ¬ (f.start ≤ rva ∧ rva ≤ f.end_)) →
    findEntry entry width extra rva fs.length a = if extra = 0 then .err .runtimeFunctionNotFound else .panic
  | [], _, _, _ => rfl
  | g :: fs, a, he, hs => by
    have h0 := he 0 (by simp)
    simp only [Nat.zero_mul, Nat.add_zero, List.getElem_cons_zero] at h0
    show findEntry entry width extra rva (fs.length + 1) a = _
    unfold findEntry
    simp only [h0, bind, Outcome.bind]
    rw [if_neg (hs g (by simp))]
    exact findEntry_none entry width extra rva fs (a + width)
        (fun j hj => by
          have := he (j + 1) (by simpa using hj)
          rw [show a + (j + 1) * width = a + width + j * width by rw [Nat.succ_mul]; omega] at this
          simpa using this) (fun f hf => hs f (by simp [hf]))

/-- The first byte of a function that starts where another one ends: the other one is found. -/
theorem findEntry_adjacent (entry : Nat → Outcome Err Func) (width extra : Nat) : ∀ (fs : List Func) (a : Nat),
    (∀ j (hj : j < fs.length), entry (a + j * width) = .ok fs[j]) → fs.Pairwise (fun f g => f.end_ ≤ g.start) →
    (∀ f ∈ fs, f.start < f.end_) → ∀ f ∈ fs, ∀ g ∈ fs, g.end_ = f.start → findEntry entry width extra f.start fs.length a = .ok g := by
  intro fs a he hs hne f hf g hg h
  have := hne g hg
  rw [← h]
  exact findEntry_sorted entry width extra g.end_ fs a he hs g hg this (Nat.le_refl _)

end Verif.Stack
