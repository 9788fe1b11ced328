import Verif.Fv.Model
/-!
C82: reading files through the firmware volume protocol.
-/
namespace Verif.Fv
open Verif.Ffs

/-! ### Specification vocabulary -/

/-- The files of the volume begin with `items` (padding included): the iterator yields them one after the other. What follows is open. -/
inductive Begins : FIter → List (Except FfsError FileRef) → Prop where
  | nil (it : FIter) : Begins it []
  | cons {it it' : FIter} {r : Except FfsError FileRef} {rs : List (Except FfsError FileRef)} (h : it.step = .item r it') (t : Begins it' rs) :
      Begins it (r :: rs)

/-- These are all. -/
inductive Ends : FIter → List (Except FfsError FileRef) → Prop where
  | done {it : FIter} (h : it.step = .done) : Ends it []
  | cons {it it' : FIter} {r : Except FfsError FileRef} {rs : List (Except FfsError FileRef)} (h : it.step = .item r it') (t : Ends it' rs) :
      Ends it (r :: rs)

/-- The interface `this` is that of a volume at `base` that may be read, and its files are in `it`. -/
structure Readable (m : Mem) (info : Info) (this base : Nat) (v : VolumeRef) (it : FIter) : Prop where
  known : info.get this = some (.volume, base)
  volume : openVolume m base = .ok v
  status : v.attributes &&& 4 ≠ 0
  iter : v.iter = .ok it

/-- `files()` lists exactly these. -/
theorem ends_of_drain : ∀ (n : Nat) (it : FIter) (rs : List (Except FfsError FileRef)), it.drain n = some (.ok rs) → Ends it rs := by
  intro n
  induction n with
  | zero => intro it rs h; cases h
  | succ n ih =>
    intro it rs h
    unfold FIter.drain at h
    split at h
    · rename_i hs; injection h with h; injection h with h; subst h; exact .done hs
    · cases h
    · rename_i r it' hs
      split at h
      · rename_i rs' hd
        injection h with h; injection h with h; subst h
        exact .cons hs (ih it' rs' hd)
      · rename_i hx
        exact absurd h (hx _)

theorem Ends.begins {it : FIter} {rs : List (Except FfsError FileRef)} (h : Ends it rs) : Begins it rs := by
  induction h with
  | done h => exact .nil _
  | cons h _ ih => exact .cons h ih

/-! ### Lemmas -/

/-- A listed item is found as soon as the iterator gets there. -/
theorem nth_begins {it : FIter} {rs : List (Except FfsError FileRef)} (hb : Begins it rs) (q : Except FfsError FileRef → Bool) :
    ∀ (n key : Nat) (r : Except FfsError FileRef), rs.length ≤ n → (rs.filter fun r => keepItem r && q r)[key]? = some r →
      nth q n key it = some (.ok (some r)) := by
  induction hb with
  | nil it => intro n key r _ h; simp at h
  | @cons it it' x rs h t ih =>
    intro n key r hn hk
    cases n with
    | zero => simp at hn
    | succ n =>
      have hn' : rs.length ≤ n := by simpa using hn
      unfold nth
      rw [h]
      simp only
      by_cases hq : (keepItem x && q x) = true
      · rw [if_pos hq]
        rw [List.filter_cons_of_pos (by simpa using hq)] at hk
        cases key with
        | zero => simp at hk; rw [hk]
        | succ key => exact ih n key r hn' (by simpa using hk)
      · rw [if_neg hq]
        rw [List.filter_cons_of_neg (by simpa using hq)] at hk
        exact ih n key r hn' hk

theorem nth_ends {it : FIter} {rs : List (Except FfsError FileRef)} (he : Ends it rs) (q : Except FfsError FileRef → Bool) :
    ∀ (n key : Nat), rs.length < n → (rs.filter fun r => keepItem r && q r)[key]? = none → nth q n key it = some (.ok none) := by
  induction he with
  | done h =>
    intro n key hn _
    cases n with
    | zero => simp at hn
    | succ n => unfold nth; rw [h]
  | @cons it it' x rs h t ih =>
    intro n key hn hk
    cases n with
    | zero => simp at hn
    | succ n =>
      have hn' : rs.length < n := by simpa using hn
      unfold nth
      rw [h]
      simp only
      by_cases hq : (keepItem x && q x) = true
      · rw [if_pos hq]
        rw [List.filter_cons_of_pos (by simpa using hq)] at hk
        cases key with
        | zero => simp at hk
        | succ key => exact ih n key hn' (by simpa using hk)
      · rw [if_neg hq]
        rw [List.filter_cons_of_neg (by simpa using hq)] at hk
        exact ih n key hn' hk

theorem Readable.eq {m : Mem} {info : Info} {this base : Nat} {v : VolumeRef} {it : FIter} (h : Readable m info this base v it) :
    readable m info this = .ok (v, it) := by
  unfold readable volumeOf
  rw [h.known]
  simp only [if_true, h.volume]
  rw [if_neg h.status, h.iter]

/-! ### ReadFile -/

/-- A file of that name that is not padding and before which there is neither an error nor another one of that name. -/
def FirstNamed (rs : List (Except FfsError FileRef)) (name : Nat) (f : FileRef) : Prop :=
  ∃ pre post, rs = pre ++ .ok f :: post ∧ f.name = name ∧ f.fileType ≠ 0xF0 ∧
    ∀ r ∈ pre, ∃ g, r = .ok g ∧ (g.name ≠ name ∨ g.fileType = 0xF0)

theorem filter_first {q : Except FfsError FileRef → Bool} {pre post : List (Except FfsError FileRef)} {r : Except FfsError FileRef}
    (hpre : ∀ x ∈ pre, (keepItem x && q x) = false) (hr : (keepItem r && q r) = true) :
    ((pre ++ r :: post).filter fun x => keepItem x && q x)[0]? = some r := by
  rw [List.filter_append, List.filter_eq_nil_iff.2 (fun x hx => by simp [hpre x hx]), List.nil_append, List.filter_cons_of_pos (by simpa using hr)]
  rfl

theorem find_named {m : Mem} {info : Info} {this base : Nat} {v : VolumeRef} {it : FIter} (h : Readable m info this base v it)
    {rs : List (Except FfsError FileRef)} (hb : Begins it rs) {fuel : Nat} (hf : rs.length ≤ fuel) {name : Nat} {f : FileRef}
    (hn : FirstNamed rs name f) : findFile m info fuel this name = some (.ok f) := by
  obtain ⟨pre, post, rfl, e1, e2, hpre⟩ := hn
  unfold findFile
  rw [h.eq]
  simp only
  rw [nth_begins hb (named name) fuel 0 (.ok f) hf (filter_first (fun x hx => by
    obtain ⟨g, rfl, hg⟩ := hpre x hx
    rcases hg with hg | hg
    · simp [named, hg]
    · simp [keepItem, hg]) (by simp [keepItem, named, e1, e2]))]
  rfl

theorem find_error {m : Mem} {info : Info} {this base : Nat} {v : VolumeRef} {it : FIter} (h : Readable m info this base v it)
    {pre : List FileRef} {e : FfsError} (hb : Begins it (pre.map Except.ok ++ [.error e])) {fuel : Nat} (hf : pre.length < fuel) {name : Nat}
    (hn : ∀ g ∈ pre, g.name ≠ name ∨ g.fileType = 0xF0) : findFile m info fuel this name = some (.err (.of e)) := by
  unfold findFile
  rw [h.eq]
  simp only
  rw [nth_begins hb (named name) fuel 0 (.error e) (by simp; omega) (filter_first (fun x hx => by
    obtain ⟨g, hg, rfl⟩ := List.mem_map.1 hx
    rcases hn g hg with hg | hg
    · simp [named, hg]
    · simp [keepItem, hg]) (by simp [keepItem, named]))]
  rfl

theorem find_none {m : Mem} {info : Info} {this base : Nat} {v : VolumeRef} {it : FIter} (h : Readable m info this base v it)
    {fs : List FileRef} (he : Ends it (fs.map Except.ok)) {fuel : Nat} (hf : fs.length < fuel) {name : Nat}
    (hn : ∀ g ∈ fs, g.name ≠ name ∨ g.fileType = 0xF0) : findFile m info fuel this name = some (.err .notFound) := by
  unfold findFile
  rw [h.eq]
  simp only
  rw [nth_ends he (named name) fuel 0 (by simpa using hf) (by
    rw [List.filter_eq_nil_iff.2]
    · rfl
    · intro x hx
      obtain ⟨g, hg, rfl⟩ := List.mem_map.1 hx
      rcases hn g hg with hg | hg
      · simp [named, hg]
      · simp [keepItem, hg])]
  rfl

/-- C82: ReadFile finds the first file of that name, whatever is behind it in the volume, and reports its type, its attributes and the size of its
content; into a buffer that is large enough it copies the content, and nothing is written to one that is too small. With the size 0 it allocates
the buffer. -/
theorem read_file_found (alloc : Nat → Except Status Nat) {m : Mem} {info : Info} {this base : Nat} {v : VolumeRef} {it : FIter}
    (h : Readable m info this base v it) {rs : List (Except FfsError FileRef)} (hb : Begins it rs) {fuel : Nat} (hf : rs.length ≤ fuel) {name : Nat}
    {f : FileRef} (hn : FirstNamed rs name f) {c : List UInt8} (hc : f.content = .ok c) :
    let md := (f.fileType, fileAttributes f.attrs, c.length)
    readFile alloc m info fuel this true name none 0 = some ⟨.success, some md, none, none⟩ ∧
    (∀ p size, 0 < size → size < c.length → readFile alloc m info fuel this true name (some p) size = some ⟨.bufferTooSmall, some md, none, none⟩) ∧
    (∀ p size, 0 < size → c.length ≤ size → p ≠ 0 →
      readFile alloc m info fuel this true name (some p) size = some ⟨.success, some md, none, some (p, c)⟩) ∧
    (∀ size, 0 < size → c.length ≤ size →
      readFile alloc m info fuel this true name (some 0) size = some ⟨.invalidParameter, some md, none, none⟩) ∧
    (∀ p a, alloc c.length = .ok a → readFile alloc m info fuel this true name (some p) 0 = some ⟨.success, some md, some a, some (a, c)⟩) ∧
    (∀ p e, alloc c.length = .error e → readFile alloc m info fuel this true name (some p) 0 = some ⟨e, some md, none, none⟩) := by
  have hr : ∀ buffer size, readFile alloc m info fuel this true name buffer size = some (deliver alloc f buffer size) := by
    intro buffer size
    unfold readFile
    rw [find_named h hb hf hn]
    rfl
  refine ⟨?_, fun p size h0 h1 => ?_, fun p size h0 h1 h2 => ?_, fun size h0 h1 => ?_, fun p a ha => ?_, fun p e ha => ?_⟩
  · rw [hr]; simp [deliver, hc]
  · rw [hr]; simp [deliver, hc, h0, h1]
  · rw [hr]; simp [deliver, hc, h0, Nat.not_lt.2 h1, h2]
  · rw [hr]; simp [deliver, hc, h0, Nat.not_lt.2 h1]
  · rw [hr]; simp [deliver, hc, ha]
  · rw [hr]; simp [deliver, hc, ha]

/-- C82: a caller that asks with a null buffer and then supplies a buffer of the size reported gets the whole content. -/
theorem read_file_retry (alloc : Nat → Except Status Nat) {m : Mem} {info : Info} {this base : Nat} {v : VolumeRef} {it : FIter}
    (h : Readable m info this base v it) {rs : List (Except FfsError FileRef)} (hb : Begins it rs) {fuel : Nat} (hf : rs.length ≤ fuel) {name : Nat}
    {f : FileRef} (hn : FirstNamed rs name f) {c : List UInt8} (hc : f.content = .ok c) (h0 : c ≠ []) {p : Nat} (hp : p ≠ 0) :
    ∃ t a n, readFile alloc m info fuel this true name none 0 = some ⟨.success, some (t, a, n), none, none⟩ ∧
      readFile alloc m info fuel this true name (some p) n = some ⟨.success, some (t, a, n), none, some (p, c)⟩ := by
  obtain ⟨r1, _, r3, _⟩ := read_file_found alloc h hb hf hn hc
  exact ⟨_, _, _, r1, r3 p c.length (by cases c with | nil => exact absurd rfl h0 | cons x xs => simp) (Nat.le_refl _) hp⟩

/-- C82: if there is no such file, ReadFile says so and writes nothing; if the volume is damaged before such a file is found, it reports the damage. -/
theorem read_file_missing (alloc : Nat → Except Status Nat) {m : Mem} {info : Info} {this base : Nat} {v : VolumeRef} {it : FIter}
    (h : Readable m info this base v it) {fs : List FileRef} {fuel : Nat} (hf : fs.length < fuel) {name : Nat}
    (hn : ∀ g ∈ fs, g.name ≠ name ∨ g.fileType = 0xF0) (buffer : Option Nat) (size : Nat) :
    (Ends it (fs.map Except.ok) → readFile alloc m info fuel this true name buffer size = some ⟨.notFound, none, none, none⟩) ∧
    (∀ e, Begins it (fs.map Except.ok ++ [.error e]) →
      readFile alloc m info fuel this true name buffer size = some ⟨.of e, none, none, none⟩) := by
  refine ⟨fun he => ?_, fun e he => ?_⟩
  · unfold readFile; rw [find_none h he hf hn]; rfl
  · unfold readFile; rw [find_error h he hf hn]; rfl

/-- C82: the attributes that are reported: the exponent of the alignment by bits 3 to 5 and bit 1 of those of the file, and bit 8 if the file is fixed
(bit 2). -/
theorem file_attributes (attrs : UInt8) :
    fileAttributes attrs % 32 = (if attrs.toNat / 2 % 2 = 1 then 17 + attrs.toNat / 8 % 8 else [0, 4, 7, 9, 10, 12, 15, 16].getD (attrs.toNat / 8 % 8) 0) ∧
    fileAttributes attrs / 256 = attrs.toNat / 4 % 2 ∧ fileAttributes attrs % 256 < 32 := by
  have key : ∀ n : Fin 256, fileAttributes (UInt8.ofNat n) % 32
      = (if n.val / 2 % 2 = 1 then 17 + n.val / 8 % 8 else [0, 4, 7, 9, 10, 12, 15, 16].getD (n.val / 8 % 8) 0) ∧
      fileAttributes (UInt8.ofNat n) / 256 = n.val / 4 % 2 ∧ fileAttributes (UInt8.ofNat n) % 256 < 32 := by decide +kernel
  have := key ⟨attrs.toNat, attrs.toNat_lt⟩
  simpa using this

/-! ### GetNextFile -/

/-- The files of that type that are not padding; type 0 stands for all. -/
def wanted (t : UInt8) (fs : List FileRef) : List FileRef := fs.filter fun f => decide (f.fileType ≠ 0xF0 ∧ (t = 0 ∨ f.fileType = t))

theorem filter_wanted (t : UInt8) (fs : List FileRef) :
    ((fs.map Except.ok).filter fun r => keepItem r && ofType t r) = (wanted t fs).map (Except.ok (ε := FfsError)) := by
  induction fs with
  | nil => rfl
  | cons f fs ih =>
    rw [List.map_cons, List.filter_cons]
    unfold wanted at ih ⊢
    rw [List.filter_cons, ih]
    by_cases h : f.fileType ≠ 0xF0 ∧ (t = 0 ∨ f.fileType = t)
    · rw [if_pos (by simpa [keepItem, ofType] using h), if_pos (by simpa using h)]
      rfl
    · rw [if_neg (by simpa [keepItem, ofType] using h), if_neg (by simpa using h)]

/-- What GetNextFile reports about a file of a volume. -/
def reported (v : VolumeRef) (key : Nat) (f : FileRef) : NextOut :=
  ⟨key, f.name, fileAttributes f.attrs ||| (if v.attributes &&& 0x400 = 0x400 then 0x200 else 0), f.data.length, f.fileType⟩

/-- C82: with the key `k` GetNextFile reports the `k`-th file of the type that is asked for, and sets the key to `k + 1`; when there are no more, it
answers NOT_FOUND, or reports the damage that hides the rest of the volume. -/
theorem next_file_exact {m : Mem} {info : Info} {this base : Nat} {v : VolumeRef} {it : FIter} (h : Readable m info this base v it) {fs : List FileRef}
    {fuel : Nat} (hf : fs.length < fuel) {t : UInt8} (ht : t < 0xF1) (k : Nat) :
    (∀ f, Begins it (fs.map Except.ok) → (wanted t fs)[k]? = some f →
      nextFile m info fuel this true k t = some (.success, some (reported v (k + 1) f))) ∧
    (Ends it (fs.map Except.ok) → (wanted t fs).length ≤ k → nextFile m info fuel this true k t = some (.notFound, none)) ∧
    (∀ e, Begins it (fs.map Except.ok ++ [.error e]) → (wanted t fs).length = k → nextFile m info fuel this true k t = some (.of e, none)) := by
  have ht' : ¬ (t ≥ 0xF1) := by
    intro hge
    exact absurd ht (UInt8.not_lt.2 hge)
  refine ⟨fun f hb hk => ?_, fun he hk => ?_, fun e hb hk => ?_⟩
  · unfold nextFile
    simp only [Bool.not_true, Bool.false_eq_true, if_false]
    rw [if_neg ht', h.eq]
    simp only
    rw [nth_begins hb (ofType t) fuel k (.ok f) (by simp; omega) (by rw [filter_wanted]; simp [hk])]
    rfl
  · unfold nextFile
    simp only [Bool.not_true, Bool.false_eq_true, if_false]
    rw [if_neg ht', h.eq]
    simp only
    rw [nth_ends he (ofType t) fuel k (by simpa using hf) (by rw [filter_wanted]; simpa using hk)]
    rfl
  · unfold nextFile
    simp only [Bool.not_true, Bool.false_eq_true, if_false]
    rw [if_neg ht', h.eq]
    simp only
    rw [nth_begins hb (ofType t) fuel k (.error e) (by simp; omega) (by
      rw [List.filter_append, filter_wanted, List.getElem?_append_right (by simp [hk])]
      simp [hk, keepItem, ofType])]
    rfl

/-- Calling GetNextFile again and again, each time with the key of the call before, at most `n` times: what was reported, and the last status. -/
def enumerate (m : Mem) (info : Info) (fuel this : Nat) (t : UInt8) : Nat → Nat → Option (List NextOut × Status)
  | 0, _ => some ([], .success)
  | n + 1, key =>
    match nextFile m info fuel this true key t with
    | none => none
    | some (s, none) => some ([], s)
    | some (_, some o) =>
      match enumerate m info fuel this t n o.key with
      | some (os, s) => some (o :: os, s)
      | none => none

theorem enumerate_from {m : Mem} {info : Info} {this base : Nat} {v : VolumeRef} {it : FIter} (h : Readable m info this base v it) {fs : List FileRef}
    {fuel : Nat} (hf : fs.length < fuel) {t : UInt8} (ht : t < 0xF1) (hb : Begins it (fs.map Except.ok)) (st : Status)
    (hend : nextFile m info fuel this true (wanted t fs).length t = some (st, none)) :
    ∀ (n k : Nat), k ≤ (wanted t fs).length → (wanted t fs).length - k < n →
      enumerate m info fuel this t n k = some ((((wanted t fs).drop k).zipIdx k).map (fun x => reported v (x.2 + 1) x.1), st) := by
  intro n
  induction n with
  | zero => intro k _ h; omega
  | succ n ih =>
    intro k hk hn
    unfold enumerate
    by_cases he : k = (wanted t fs).length
    · subst he
      rw [hend, List.drop_length]
      rfl
    · have hlt : k < (wanted t fs).length := by omega
      rw [(next_file_exact h hf ht k).1 _ hb (List.getElem?_eq_getElem hlt)]
      simp only [reported]
      rw [ih (k + 1) hlt (by omega), List.drop_eq_getElem_cons hlt]
      rfl

/-- C82: starting with key 0 and calling GetNextFile until it fails lists every file of the type that is asked for, once, in the order of the volume,
and ends with NOT_FOUND. -/
theorem enumerate_exact {m : Mem} {info : Info} {this base : Nat} {v : VolumeRef} {it : FIter} (h : Readable m info this base v it) {fs : List FileRef}
    (he : Ends it (fs.map Except.ok)) {fuel : Nat} (hf : fs.length < fuel) {t : UInt8} (ht : t < 0xF1) {n : Nat} (hn : (wanted t fs).length < n) :
    enumerate m info fuel this t n 0 = some (((wanted t fs).zipIdx).map (fun x => reported v (x.2 + 1) x.1), .notFound) := by
  have := enumerate_from h hf ht he.begins .notFound ((next_file_exact h hf ht _).2.1 he (Nat.le_refl _)) n 0 (Nat.zero_le _) (by omega)
  simpa using this

/-- C82: in a damaged volume the files in front of the damage are listed, then the damage is reported. -/
theorem enumerate_damaged {m : Mem} {info : Info} {this base : Nat} {v : VolumeRef} {it : FIter} (h : Readable m info this base v it) {fs : List FileRef}
    {e : FfsError} (hb : Begins it (fs.map Except.ok ++ [.error e])) {fuel : Nat} (hf : fs.length < fuel) {t : UInt8} (ht : t < 0xF1) {n : Nat}
    (hn : (wanted t fs).length < n) :
    enumerate m info fuel this t n 0 = some (((wanted t fs).zipIdx).map (fun x => reported v (x.2 + 1) x.1), .of e) := by
  have hpre : ∀ {it : FIter} {xs ys : List (Except FfsError FileRef)}, Begins it (xs ++ ys) → Begins it xs := by
    intro it xs ys hb
    induction xs generalizing it with
    | nil => exact .nil _
    | cons x xs ih =>
      cases hb with
      | cons h t => exact .cons h (ih t)
  have := enumerate_from h hf ht (hpre hb) (.of e) ((next_file_exact h hf ht _).2.2 e hb rfl) n 0 (Nat.zero_le _) (by omega)
  simpa using this

/-- C82: a file that is listed can be read by its name, if no other file that is listed has the same name. -/
theorem listed_named (alloc : Nat → Except Status Nat) {m : Mem} {info : Info} {this base : Nat} {v : VolumeRef} {it : FIter}
    (h : Readable m info this base v it) {fs : List FileRef} (he : Ends it (fs.map Except.ok)) {fuel : Nat} (hf : fs.length < fuel) {t : UInt8}
    {f : FileRef} (hw : f ∈ wanted t fs) (hu : ∀ g ∈ wanted 0 fs, g.name = f.name → g = f) {c : List UInt8} (hc : f.content = .ok c) {p : Nat} (hp : p ≠ 0)
    {size : Nat} (h0 : 0 < size) (hs : c.length ≤ size) :
    readFile alloc m info fuel this true f.name (some p) size
      = some ⟨.success, some (f.fileType, fileAttributes f.attrs, c.length), none, some (p, c)⟩ := by
  obtain ⟨hm, hk⟩ := List.mem_filter.1 hw
  have hty : f.fileType ≠ 0xF0 := (of_decide_eq_true hk).1
  have hsplit : FirstNamed (fs.map Except.ok) f.name f := by
    clear he hf hw hk
    induction fs with
    | nil => cases hm
    | cons g fs ih =>
      by_cases hg : g.name = f.name ∧ g.fileType ≠ 0xF0
      · have := hu g (List.mem_filter.2 ⟨List.mem_cons_self .., by simpa using hg.2⟩) hg.1
        subst this
        exact ⟨[], fs.map Except.ok, rfl, rfl, hty, fun r hr => by cases hr⟩
      · have hmem : f ∈ fs := by
          rcases List.mem_cons.1 hm with e | e
          · exact absurd ⟨by rw [e], by rw [← e]; exact hty⟩ hg
          · exact e
        obtain ⟨pre, post, e1, e2, e3, e4⟩ := ih (fun x hx => hu x (List.mem_filter.2 ⟨List.mem_cons_of_mem _ (List.mem_filter.1 hx).1, (List.mem_filter.1 hx).2⟩)) hmem
        refine ⟨.ok g :: pre, post, by rw [List.map_cons, e1]; rfl, e2, e3, fun r hr => ?_⟩
        rcases List.mem_cons.1 hr with e | e
        · refine ⟨g, e, ?_⟩
          by_cases hx : g.name = f.name
          · exact Or.inr (Classical.byContradiction fun hy => hg ⟨hx, hy⟩)
          · exact Or.inl hx
        · exact e4 r e
  exact (read_file_found alloc h he.begins (by simp; omega) hsplit hc).2.2.1 p size h0 hs hp

/-- C82: a volume that may not be read is not read, and an interface pointer the core did not hand out, or that of the other protocol, is refused. -/
theorem read_refused (alloc : Nat → Except Status Nat) (m : Mem) (info : Info) (fuel this name : Nat) (buffer : Option Nat) (size key : Nat) {t : UInt8}
    (ht : t < 0xF1) :
    (∀ base v, info.get this = some (.volume, base) → openVolume m base = .ok v → v.attributes &&& 4 = 0 →
      readFile alloc m info fuel this true name buffer size = some ⟨.accessDenied, none, none, none⟩ ∧
      nextFile m info fuel this true key t = some (.accessDenied, none)) ∧
    ((∀ base, info.get this ≠ some (.volume, base)) →
      readFile alloc m info fuel this true name buffer size = some ⟨.notFound, none, none, none⟩ ∧
      nextFile m info fuel this true key t = some (.notFound, none)) := by
  have ht' : ¬ (t ≥ 0xF1) := by
    intro hge
    exact absurd ht (UInt8.not_lt.2 hge)
  have hgen : ∀ st, readable m info this = .err st →
      readFile alloc m info fuel this true name buffer size = some ⟨st, none, none, none⟩ ∧
      nextFile m info fuel this true key t = some (st, none) := by
    intro st hr
    refine ⟨?_, ?_⟩
    · unfold readFile findFile; rw [hr]; rfl
    · unfold nextFile
      simp only [Bool.not_true, Bool.false_eq_true, if_false]
      rw [if_neg ht', hr]
  refine ⟨fun base v h1 h2 h3 => hgen _ ?_, fun h => hgen _ ?_⟩
  · unfold readable volumeOf
    rw [h1]
    simp only [if_true, h2]
    rw [if_pos h3]
  · unfold readable volumeOf
    cases hi : info.get this with
    | none => rfl
    | some x =>
      obtain ⟨k, base⟩ := x
      cases k with
      | block => rfl
      | volume => exact absurd hi (h base)

/-- Finding: GetNextFile reports the size with the header of the file, ReadFile without it; and only GetNextFile says that the volume is memory
mapped. -/
theorem sizes_differ {v : VolumeRef} {k : Nat} {f : FileRef} {c : List UInt8} (hc : f.content = .ok c) :
    (reported v k f).size = f.contentOffset + c.length := by
  unfold FileRef.content at hc
  split at hc
  · cases hc
  · injection hc with hc
    subst hc
    simp only [reported, List.length_drop]
    omega

end Verif.Fv
