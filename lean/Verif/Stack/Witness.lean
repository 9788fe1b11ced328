import Verif.Stack.Trace
/-!
Concrete memories that meet the hypotheses of the theorems on the stack trace.
-/
namespace Verif.Stack.Witness
open Verif Verif.Stack Verif.Stack.Spec

/-- A memory made of pieces, zero elsewhere. -/
def mem : List (Nat × List UInt8) → Mem
  | [], _ => 0
  | (a, l) :: t, x => if a ≤ x ∧ x < a + l.length then l.getD (x - a) 0 else mem t x

def base : Nat := 0x10000

/-- The headers of an image of 0x1000 bytes: the exception table at 0x600, `n` bytes, the debug directory at 0x300; the symbol file is
`\a\core.x.pdb`. -/
def headers (n : Nat) : List (Nat × List UInt8) :=
  [(base, [0x4d, 0x5a]), (base + 0x3c, [0x80]), (base + 0x80, [0x50, 0x45]), (base + 0x80 + 0x18, [0x0b, 0x02]),
   (base + 0x80 + 0x50, leBytes 4 0x1000), (base + 0x80 + 0xa0, leBytes 4 0x600), (base + 0x80 + 0xa4, leBytes 4 n),
   (base + 0x80 + 0xb8, leBytes 4 0x300), (base + 0x80 + 0xbc, leBytes 4 0x38),
   (base + 0x300 + 0xc, leBytes 4 1),
   (base + 0x31c + 0xc, leBytes 4 2), (base + 0x31c + 0x10, leBytes 4 (0x18 + 13)), (base + 0x31c + 0x14, leBytes 4 0x380),
   (base + 0x380, [0x52, 0x53, 0x44, 0x53]), (base + 0x398, [92, 97, 92, 99, 111, 114, 101, 46, 120, 46, 112, 100, 98])]

/-- `core.x`. -/
def stem : List UInt8 := [99, 111, 114, 101, 46, 120]

def utf8 (l : List UInt8) : Bool := l.all (· < 128)

theorem plain (m : Mem) (pc : Nat) (h : pc < base + 4096) : ∀ k, base < k * 4096 → k * 4096 ≤ pc → num m (k * 4096) 2 ≠ 0x5a4d := by
  intro k h1 h2
  unfold base at h h1
  omega

/-! ### x64 -/

/-- `push rbp; sub rsp, 32`. -/
def p1 : Spec.X64.Prologue := [(1, .push 5), (5, .allocSmall 32)]
/-- `sub rsp, 0x108`. -/
def p2 : Spec.X64.Prologue := [(7, .allocLarge 0x108)]

def x64 : Mem := mem (headers 24 ++
  [(base + 0x600, leBytes 4 0x400 ++ leBytes 4 0x440 ++ leBytes 4 0x500 ++ leBytes 4 0x440 ++ leBytes 4 0x480 ++ leBytes 4 0x520),
   (base + 0x500, [1, 5, 2, 0, 5, 0x32, 1, 0x50]), (base + 0x520, [1, 7, 2, 0, 7, 0x01, 0x21, 0x00]),
   (0x20028, leBytes 8 (base + 0x450))])

set_option maxRecDepth 100000 in
theorem x64_loaded : Loaded x64 base 0x80 0x1000 where
  aligned := by decide +kernel
  notZero := by decide +kernel
  dos := by decide +kernel
  lfanew := by decide +kernel
  room := by decide +kernel
  signature := by decide +kernel
  imageSize := by decide +kernel

set_option maxRecDepth 100000 in
theorem x64_named : Named utf8 x64 base 0x80 stem where
  directory := ⟨0x300, 2, 1, [92, 97, 92] ++ stem ++ [46] ++ [112, 100, 98], [92, 97, 92], [112, 100, 98], 0x380, by decide +kernel, by decide +kernel,
    by decide, (fun j hj => by rw [show j = 0 by omega]; decide +kernel), by decide +kernel, by decide +kernel, by decide +kernel, by decide,
    by decide +kernel, by decide +kernel, by decide +kernel, rfl, .inr ⟨[92, 97], rfl⟩, by decide, by decide, by decide⟩

def fs : List Func := [⟨0x400, 0x440, 0x500⟩, ⟨0x440, 0x480, 0x520⟩]

set_option maxRecDepth 100000 in
theorem x64_directory : Directory x64 base 0x80 0x1000 0x600 (fs.length * 12) where
  magic := by decide +kernel
  header := by decide
  at_ := by decide +kernel
  len := by decide +kernel
  notZero := by decide
  inside := by decide

set_option maxRecDepth 100000 in
theorem x64_entries : Spec.X64.Entries x64 (base + 0x600) fs :=
  ⟨by decide +kernel, by decide +kernel, by decide +kernel, by decide +kernel, by decide +kernel, by decide +kernel, trivial⟩

theorem fs_sorted : fs.Pairwise (fun f g => f.end_ ≤ g.start) := by simp [fs]

set_option maxRecDepth 100000 in
theorem x64_record1 : Spec.X64.Record x64 (base + 0x500) (base + 0x1000) p1 where
  version := by decide +kernel
  alone := by decide +kernel
  count := by decide +kernel
  slots := by decide +kernel
  room := by decide +kernel
  ok := by simp [p1, Spec.X64.Op.Ok]

set_option maxRecDepth 100000 in
theorem x64_record2 : Spec.X64.Record x64 (base + 0x520) (base + 0x1000) p2 where
  version := by decide +kernel
  alone := by decide +kernel
  count := by decide +kernel
  slots := by decide +kernel
  room := by decide +kernel
  ok := by simp [p2, Spec.X64.Op.Ok]

set_option maxRecDepth 100000 in
theorem x64_active1 : Spec.X64.Active utf8 x64 (base + 0x420) 0x20000 base (some stem) 0x20028 (base + 0x450) where
  call := ⟨0x80, 0x1000, 0x600, fs, ⟨0x400, 0x440, 0x500⟩, p1, ⟨x64_loaded, by decide, plain _ _ (by decide)⟩, x64_named, x64_directory, x64_entries,
    fs_sorted, by decide, by decide, by decide, x64_record1, by simp [p1, Spec.X64.Op.Handled],
    .snoc (p := [(1, .push 5)]) (5, .allocSmall 32) (.snoc (p := []) (1, .push 5) (.nil _) (sp2 := 0x20020) rfl) rfl, by decide +kernel, by decide⟩

set_option maxRecDepth 100000 in
theorem x64_active2 : Spec.X64.Active utf8 x64 (base + 0x450) 0x20030 base (some stem) 0x20138 0 where
  call := ⟨0x80, 0x1000, 0x600, fs, ⟨0x440, 0x480, 0x520⟩, p2, ⟨x64_loaded, by decide, plain _ _ (by decide)⟩, x64_named, x64_directory, x64_entries,
    fs_sorted, by decide, by decide, by decide, x64_record2, by simp [p2, Spec.X64.Op.Handled],
    .snoc (p := []) (7, .allocLarge 0x108) (.nil _) rfl, by decide +kernel, by decide⟩

/-- Two calls in progress. -/
def calls64 : List Call := [⟨0x20000, base + 0x450, some stem, 0x420⟩, ⟨0x20030, 0, some stem, 0x450⟩]

theorem x64_calls : Calls (X64.active utf8 x64) (base + 0x420) 0x20000 calls64 :=
  .more (base := base) (sp' := 0x20028 + 8) ⟨0x20028, rfl, x64_active1⟩ (by decide) (.last (base := base) (sp' := 0x20138 + 8) ⟨0x20138, rfl, x64_active2⟩)

example (dbg : Bool) : dump utf8 x64 (X64.frame dbg x64) (base + 0x420) 0x20000 = (lines 0 calls64, some (.ok ())) :=
  X64.trace_partial dbg utf8 x64 _ _ _ x64_calls (by decide)

/-! ### AArch64 -/

/-- `stp fp, lr, [sp, #-32]!; mov fp, sp` as packed data. -/
def packed : Spec.A64.Packed := ⟨1, 16, 0, 0, 0, 3, 2⟩
/-- `stp x19, x20, [sp, #-32]!; sub sp, sp, #16; stp fp, lr, [sp]`. -/
def prologue : List Spec.A64.Op := [.saveR19R20X 4, .allocS 1, .saveFpLr 0]
def header : Spec.A64.Header := ⟨16, false, true, 3, 1⟩

def a64 : Mem := mem (headers 16 ++
  [(base + 0x600, leBytes 4 0x400 ++ leBytes 4 packed.encode ++ leBytes 4 0x440 ++ leBytes 4 0x500),
   (base + 0x500, (header.encode.flatMap (leBytes 4)) ++ [0x40, 0x01, 0x24, 0xe4]),
   (0x20008, leBytes 8 (base + 0x450))])

def t : List (Nat × Nat × Nat) := [(0x400, 0x40, packed.encode), (0x440, 0x40, 0x500)]

set_option maxRecDepth 100000 in
theorem a64_loaded : Loaded a64 base 0x80 0x1000 where
  aligned := by decide +kernel
  notZero := by decide +kernel
  dos := by decide +kernel
  lfanew := by decide +kernel
  room := by decide +kernel
  signature := by decide +kernel
  imageSize := by decide +kernel

set_option maxRecDepth 100000 in
theorem a64_named : Named utf8 a64 base 0x80 stem where
  directory := ⟨0x300, 2, 1, [92, 97, 92] ++ stem ++ [46] ++ [112, 100, 98], [92, 97, 92], [112, 100, 98], 0x380, by decide +kernel, by decide +kernel,
    by decide, (fun j hj => by rw [show j = 0 by omega]; decide +kernel), by decide +kernel, by decide +kernel, by decide +kernel, by decide,
    by decide +kernel, by decide +kernel, by decide +kernel, rfl, .inr ⟨[92, 97], rfl⟩, by decide, by decide, by decide⟩

set_option maxRecDepth 100000 in
theorem a64_directory : Directory a64 base 0x80 0x1000 0x600 (t.length * 8) where
  magic := by decide +kernel
  header := by decide
  at_ := by decide +kernel
  len := by decide +kernel
  notZero := by decide
  inside := by decide

set_option maxRecDepth 100000 in
theorem a64_entries : Spec.A64.Entries a64 (base + 0x600) (t.map fun x => (x.1, x.2.2)) :=
  ⟨by decide +kernel, by decide +kernel, by decide +kernel, by decide +kernel, trivial⟩

theorem packed_ok : packed.Ok := by simp [packed, Spec.A64.Packed.Ok]
theorem header_ok : header.Ok := by simp [header, Spec.A64.Header.Ok]

set_option maxRecDepth 100000 in
theorem header_words : Spec.A64.Words a64 (base + 0x500) header.encode := by
  have : header.encode = [0x8e00010] := by decide +kernel
  rw [this]
  exact ⟨by decide +kernel, trivial⟩

theorem a64_functions : Spec.A64.Functions a64 base 0x1000 t := by
  intro x hx
  simp only [t, List.mem_cons, List.not_mem_nil, or_false] at hx
  rcases hx with rfl | rfl
  · exact ⟨.packed _ packed rfl packed_ok, by decide, by decide +kernel⟩
  · exact ⟨.record _ header rfl header_ok header_words, by decide, by decide⟩

theorem t_sorted : t.Pairwise (fun x y => x.1 + x.2.1 ≤ y.1) := by simp [t]

set_option maxRecDepth 100000 in
theorem a64_record : Spec.A64.Record a64 (base + 0x500) (base + 0x1000) header prologue where
  fields := header_ok
  header := header_words
  codes := ⟨[], by decide +kernel⟩
  room := by decide +kernel
  ok := by simp [prologue, Spec.A64.Op.Ok]

theorem prologue_runs : Spec.A64.Runs prologue 0x20050 0x20020 (some 0x20028) :=
  .snoc (p := [.saveR19R20X 4, .allocS 1]) (.saveFpLr 0)
    (.snoc (p := [.saveR19R20X 4]) (.allocS 1) (.snoc (p := []) (.saveR19R20X 4) (.nil _) (sp2 := 0x20030) rfl) (sp2 := 0x20020) rfl) rfl

set_option maxRecDepth 100000 in
theorem a64_active1 : Spec.A64.Active utf8 a64 (base + 0x420) 0x20000 base (some stem) 0x20020 (base + 0x450) where
  call := ⟨0x80, 0x1000, 0x600, t, (0x400, 0x40, packed.encode), by decide +kernel, 0x20008, ⟨a64_loaded, by decide, plain _ _ (by decide)⟩, a64_named,
    a64_directory, a64_entries, a64_functions, t_sorted, by decide, by decide, .packed _ packed 0x20000 rfl packed_ok (by decide), by decide +kernel, by decide,
    by decide⟩

set_option maxRecDepth 100000 in
theorem a64_active2 : Spec.A64.Active utf8 a64 (base + 0x450) 0x20020 base (some stem) 0x20050 0 where
  call := ⟨0x80, 0x1000, 0x600, t, (0x440, 0x40, 0x500), by decide +kernel, 0x20028, ⟨a64_loaded, by decide, plain _ _ (by decide)⟩, a64_named,
    a64_directory, a64_entries, a64_functions, t_sorted, by decide, by decide,
    .record _ header prologue _ _ _ rfl a64_record (by simp [prologue, Spec.A64.Op.Handled]) prologue_runs (by decide), by decide +kernel, by decide, by decide⟩

def callsA64 : List Call := [⟨0x20000, base + 0x450, some stem, 0x420⟩, ⟨0x20020, 0, some stem, 0x450⟩]

theorem a64_calls : Calls (Spec.A64.Active utf8 a64) (base + 0x420) 0x20000 callsA64 :=
  .more (sp' := 0x20020) a64_active1 (by decide) (.last (base := base) a64_active2)

example (dbg : Bool) : ∃ least, ∀ fuel, least ≤ fuel →
    dump utf8 a64 (A64.frame dbg fuel a64) (base + 0x420) 0x20000 = (lines 0 callsA64, some (.ok ())) :=
  A64.trace_partial dbg utf8 a64 _ _ _ a64_calls (by decide)

/-- A function without prologue that has called itself 21 times. -/
def deep : Mem := mem (headers 12 ++
  [(base + 0x600, leBytes 4 0x400 ++ leBytes 4 0x440 ++ leBytes 4 0x500), (base + 0x500, [1, 0, 0, 0]),
   (0x20000, (List.replicate 21 (leBytes 8 (base + 0x420))).flatten)])

set_option maxRecDepth 100000 in
theorem deep_active (sp ret : Nat) (h1 : num deep sp 8 = ret) (h2 : sp < 0x30000) :
    Spec.X64.Active utf8 deep (base + 0x420) sp base (some stem) sp ret where
  call := by
    refine ⟨0x80, 0x1000, 0x600, [⟨0x400, 0x440, 0x500⟩], ⟨0x400, 0x440, 0x500⟩, [],
      ⟨⟨by decide +kernel, by decide +kernel, by decide +kernel, by decide +kernel, by decide +kernel, by decide +kernel, by decide +kernel⟩, by decide,
        plain _ _ (by decide)⟩,
      ⟨0x300, 2, 1, [92, 97, 92] ++ stem ++ [46] ++ [112, 100, 98], [92, 97, 92], [112, 100, 98], 0x380, by decide +kernel, by decide +kernel,
        by decide, (fun j hj => by rw [show j = 0 by omega]; decide +kernel), by decide +kernel, by decide +kernel, by decide +kernel, by decide,
        by decide +kernel, by decide +kernel, by decide +kernel, rfl, .inr ⟨[92, 97], rfl⟩, by decide, by decide, by decide⟩,
      ⟨by decide +kernel, by decide, by decide +kernel, by decide +kernel, by decide, by decide⟩,
      ⟨by decide +kernel, by decide +kernel, by decide +kernel, trivial⟩, by simp, by simp, by decide, by decide,
      ⟨by decide +kernel, by decide +kernel, by decide +kernel, by decide +kernel, by decide, by simp⟩, by simp, .nil _, h1, by omega⟩

theorem deep_calls : ∀ n, n ≤ 21 → ∃ l, l.length = n + 1 ∧ Calls (X64.active utf8 deep) (base + 0x420) (0x20000 + (21 - n) * 8) l
  | 0, _ => ⟨_, rfl, .last ⟨_, rfl, deep_active _ 0 (by decide +kernel) (by decide)⟩⟩
  | n + 1, h => by
    obtain ⟨l, hl, hc⟩ := deep_calls n (by omega)
    have hall : ∀ i, i < 21 → num deep (0x20000 + i * 8) 8 = base + 0x420 := by decide +kernel
    have ha := deep_active (0x20000 + (21 - (n + 1)) * 8) (base + 0x420) (hall _ (by omega)) (by omega)
    rw [show 0x20000 + (21 - n) * 8 = 0x20000 + (21 - (n + 1)) * 8 + 8 by omega] at hc
    exact ⟨_ :: l, by rw [List.length_cons, hl], .more ⟨_, rfl, ha⟩ (by decide) hc⟩

example (dbg : Bool) : ∃ l : List Call, l.length = 22 ∧
    dump utf8 deep (X64.frame dbg deep) (base + 0x420) 0x20000 = (lines 0 (l.take 20), some (.err .stackTraceDumpFailed)) := by
  obtain ⟨l, hl, hc⟩ := deep_calls 21 (by omega)
  exact ⟨l, hl, X64.trace_truncated dbg utf8 deep _ _ l hc (by omega)⟩

/-- What `fplr_x_misread` says of `stp fp, lr, [sp, #-32]!; sub sp, sp, #16`: the return address is at 24, the trace reads at 56. -/
example (dbg : Bool) : A64.loop dbg 5 (Spec.A64.codes [.saveFpLrX 3, .allocS 1]) 0 0 = some (.ok (56, 48)) := by
  have := (A64.fplr_x_misread dbg 3 (by decide) (q := [.allocS 1]) (sp0 := 0x1030) (sp1 := 0x1010) (sp := 0x1000) rfl
    (.snoc (p := []) (.allocS 1) (.nil _) rfl) (by simp [Spec.A64.Op.Ok]) (by simp [Spec.A64.Op.Handled]) (by decide) [] 5 (by decide)).2
  simpa using this

end Verif.Stack.Witness
