import Verif.Pecoff.Info
import Verif.Pecoff.Resource
import Verif.Base.Props
import Verif.Alloc.Model
/-!
The memory of an image while it is loaded: `core_load_pe_image`, `patina_dxe_core/src/image.rs`
L579-688, `PrivateImageData::new` L177-236, `allocate_resource_section` L264-286 and `Drop for
PrivateImageData` L289-312.

The page allocator is a parameter: what it answers to the request for the image and to the one for the
resource section. That pages which are given back really become free is proved elsewhere (C09), so
`core_free_pages` is taken to succeed here. What is returned beside the outcome are the pages that are
still allocated afterwards. The attributes set at the end (L681-684) are modelled in
`Verif/ImageMem`.
-/
namespace Verif.Pecoff.Load
open Verif Verif.Pecoff Verif.Pecoff.Info

/-- A run of pages: the first address and the number of pages. -/
abbrev Pages := Nat × Nat

/-- What the allocator answers. -/
abbrev Answer := Except EfiError Nat

/-- image.rs L183-197, L272-273: pages to ask for. Both numbers are below 2³², so that the checked
addition and the conversion never fail. -/
def pagesFor (align size : Nat) : Nat :=
  if 4096 < align then Alloc.sizeToPages (size + align) else Alloc.sizeToPages size

/-- image.rs L177-212 (`PrivateImageData::new`) and L264-286 (`allocate_resource_section`), which do the
same: allocate, refuse page zero, align. The aligned start, and the pages allocated. -/
def place (align size : Nat) (a : Answer) : Outcome EfiError Nat × List Pages :=
  match a with
  | .error e => (.err e, [])
  | .ok b =>
    if b = 0 then (.err .outOfResources, [(b, pagesFor align size)])
    else
      match Base.alignUp 64 b align with
      | .ok s => (.ok s, [(b, pagesFor align size)])
      | .err _ => (.err .loadError, [(b, pagesFor align size)])
      | .panic => (.panic, [(b, pagesFor align size)])

/-- `PrivateImageData`, L160-174, as far as it is about memory. -/
structure Loaded where
  start : Nat
  size : Nat
  entry : Nat
  codeType : Nat
  dataType : Nat
  buffer : List UInt8
  resource : Option (Nat × Nat)
deriving DecidableEq, Repr

/-- The part of `UefiPeInfo` that loading and relocating use. -/
def toPeInfo (i : Info) : PeInfo where
  rvaOffset := i.te.getD 0
  imageBaseFieldOffset := i.baseField
  sizeOfHeaders := i.sizeOfHeaders
  sections := i.sections
  relocDir := i.relocDir

/-- image.rs L672-687: an application that is not NX compatible needs compatibility mode; `compat`:
whether the build has it (L690, L717). If not, the image is dropped. -/
def finish (a : Accepted) (compat : Bool) (l : Loaded) (owned : List Pages) : Outcome EfiError Loaded × List Pages :=
  if a.info.imageType = 10 ∧ a.info.nxCompat = false ∧ compat = false then (.err .loadError, [])
  else (.ok l, owned)

/-- image.rs L644-670: the resource section. If its memory cannot be had or aligned, the image is
dropped, which frees the pages of the image but not those of the resource section: they are only
recorded at the end (L283-284). -/
def addResource (dbg : Bool) (a : Accepted) (image : List UInt8) (ans : Answer) (compat : Bool) (l : Loaded)
    (owned : List Pages) : Outcome EfiError Loaded × List Pages :=
  match loadResource dbg image a.info.sections with
  | .err _ => (.err .loadError, [])
  | .panic => (.panic, owned)
  | .ok none => finish a compat l owned
  | .ok (some (o, z)) =>
    match place a.info.sectionAlignment z ans with
    | (.err e, r) => (.err e, r)
    | (.panic, r) => (.panic, owned ++ r)
    | (.ok s, r) =>
      if o + z ≤ l.size then finish a compat { l with resource := some (s, z) } (owned ++ r)
      else if dbg then (.panic, owned ++ r)
      else finish a compat { l with resource := some (s, z) } (owned ++ r)

/-- image.rs L622-642: memory, contents, relocation and entry point. -/
def loadAccepted (dbg : Bool) (a : Accepted) (image : List UInt8) (ans1 ans2 : Answer) (compat : Bool) :
    Outcome EfiError Loaded × List Pages :=
  match place a.info.sectionAlignment a.info.sizeOfImage ans1 with
  | (.err e, r) => (.err e, r)
  | (.panic, r) => (.panic, r)
  | (.ok s, r) =>
    match loadImage (toPeInfo a.info) image (List.replicate a.info.sizeOfImage 0) with
    | (.err _, _) => (.err .loadError, [])
    | (.panic, _) => (.panic, r)
    | (.ok _, buf) =>
      match relocateImage dbg (toPeInfo a.info) s buf [] with
      | (.err _, _) => (.err .loadError, [])
      | (.panic, _) => (.panic, r)
      | (.ok _, buf') =>
        addResource dbg a image ans2 compat
          ⟨s, a.info.sizeOfImage, (s + a.info.entry) % W, a.codeType, a.dataType, buf', none⟩ r

/-- image.rs L579-688 `core_load_pe_image`. `f` is what goblin makes of the bytes `image`. -/
def loadPe (dbg : Bool) (f : File) (image : List UInt8) (ans1 ans2 : Answer) (compat : Bool) :
    Outcome EfiError Loaded × List Pages :=
  match check dbg f with
  | .err e => (.err e, [])
  | .panic => (.panic, [])
  | .ok a => loadAccepted dbg a image ans1 ans2 compat

/-! ## Specification -/

/-- An answer of a sound page allocator to a request for `n` pages: an error, or a page-aligned run
which does not reach beyond the address space. -/
def Good (n : Nat) : Answer → Prop
  | .error _ => True
  | .ok b => b % 4096 = 0 ∧ b + n * 4096 ≤ 2 ^ 64

/-- The bytes from `s` on, `z` of them, lie in the run of pages. -/
def Inside (s z : Nat) (p : Pages) : Prop := p.1 ≤ s ∧ s + z ≤ p.1 + p.2 * 4096

/-! ## Placing -/

theorem place_ok (align size : Nat) (a : Answer) (s : Nat) (r : List Pages) (g : Good (pagesFor align size) a)
    (ha : align % 4096 = 0) (ha0 : 0 < align) (hz : 0 < size) (h : place align size a = (.ok s, r)) :
    ∃ b, a = .ok b ∧ b ≠ 0 ∧ r = [(b, pagesFor align size)] ∧ Inside s size (b, pagesFor align size) ∧
      s % align = 0 ∧ ∃ k, align = 2 ^ k := by
  unfold place at h
  cases a with
  | error e => cases h
  | ok b =>
    obtain ⟨g1, g2⟩ := g
    dsimp only at h
    by_cases b0 : b = 0
    · rw [if_pos b0] at h; cases h
    · rw [if_neg b0] at h
      have hp : size ≤ pagesFor align size * 4096 ∧ (4096 < align → size + align ≤ pagesFor align size * 4096) := by
        unfold pagesFor Alloc.sizeToPages Gcd.UEFI_PAGE_MASK Gcd.UEFI_PAGE_SIZE
        constructor
        · split <;> omega
        · intro k; rw [if_pos k]; omega
      have blt : b < 2 ^ 64 := by omega
      by_cases hk : ∃ k, align = 2 ^ k
      · obtain ⟨q, ⟨q1, q2, q3⟩, e⟩ := (Base.alignUp_spec 64 b align blt).1 hk
        rw [e] at h
        have hq : q = s ∧ r = [(b, pagesFor align size)] := by
          split at h
          · rename_i s' hs'
            split at hs'
            · cases hs'; cases h; exact ⟨rfl, rfl⟩
            · cases hs'
          · cases h
          · cases h
        obtain ⟨rfl, hr⟩ := hq
        refine ⟨b, rfl, b0, hr, ⟨q2, ?_⟩, Nat.mod_eq_zero_of_dvd q1, hk⟩
        show q + size ≤ b + pagesFor align size * 4096
        by_cases h4 : 4096 < align
        · have hm : q ≤ b + align := by
            have := q3 (b + align - (b + align) % align) (by
              have := Nat.div_add_mod (b + align) align
              rw [show b + align - (b + align) % align = align * ((b + align) / align) by omega]
              exact Nat.dvd_mul_right _ _) (by
              have := Nat.mod_lt (b + align) ha0; omega)
            omega
          have := hp.2 h4
          omega
        · have : align = 4096 := by
            have := Nat.le_of_dvd ha0 (Nat.dvd_of_mod_eq_zero ha); omega
          subst this
          have := q3 b (Nat.dvd_of_mod_eq_zero g1) (Nat.le_refl _)
          omega
      · rw [(Base.alignUp_spec 64 b align blt).2 hk] at h
        cases h

theorem place_pow (align size : Nat) (b : Nat) (g : Good (pagesFor align size) (.ok b)) (b0 : b ≠ 0)
    (hz : 0 < size) (ha : align % 4096 = 0) (hk : ∃ k, align = 2 ^ k) :
    ∃ s, place align size (.ok b) = (.ok s, [(b, pagesFor align size)]) := by
  obtain ⟨g1, g2⟩ := g
  have ha0 : 0 < align := by obtain ⟨k, rfl⟩ := hk; exact Nat.two_pow_pos k
  unfold place
  dsimp only
  rw [if_neg b0]
  have hp : size ≤ pagesFor align size * 4096 ∧ (4096 < align → size + align ≤ pagesFor align size * 4096) := by
    unfold pagesFor Alloc.sizeToPages Gcd.UEFI_PAGE_MASK Gcd.UEFI_PAGE_SIZE
    constructor
    · split <;> omega
    · intro k; rw [if_pos k]; omega
  have blt : b < 2 ^ 64 := by omega
  obtain ⟨q, ⟨q1, q2, q3⟩, e⟩ := (Base.alignUp_spec 64 b align blt).1 hk
  have hq : q < 2 ^ 64 := by
    by_cases h4 : 4096 < align
    · have hm := q3 (b + align - (b + align) % align) (by
          have := Nat.div_add_mod (b + align) align
          rw [show b + align - (b + align) % align = align * ((b + align) / align) by omega]
          exact Nat.dvd_mul_right _ _) (by
          have := Nat.mod_lt (b + align) ha0; omega)
      have := hp.2 h4
      omega
    · have : align = 4096 := by
        have := Nat.le_of_dvd ha0 (Nat.dvd_of_mod_eq_zero ha); omega
      subst this
      have := q3 b (Nat.dvd_of_mod_eq_zero g1) (Nat.le_refl _)
      omega
  rw [e, if_pos hq]
  exact ⟨q, rfl⟩

/-! ## Loading -/

theorem check_ok (dbg : Bool) (f : File) (a : Accepted) (h : check dbg f = .ok a) :
    a.info.sectionAlignment % 4096 = 0 ∧ 0 < a.info.sectionAlignment ∧
      a.info.sizeOfImage % a.info.sectionAlignment = 0 := by
  unfold check at h
  split at h
  · cases h
  · cases h
  · split at h
    · cases h
    · split at h
      · split at h <;> cases h
      · split at h
        · split at h <;> cases h
        · cases h
          dsimp only
          omega

theorem finish_ok (a : Accepted) (compat : Bool) (l l' : Loaded) (o o' : List Pages)
    (h : finish a compat l o = (.ok l', o')) :
    l' = l ∧ o' = o ∧ ¬ (a.info.imageType = 10 ∧ a.info.nxCompat = false ∧ compat = false) := by
  unfold finish at h
  split at h
  · cases h
  · cases h; exact ⟨rfl, rfl, by assumption⟩

theorem finish_err (a : Accepted) (compat : Bool) (l : Loaded) (o o' : List Pages) (e : EfiError)
    (h : finish a compat l o = (.err e, o')) : o' = [] := by
  unfold finish at h
  split at h
  · cases h; rfl
  · cases h

/-- What loading has done when it succeeds. -/
theorem loaded_inv (dbg : Bool) (f : File) (image : List UInt8) (ans1 ans2 : Answer) (compat : Bool) (l : Loaded)
    (owned : List Pages) (h : loadPe dbg f image ans1 ans2 compat = (.ok l, owned)) :
    ∃ a r s buf rel, check dbg f = .ok a ∧ place a.info.sectionAlignment a.info.sizeOfImage ans1 = (.ok s, r) ∧
      loadImage (toPeInfo a.info) image (List.replicate a.info.sizeOfImage 0) = (.ok (), buf) ∧
      relocateImage dbg (toPeInfo a.info) s buf [] = (.ok rel, l.buffer) ∧
      l.start = s ∧ l.size = a.info.sizeOfImage ∧ l.entry = (s + a.info.entry) % W ∧
      l.codeType = a.codeType ∧ l.dataType = a.dataType ∧
      ¬ (a.info.imageType = 10 ∧ a.info.nxCompat = false ∧ compat = false) ∧
      ((loadResource dbg image a.info.sections = .ok none ∧ l.resource = none ∧ owned = r) ∨
        ∃ o z s2 r2, loadResource dbg image a.info.sections = .ok (some (o, z)) ∧
          place a.info.sectionAlignment z ans2 = (.ok s2, r2) ∧ l.resource = some (s2, z) ∧ owned = r ++ r2) := by
  unfold loadPe at h
  split at h
  · cases h
  · cases h
  · rename_i a ha
    unfold loadAccepted at h
    split at h
    · cases h
    · cases h
    · rename_i s r hp
      split at h
      · cases h
      · cases h
      · rename_i u buf hl
        split at h
        · cases h
        · cases h
        · rename_i rel buf' hr
          unfold addResource at h
          split at h
          · cases h
          · cases h
          · rename_i hres
            obtain ⟨rfl, rfl, hn⟩ := finish_ok _ _ _ _ _ _ h
            exact ⟨a, _, s, buf, rel, ha, hp, hl, hr, rfl, rfl, rfl, rfl, rfl, hn, .inl ⟨hres, rfl, rfl⟩⟩
          · rename_i o z hres
            split at h
            · cases h
            · cases h
            · rename_i s2 r2 hp2
              have key : ∀ {x}, (x : Outcome EfiError Loaded × List Pages) = (.ok l, owned) →
                  x = finish a compat
                    { (⟨s, a.info.sizeOfImage, (s + a.info.entry) % W, a.codeType, a.dataType, buf', none⟩ : Loaded)
                      with resource := some (s2, z) } (r ++ r2) →
                  _ := fun hx hy => finish_ok a compat _ _ _ _ (hy.symm.trans hx)
              have fin : l = { (⟨s, a.info.sizeOfImage, (s + a.info.entry) % W, a.codeType, a.dataType, buf', none⟩ : Loaded)
                      with resource := some (s2, z) } ∧ owned = r ++ r2 ∧
                  ¬ (a.info.imageType = 10 ∧ a.info.nxCompat = false ∧ compat = false) := by
                split at h
                · exact key h rfl
                · split at h
                  · cases h
                  · exact key h rfl
              obtain ⟨rfl, rfl, hn⟩ := fin
              exact ⟨a, r, s, buf, rel, ha, hp, hl, hr, rfl, rfl, rfl, rfl, rfl, hn,
                .inr ⟨o, z, s2, r2, hres, hp2, rfl, rfl⟩⟩

/-- **C142.** A loaded image lies inside the pages allocated for it, at a multiple of its section
alignment, and with the size its header says; it owns these pages and, if it has a resource section, the
pages of that, which lies inside them and is aligned likewise. Nothing else stays allocated. -/
theorem loaded_inside (dbg : Bool) (f : File) (image : List UInt8) (ans1 ans2 : Answer) (compat : Bool) (l : Loaded)
    (owned : List Pages) (a : Accepted) (ha : check dbg f = .ok a) (pos : 0 < a.info.sizeOfImage)
    (g1 : Good (pagesFor a.info.sectionAlignment a.info.sizeOfImage) ans1)
    (g2 : ∀ z, l.resource.map (·.2) = some z → 0 < z ∧ Good (pagesFor a.info.sectionAlignment z) ans2)
    (h : loadPe dbg f image ans1 ans2 compat = (.ok l, owned)) :
    ∃ b, ans1 = .ok b ∧ b ≠ 0 ∧ l.size = a.info.sizeOfImage ∧ l.start % a.info.sectionAlignment = 0 ∧
      Inside l.start l.size (b, pagesFor a.info.sectionAlignment a.info.sizeOfImage) ∧
      ((l.resource = none ∧ owned = [(b, pagesFor a.info.sectionAlignment a.info.sizeOfImage)]) ∨
        ∃ s z b2, l.resource = some (s, z) ∧ ans2 = .ok b2 ∧ s % a.info.sectionAlignment = 0 ∧
          Inside s z (b2, pagesFor a.info.sectionAlignment z) ∧
          owned = [(b, pagesFor a.info.sectionAlignment a.info.sizeOfImage),
            (b2, pagesFor a.info.sectionAlignment z)]) := by
  obtain ⟨a', r, s, buf, rel, ha', hp, _, _, e1, e2, _, _, _, _, hres⟩ := loaded_inv dbg f image ans1 ans2 compat l owned h
  rw [ha] at ha'; cases ha'
  obtain ⟨c1, c2, _⟩ := check_ok dbg f a ha
  obtain ⟨b, rfl, b0, rfl, hi, hm, _⟩ := place_ok _ _ _ _ _ g1 c1 c2 pos hp
  refine ⟨b, rfl, b0, e2, ?_, ?_, ?_⟩
  · rw [e1]; exact hm
  · rw [e1, e2]; exact hi
  · rcases hres with ⟨_, k1, k2⟩ | ⟨o, z, s2, r2, _, hp2, k1, k2⟩
    · exact .inl ⟨k1, k2⟩
    · obtain ⟨z0, g⟩ := g2 z (by rw [k1]; rfl)
      obtain ⟨b2, rfl, _, rfl, hi2, hm2, _⟩ := place_ok _ _ _ _ _ g c1 c2 z0 hp2
      exact .inr ⟨s2, z, b2, k1, rfl, hm2, hi2, k2⟩

/-- **C142.** The contents of a loaded image are those of loading and relocating the file to the address
where the image lies, its memory types are those for its kind, and an application that is not NX
compatible is only loaded if the build allows compatibility mode. -/
theorem loaded_contents (dbg : Bool) (f : File) (image : List UInt8) (ans1 ans2 : Answer) (compat : Bool) (l : Loaded)
    (owned : List Pages) (h : loadPe dbg f image ans1 ans2 compat = (.ok l, owned)) :
    ∃ a buf rel, check dbg f = .ok a ∧
      loadImage (toPeInfo a.info) image (List.replicate a.info.sizeOfImage 0) = (.ok (), buf) ∧
      relocateImage dbg (toPeInfo a.info) l.start buf [] = (.ok rel, l.buffer) ∧
      (l.codeType, l.dataType) = (a.codeType, a.dataType) ∧
      (a.info.imageType = 10 → compat = false → a.info.nxCompat = true) := by
  obtain ⟨a, r, s, buf, rel, ha, _, hl, hr, e1, _, _, t1, t2, hn, _⟩ := loaded_inv dbg f image ans1 ans2 compat l owned h
  refine ⟨a, buf, rel, ha, hl, ?_, by rw [t1, t2], ?_⟩
  · rw [e1]; exact hr
  · intro i c
    cases k : a.info.nxCompat with
    | true => rfl
    | false => exact absurd ⟨i, k, c⟩ hn

/-- What is left allocated when loading fails: nothing, the pages of the image, or those of its
resource section. -/
theorem failed_inv (dbg : Bool) (f : File) (image : List UInt8) (ans1 ans2 : Answer) (compat : Bool) (e : EfiError)
    (left : List Pages) (h : loadPe dbg f image ans1 ans2 compat = (.err e, left)) :
    left = [] ∨ ∃ a, check dbg f = .ok a ∧
      (place a.info.sectionAlignment a.info.sizeOfImage ans1 = (.err e, left) ∨
        ∃ o z, loadResource dbg image a.info.sections = .ok (some (o, z)) ∧
          place a.info.sectionAlignment z ans2 = (.err e, left)) := by
  unfold loadPe at h
  split at h
  · cases h; exact .inl rfl
  · cases h
  · rename_i a ha
    unfold loadAccepted at h
    split at h
    · rename_i e' r hp
      cases h; exact .inr ⟨a, ha, .inl hp⟩
    · cases h
    · split at h
      · cases h; exact .inl rfl
      · cases h
      · split at h
        · cases h; exact .inl rfl
        · cases h
        · unfold addResource at h
          split at h
          · cases h; exact .inl rfl
          · cases h
          · exact .inl (finish_err _ _ _ _ _ _ h)
          · rename_i o z hres
            split at h
            · rename_i e' r hp
              cases h; exact .inr ⟨a, ha, .inr ⟨o, z, hres, hp⟩⟩
            · cases h
            · split at h
              · exact .inl (finish_err _ _ _ _ _ _ h)
              · split at h
                · cases h
                · exact .inl (finish_err _ _ _ _ _ _ h)

/-- **C142 (partial).** If the section alignment is a power of two and the allocator never hands out
page zero, a failed load leaves nothing allocated, whatever it is that failed. -/
theorem failure_frees_partial (dbg : Bool) (f : File) (image : List UInt8) (ans1 ans2 : Answer) (compat : Bool)
    (e : EfiError) (left : List Pages) (h : loadPe dbg f image ans1 ans2 compat = (.err e, left))
    (pow : ∀ a, check dbg f = .ok a → ∃ k, a.info.sectionAlignment = 2 ^ k)
    (pos : ∀ a, check dbg f = .ok a → 0 < a.info.sizeOfImage)
    (g1 : ∀ a, check dbg f = .ok a → Good (pagesFor a.info.sectionAlignment a.info.sizeOfImage) ans1)
    (g2 : ∀ a o z, check dbg f = .ok a → loadResource dbg image a.info.sections = .ok (some (o, z)) →
      0 < z ∧ Good (pagesFor a.info.sectionAlignment z) ans2)
    (n1 : ans1 ≠ .ok 0) (n2 : ans2 ≠ .ok 0) : left = [] := by
  rcases failed_inv dbg f image ans1 ans2 compat e left h with k | ⟨a, ha, k⟩
  · exact k
  · obtain ⟨c1, _, _⟩ := check_ok dbg f a ha
    rcases k with k | ⟨o, z, hr, k⟩
    · cases ans1 with
      | error e' => cases k; rfl
      | ok b =>
        obtain ⟨s, q⟩ := place_pow _ _ b (g1 a ha) (fun c => n1 (by rw [c])) (pos a ha) c1 (pow a ha)
        rw [q] at k; cases k
    · obtain ⟨z0, g⟩ := g2 a o z ha hr
      cases ans2 with
      | error e' => cases k; rfl
      | ok b =>
        obtain ⟨s, q⟩ := place_pow _ _ b g (fun c => n2 (by rw [c])) z0 c1 (pow a ha)
        rw [q] at k; cases k

/-- **C142 (finding).** The check of the section alignment lets through every multiple of the page
size, but the address is aligned by a function that only takes powers of two, and that only after the
pages have been allocated. Every attempt to load a file with an alignment like 0x3000 fails and loses
the pages for good. -/
theorem odd_alignment_leaks (dbg : Bool) (f : File) (image : List UInt8) (b : Nat) (ans2 : Answer) (compat : Bool)
    (a : Accepted) (ha : check dbg f = .ok a) (odd : ¬ ∃ k, a.info.sectionAlignment = 2 ^ k)
    (b0 : b ≠ 0) (hb : b < 2 ^ 64) :
    loadPe dbg f image (.ok b) ans2 compat =
      (.err .loadError, [(b, pagesFor a.info.sectionAlignment a.info.sizeOfImage)]) := by
  unfold loadPe
  rw [ha]
  dsimp only
  unfold loadAccepted place
  dsimp only
  rw [if_neg b0, (Base.alignUp_spec 64 b _ hb).2 odd]

/-- **C142 (finding).** Page zero, if the allocator hands it out, is taken for a failure and is lost. -/
theorem page_zero_leaks (dbg : Bool) (f : File) (image : List UInt8) (ans2 : Answer) (compat : Bool)
    (a : Accepted) (ha : check dbg f = .ok a) :
    loadPe dbg f image (.ok 0) ans2 compat =
      (.err .outOfResources, [(0, pagesFor a.info.sectionAlignment a.info.sizeOfImage)]) := by
  unfold loadPe
  rw [ha]
  rfl

/-- The file with another entry point. -/
def withEntry (h : PeHeader) (e : Nat) : File := .pe (some { h with entry := e })

/-- **C142 (finding).** The entry point in the header is not compared with anything: a file that loads
also loads with any other entry point, into the same memory, and starting it jumps to that distance from
the image start, inside the image or not. -/
theorem entry_unchecked (dbg : Bool) (h : PeHeader) (image : List UInt8) (ans1 ans2 : Answer) (compat : Bool)
    (l : Loaded) (owned : List Pages) (e : Nat)
    (hl : loadPe dbg (.pe (some h)) image ans1 ans2 compat = (.ok l, owned)) :
    loadPe dbg (withEntry h e) image ans1 ans2 compat = (.ok { l with entry := (l.start + e) % W }, owned) := by
  have hc : ∀ a, check dbg (.pe (some h)) = .ok a →
      check dbg (withEntry h e) = .ok { a with info := { a.info with entry := e } } := by
    intro a ha
    have hf : ∀ i, fromPe dbg h = .ok i → fromPe dbg { h with entry := e } = .ok { i with entry := e } := by
      intro i hi
      unfold fromPe at hi ⊢
      dsimp only
      split at hi
      · cases hi
      · rw [if_neg (by assumption)]
        split at hi
        · cases hi
        · rw [if_neg (by assumption)]; cases hi; rfl
    unfold withEntry
    unfold check parse at ha ⊢
    cases hi : fromPe dbg h with
    | panic => simp [hi] at ha
    | err _ => simp [hi] at ha
    | ok i =>
      simp only [hi] at ha
      simp only [hf i hi]
      split at ha
      · cases ha
      · split at ha
        · split at ha <;> cases ha
        · rw [if_neg (by assumption)]
          split at ha
          · split at ha <;> cases ha
          · rw [if_neg (by assumption)]; cases ha; rfl
  unfold loadPe at hl ⊢
  split at hl
  · cases hl
  · cases hl
  · rename_i a ha
    rw [hc a ha]
    dsimp only
    unfold loadAccepted at hl ⊢
    have ht : toPeInfo { a.info with entry := e } = toPeInfo a.info := rfl
    dsimp only
    rw [ht]
    split at hl
    · cases hl
    · cases hl
    · rename_i s r hp
      split at hl
      · cases hl
      · cases hl
      · rename_i u buf hb
        try (rw [hb]; dsimp only)
        split at hl
        · cases hl
        · cases hl
        · rename_i rel buf' hr
          try (rw [hr]; dsimp only)
          unfold addResource at hl ⊢
          dsimp only at hl ⊢
          split at hl
          · cases hl
          · cases hl
          · rename_i hres
            unfold finish at hl ⊢
            split at hl
            · cases hl
            · rw [if_neg (by assumption)]; cases hl; rfl
          · split at hl
            · cases hl
            · cases hl
            · unfold finish at hl ⊢
              split at hl
              · rw [if_pos (by assumption)]
                split at hl
                · cases hl
                · rw [if_neg (by assumption)]; cases hl; rfl
              · rw [if_neg (by assumption)]
                split at hl
                · cases hl
                · rw [if_neg (by assumption)]
                  split at hl
                  · cases hl
                  · rw [if_neg (by assumption)]; cases hl; rfl

/-! ## Examples -/

/-- A file of 16 bytes of headers and one section of one byte. -/
def tiny : PeHeader where
  machine := 0x8664
  entry := 0x10
  subsystem := 11
  sectionAlignment := 0x2000
  sizeOfImage := 0x2000
  sizeOfHeaders := 60
  dllCharacteristics := 0
  pePointer := 0
  sections := []
  relocDir := none

def file : List UInt8 := List.replicate 60 7

theorem tiny_check : check true (.pe (some tiny)) = .ok ⟨⟨none, 48, 0x10, 11, 0x2000, 0x2000, 60, [], none, none, false⟩, 3, 4⟩ := by
  decide +kernel

theorem tiny_place : place 0x2000 0x2000 (.ok 0x5000) = (.ok 0x6000, [(0x5000, 4)]) := by decide +kernel

example : Good (pagesFor 0x2000 0x2000) (.ok 0x5000) := by unfold Good; decide
/-- The start and the entry point of a loaded image. -/
def summary : Outcome EfiError Loaded → Option (Nat × Nat)
  | .ok l => some (l.start, l.entry)
  | _ => none
example : let r := loadPe true (.pe (some tiny)) file (.ok 0x5000) (.error .outOfResources) false
    summary r.1 = some (0x6000, 0x6010) ∧ r.2 = [(0x5000, 4)] := by decide +kernel
example : loadPe false (.pe (some { tiny with sectionAlignment := 0x3000, sizeOfImage := 0x3000 })) file (.ok 0x5000)
    (.error .outOfResources) false = (.err .loadError, [(0x5000, 6)]) := by decide +kernel
example : loadPe true (.pe (some { tiny with subsystem := 10 })) file (.ok 0x5000)
    (.error .outOfResources) false = (.err .loadError, []) := by
  decide +kernel

end Verif.Pecoff.Load
