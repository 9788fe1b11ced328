import Verif.Ffs.FileModel
/-!
Model of composing and extracting encapsulation sections, `/repo/sdk/patina_ffs/src/section.rs`.
The composer and the extractor are supplied by the user and are arbitrary functions.
-/
namespace Verif.Ffs

/-- `SectionComposer::compose`, section.rs lines 30-37. -/
abbrev Composer := Section → Outcome FfsError (SecHdr × List UInt8)
/-- `SectionExtractor::extract`, section.rs lines 22-28. -/
abbrev Extractor := Section → Outcome FfsError (List UInt8)

/-- The end of `compose`, section.rs lines 487-501: store header and content. -/
def Section.store (s : Section) (h : SecHdr) (content : List UInt8) : Outcome FfsError Unit × Section :=
  match h.setContentSize content.length with
  | .ok h' => (.ok (), { s with hdr := h', data := content })
  | .err e => (.err e, { s with hdr := h })
  | .panic => (.panic, s)

/-- `compose` of an encapsulation whose sub-sections are composed, section.rs lines 477-501. -/
def Section.pack (c : Composer) (s : Section) : Outcome FfsError Unit × Section :=
  match c s with
  | .ok r => s.store r.1 r.2
  | .err e => (.err e, s)
  | .panic => (.panic, s)

mutual
/-- `Section::compose`, section.rs lines 465-504. The flag `dirty` is cleared before the composer is called. -/
def Section.compose (c : Composer) : Section → Outcome FfsError Unit × Section
  | ⟨h, d, encap, ex, dirty, subs⟩ =>
    if encap then
      match composeAll c subs with
      | (.ok _, subs') => Section.pack c ⟨h, d, encap, ex, false, subs'⟩
      | (.err e, subs') => (.err e, ⟨h, d, encap, ex, dirty, subs'⟩)
      | (.panic, subs') => (.panic, ⟨h, d, encap, ex, dirty, subs'⟩)
    else Section.store ⟨h, d, encap, ex, false, subs⟩ h d
/-- The loop over the sub-sections, section.rs lines 468-470: it stops at the first error. -/
def composeAll (c : Composer) : List Section → Outcome FfsError Unit × List Section
  | [] => (.ok (), [])
  | s :: ss =>
    match s.compose c with
    | (.ok _, s') =>
      match composeAll c ss with
      | (r, ss') => (r, s' :: ss')
    | (.err e, s') => (.err e, s' :: ss)
    | (.panic, s') => (.panic, s' :: ss)
end

/-- What an extractor that does not know the section means, section.rs lines 515-518. -/
def orNothing : Outcome FfsError (List UInt8) → Outcome FfsError (List UInt8)
  | .err .unsupported => .ok []
  | r => r

/-- A fallible map; the first failure wins. -/
def mapOut {α β : Type} (f : α → Outcome FfsError β) : List α → Outcome FfsError (List β)
  | [] => .ok []
  | a :: as =>
    match f a with
    | .ok b =>
      match mapOut f as with
      | .ok bs => .ok (b :: bs)
      | r => r
    | .err e => .err e
    | .panic => .panic

/-- `Section::extract`, section.rs lines 510-541: the section afterwards; on an error it is unchanged.
`fuel` bounds the nesting; beyond it the real code runs out of stack. -/
def Section.extract (dbg : Bool) (x : Extractor) : Nat → Section → Outcome FfsError Section
  | 0, _ => .panic
  | fuel + 1, s =>
    if !(s.encap && !s.extracted) then .ok s
    else match orNothing (x s) with
      | .ok b =>
        match sectionList dbg b with
        | .ok ss =>
          match mapOut (Section.extract dbg x fuel) ss with
          | .ok ss' => .ok { s with subs := ss', extracted := true }
          | .err e => .err e
          | .panic => .panic
        | .err e => .err e
        | .panic => .panic
      | .err e => .err e
      | .panic => .panic

end Verif.Ffs
