import Verif.Images.Source
import Verif.DevicePath.Spec
/-!
Specification for `Images/Source`: a file system that does what the UEFI specification says of it, the file that a path names, and who has to be asked before an image is loaded.
-/
namespace Verif.Images.Source
open Verif.DevicePath Verif.DevicePath.Spec

inductive Entry where
  | dir
  | file (content : List UInt8)
deriving DecidableEq, Repr

/-- A tree of files: `child` is what a name means in a directory. -/
structure Fs (ν : Type) where
  root : ν
  child : ν → List Nat → Option ν
  entry : ν → Entry

variable {ν σ : Type}

/-- The file that names lead to, one after the other. -/
def Fs.find (fs : Fs ν) : ν → List (List Nat) → Option ν
  | v, [] => some v
  | v, n :: ns => match fs.child v n with
    | none => none
    | some w => fs.find w ns

/-- `EFI_FILE_INFO`: the size of the file at offset 8, the attributes at offset 72, of which bit 4 says that it is a directory. -/
structure IsInfo (b : List UInt8) (e : Entry) : Prop where
  long : 80 ≤ b.length
  size : ∀ c, e = .file c → leVal ((b.drop 8).take 8) = c.length
  directory : (leVal ((b.drop 72).take 8)).testBit 4 = decide (e = .dir)

/-- The driver behind the interface `sfs` serves `fs`. `opened` says which files are open in a state, and where they are read. -/
structure Serves (env : Env σ) (sfs : Nat) (fs : Fs ν) where
  opened : σ → Nat → Option (ν × Nat)
  info : ν → List UInt8
  is_info : ∀ v, IsInfo (info v) (fs.entry v)
  volume : ∀ s, ∃ f s', env.openVolume s sfs = ((SUCCESS, f), s') ∧ f ≠ 0 ∧ opened s f = none ∧ opened s' f = some (fs.root, 0) ∧
    ∀ g, g ≠ f → opened s' g = opened s g
  opens : ∀ s f v p nm w, opened s f = some (v, p) → fs.child v nm = some w →
    ∃ f' s', env.openFile s f nm MODE_READ 0 = ((SUCCESS, f'), s') ∧ f' ≠ 0 ∧ opened s f' = none ∧ opened s' f' = some (w, 0) ∧
      ∀ g, g ≠ f' → opened s' g = opened s g
  missing : ∀ s f v p nm, opened s f = some (v, p) → fs.child v nm = none → (env.openFile s f nm MODE_READ 0).1.1 = NOT_FOUND
  info_size : ∀ s f v p, opened s f = some (v, p) → ∃ d s', env.getInfo s f 0 = ((BUFFER_TOO_SMALL, (info v).length, d), s') ∧ opened s' = opened s
  info_data : ∀ s f v p, opened s f = some (v, p) →
    ∃ s', env.getInfo s f (info v).length = ((SUCCESS, (info v).length, info v), s') ∧ opened s' = opened s
  seeks : ∀ s f v p q, opened s f = some (v, p) → ∃ s', env.setPosition s f q = (SUCCESS, s') ∧ opened s' f = some (v, q) ∧
    ∀ g, g ≠ f → opened s' g = opened s g
  reads : ∀ s f v p c n, opened s f = some (v, p) → fs.entry v = .file c →
    ∃ s', env.readFile s f n = ((SUCCESS, ((c.drop p).take n).length, (c.drop p).take n), s') ∧ opened s' f = some (v, p + ((c.drop p).take n).length) ∧
      ∀ g, g ≠ f → opened s' g = opened s g

/-- A name as it is in a device path: its words, and a zero. -/
def nameBytes (nm : List Nat) : List UInt8 := (nm ++ [0]).flatMap (leBytes 2)

/-- A file path node. -/
def fileNode (nm : List Nat) : Node := ⟨4, 4, nameBytes nm⟩

/-- A name: words of 16 bits, no zero, not too long for a node. -/
def NameOk (nm : List Nat) : Prop := (∀ w ∈ nm, 0 < w ∧ w < 65536) ∧ 2 * nm.length + 6 < 65536

/-- Who is to be asked about the bytes `b`, in what order: Security2 about the bytes if it is there, Security about the authentication status if there is no Security2 or the file is of a
firmware volume and Security2 accepted it. -/
def toAsk (security2 security accepted fromFv : Bool) (path : Option Path) (b : List UInt8) (policy : Bool) : List Call :=
  (if security2 then [.fileAuthentication path b policy] else []) ++
  (if security && (!security2 || (accepted && fromFv)) then [.authenticationState 0 path] else [])

/-- All who are asked about the bytes `b` accept them, in the state `e`. -/
def Accepted (env : Env σ) (e : σ) (path : Option Path) (b : List UInt8) (policy fromFv : Bool) : Prop :=
  (env.hasSecurity2 e = true → (env.fileAuthentication e path b policy).1 = SUCCESS) ∧
  (env.hasSecurity e = true → env.hasSecurity2 e = false → (env.authenticationState e 0 path).1 = SUCCESS) ∧
  (env.hasSecurity e = true → env.hasSecurity2 e = true → fromFv = true →
    (env.authenticationState (env.fileAuthentication e path b policy).2 0 path).1 = SUCCESS)

/-- Calls that only look for bytes. -/
def Call.looks : Call → Bool
  | .fileAuthentication .. => false
  | .authenticationState .. => false
  | .loadPe .. => false
  | _ => true

end Verif.Images.Source
