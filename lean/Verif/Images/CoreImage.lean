import Verif.Images.Interfaces
import Verif.Services.Reinstall
import Verif.Hob.Model
import Mathlib.Tactic.IntervalCases
/-!
The handles everybody knows, `SpinLockedProtocolDb::init_protocol_db`, `/repo/patina_dxe_core/src/protocol_db.rs` lines 638-667, and the image of
the core itself, `install_dxe_core_image`, `/repo/patina_dxe_core/src/image.rs` lines 493-575, on the models of the protocol database and the hand-off blocks.

Left out: the table of debug image infos (`Tables.Debug`). The protocol is installed while the lock of the images is held at `TPL_NOTIFY`, so events are queued.
-/
namespace Verif.Images.Core
open Verif.Protocol Verif.Services Verif.Hob

variable {α : Type}

/-- `WELL_KNOWN_HANDLE_PROTOCOL_GUID`, protocol_db.rs line 25, as the number of its bytes. -/
def WELL_KNOWN : Nat := 0xfced7c96356e48cba9a9e089b2ddf49b

/-- The core and the nine allocators, protocol_db.rs lines 28-37 and 643-654. -/
def wellKnown : List Nat := [1, 2, 3, 4, 5, 6, 7, 8, 9, 10]

/-- The loop, protocol_db.rs lines 656-661: `none` if an installation fails or the handle is not the one expected, which are panics. -/
def makeHandles (hash : Nat → Nat → Nat) (lim : Nat) : List Nat → Db → Option Db
  | [], db => some db
  | t :: l, db =>
    match db.install hash lim none WELL_KNOWN 0 with
    | (.ok (h, _), db) => if h = t then makeHandles hash lim l db else none
    | _ => none

/-- `init_protocol_db`, protocol_db.rs lines 638-663. -/
def initDb (hash : Nat → Nat → Nat) (lim : Nat) (db : Db) : Option Db := (makeHandles hash lim wellKnown db).map Db.enableHashing

/-- `guids::DXE_CORE`, sdk/patina/src/guids.rs lines 37-38: `23C9322F-2AF2-476A-BC4C-26BC88266C71`. -/
def DXE_CORE : List UInt8 := [0x2f, 0x32, 0xc9, 0x23, 0xf2, 0x2a, 0x6a, 0x47, 0xbc, 0x4c, 0x26, 0xbc, 0x88, 0x26, 0x6c, 0x71]

/-- What is kept of the image: `image_info` and `PrivateImageData::new_with_existing_allocation`, image.rs lines 238-262. -/
structure Image where
  handle : Nat
  info : Nat
  systemTable : Nat
  base : Nat
  size : Nat
  entry : Nat
  pages : Nat
  started : Bool
deriving DecidableEq, Repr

/-- image.rs lines 496-502: the first module of that name. -/
def coreModule (hobs : List View) : Option MemoryAllocationModule :=
  hobs.findSome? fun | .module m => if m.moduleName = DXE_CORE then some m else none | _ => none

/-- `install_dxe_core_image`, image.rs lines 493-575. `parses`: is there an image the core can parse in so many bytes at an address (`UefiPeInfo::parse`, lines 524-530);
`info`: where the structure of the protocol is put. `none` is a panic. Sizes are numbers: rounding up a size next to 2^64 is left out. -/
def installCore (w : World α) (s : St α) (hobs : List View) (parses : Nat → Nat → Bool) (systemTable info : Nat) : Option (Image × St α) :=
  match coreModule hobs with
  | none => none
  | some m =>
    let base := m.desc.base.toNat
    let size := m.desc.length.toNat
    if parses base size then
      match coreInstall w true s (some 1) Interfaces.LOADED_IMAGE info with
      | (.ok h, s) => if h = 1 then some (⟨h, info, systemTable, base, size, m.entryPoint.toNat, (size + 4095) / 4096, true⟩, s) else none
      | _ => none
    else none

/-- What the initialised database is. -/
def made : Db := ⟨wellKnown.map fun h => (h, ⟨h + 1, [(WELL_KNOWN, ⟨0, false, false, []⟩)]⟩), [], true, 11, 1⟩

theorem initDb_made (hash : Nat → Nat → Nat) (lim : Nat) : initDb hash lim Db.new = some made := by
  simp [initDb, makeHandles, wellKnown, Db.install, Db.newHandle, Db.new, Db.installOn, BMap.insert, BMap.get, BMap.has, BMap.modify, made, Db.enableHashing]

theorem run_made (hash : Nat → Nat → Nat) (lim : Nat) : made = Db.new.run hash lim (List.replicate 10 (.install none WELL_KNOWN 0) ++ [.enableHashing]) := by
  simp [Db.run, Db.step, List.replicate, wellKnown, Db.install, Db.newHandle, Db.new, Db.installOn, BMap.insert, BMap.get, BMap.has, BMap.modify, made, Db.enableHashing]

/-- The handles the memory allocators and the core are known by are those compiled into them, 1 to 10, whatever the hasher does: initialising the
database does not panic, exactly these exist, each carries one protocol and nothing else, and handles made from then on are hashed. -/
theorem well_known_handles (hash : Nat → Nat → Nat) (lim : Nat) : ∃ db, initDb hash lim Db.new = some db ∧ Reachable db ∧ db.hashing = true ∧
    (∀ h, db.valid h = true ↔ 1 ≤ h ∧ h ≤ 10) ∧
    ∀ h, 1 ≤ h → h ≤ 10 → db.protocolsOn h = .ok [0xfced7c96356e48cba9a9e089b2ddf49b] ∧
      db.getInterface h 0xfced7c96356e48cba9a9e089b2ddf49b = .ok 0 := by
  refine ⟨made, initDb_made hash lim, ⟨hash, lim, _, run_made hash lim⟩, rfl, fun h => ?_, fun h h1 h2 => ?_⟩
  · constructor
    · intro hv
      obtain ⟨hd, hg⟩ := valid_iff.1 hv
      have hm := List.mem_map_of_mem (f := Prod.fst) (BMap.get_some_mem hg)
      have hm : h ∈ [1, 2, 3, 4, 5, 6, 7, 8, 9, 10] := hm
      simp only [List.mem_cons, List.not_mem_nil, or_false] at hm
      omega
    · rintro ⟨h1, h2⟩
      interval_cases h <;> rfl
  · interval_cases h <;> exact ⟨rfl, rfl⟩

/-- A handle made by anyone after that is none of the ten: nobody is given the identity of the core or of an allocator. -/
theorem later_handles_differ (hash : Nat → Nat → Nat) (lim : Nat) {db db' : Db} {g i h : Nat} {l : List Notify}
    (hh : db.hashing = true) (hk : ∀ h, 1 ≤ h → h ≤ 10 → db.valid h = true)
    (hi : db.install hash lim none g i = (.ok (h, l), db')) : 10 < h := by
  simp only [Db.install, Db.newHandle, hh, if_true] at hi
  cases hf : findKey hash db lim 0 with
  | none => simp [hf] at hi
  | some p =>
    obtain ⟨k, n⟩ := p
    obtain ⟨k0, kh, -⟩ := findKey_spec hash db lim 0 k n hf
    simp only [hf, Db.installOn, BMap.get_insert, if_true] at hi
    split at hi
    · cases hi
    · simp only [Prod.mk.injEq, Outcome.ok.injEq] at hi
      obtain ⟨⟨rfl, -⟩, -⟩ := hi
      by_cases hle : k ≤ 10
      · have := hk k (by omega) hle
        simp [Db.valid, kh] at this
      · omega

theorem unregister_handles (l : List Nat) (db : Db) : (l.foldl Db.unregister db).handles = db.handles := by
  induction l generalizing db with
  | nil => rfl
  | cons e l ih => exact (ih _).trans rfl

/-- The core's own image is found by everyone who looks at the core's handle: if the handle exists and has no image yet, the hand-off list has a module of
the core's name and there is an image in its memory, then registering succeeds; the image is the FIRST such module of the list, with its base, length and entry point
and the pages that hold it; it counts as started; its protocol is found on handle 1; and no other protocol of any handle changes. -/
theorem core_registered (w : World α) (s : St α) (hobs : List View) (parses : Nat → Nat → Bool) (st info : Nat)
    (before after : List View) (m : MemoryAllocationModule) (hl : hobs = before ++ .module m :: after)
    (hb : ∀ m', .module m' ∈ before → m'.moduleName ≠ [0x2f, 0x32, 0xc9, 0x23, 0xf2, 0x2a, 0x6a, 0x47, 0xbc, 0x4c, 0x26, 0xbc, 0x88, 0x26, 0x6c, 0x71])
    (hm : m.moduleName = [0x2f, 0x32, 0xc9, 0x23, 0xf2, 0x2a, 0x6a, 0x47, 0xbc, 0x4c, 0x26, 0xbc, 0x88, 0x26, 0x6c, 0x71])
    (hp : parses m.desc.base.toNat m.desc.length.toNat = true)
    (hi : s.db.getInterface 1 0xa1311b5b6295d2118e3f00a0c969723b = .err .notFound) :
    ∃ im s', installCore w s hobs parses st info = some (im, s') ∧
      im.handle = 1 ∧ im.info = info ∧ im.systemTable = st ∧ im.started = true ∧
      im.base = m.desc.base.toNat ∧ im.size = m.desc.length.toNat ∧ im.entry = m.entryPoint.toNat ∧
      im.size ≤ im.pages * 4096 ∧ im.pages * 4096 < im.size + 4096 ∧
      s'.db.getInterface 1 0xa1311b5b6295d2118e3f00a0c969723b = .ok info ∧
      ∀ h g, (h ≠ 1 ∨ g ≠ 0xa1311b5b6295d2118e3f00a0c969723b) → s'.db.getInterface h g = s.db.getInterface h g := by
  have hc : coreModule hobs = some m := by
    subst hl
    simp only [coreModule, List.findSome?_append, List.findSome?_cons]
    have : before.findSome? (fun | View.module m => if m.moduleName = DXE_CORE then some m else none | _ => none) = none := by
      rw [List.findSome?_eq_none_iff]
      intro v hv
      cases v <;> try rfl
      rename_i m'
      have := hb m' hv
      simp [DXE_CORE, this]
    rw [this]
    simp [DXE_CORE, hm]
  cases hg : s.db.handles.get 1 with
  | none => simp [Db.getInterface, hg] at hi
  | some hd =>
    have hn : hd.protocols.get Interfaces.LOADED_IMAGE = none := by
      cases e : hd.protocols.get Interfaces.LOADED_IMAGE with
      | none => rfl
      | some x =>
        have e' : hd.protocols.get 0xa1311b5b6295d2118e3f00a0c969723b = some x := e
        simp [Db.getInterface, hg, e'] at hi
    have hv : s.db.valid 1 = true := valid_iff.2 ⟨hd, hg⟩
    have hh : hd.protocols.has Interfaces.LOADED_IMAGE = false := BMap.has_false.2 hn
    simp only [installCore, hc, hp, if_true, coreInstall, Db.install, hv, Db.installOn, hg, hh, Bool.false_eq_true, if_false]
    refine ⟨_, _, rfl, rfl, rfl, rfl, rfl, rfl, rfl, rfl, ?_, ?_, ?_, ?_⟩
    · simp only; omega
    · simp only; omega
    · simp [Db.getInterface, unregister_handles, signalAll_quiet, BMap.get_insert, Interfaces.LOADED_IMAGE]
    · intro h g hne
      simp only [Db.getInterface, unregister_handles, signalAll_quiet, BMap.get_insert]
      by_cases e : h = 1
      · subst e
        have : g ≠ Interfaces.LOADED_IMAGE := fun hgg => hne.elim (fun a => a rfl) (fun a => a hgg)
        simp [hg, BMap.get_insert, this]
      · simp [e]

/-- If no module of that name holds an image there is no core to register: the boot stops rather than going on with an unknown image. -/
theorem core_refused (w : World α) (s : St α) (hobs : List View) (parses : Nat → Nat → Bool) (st info : Nat)
    (hb : ∀ m', .module m' ∈ hobs → m'.moduleName = [0x2f, 0x32, 0xc9, 0x23, 0xf2, 0x2a, 0x6a, 0x47, 0xbc, 0x4c, 0x26, 0xbc, 0x88, 0x26, 0x6c, 0x71] →
      parses m'.desc.base.toNat m'.desc.length.toNat = false) :
    installCore w s hobs parses st info = none := by
  unfold installCore
  cases hc : coreModule hobs with
  | none => rfl
  | some m =>
    obtain ⟨v, hv, hx⟩ := List.exists_of_findSome?_eq_some hc
    cases v <;> simp only [reduceCtorEq] at hx
    rename_i m'
    split at hx
    · rename_i hn
      cases hx
      simp [hb m hv hn]
    · cases hx

/-! A case: a list with another module first, then the core, then a second one of the core's name. The images are registered after the database is made. -/
def someHeader : Header := ⟨2, 72, 0⟩
def someModule (name : List UInt8) (base : UInt64) : MemoryAllocationModule := ⟨someHeader, ⟨[], base, 0x12001, 3, []⟩, name, base + 0x1000⟩
def someHobs : List View := [.module (someModule [1] 0x1000), .misc 7, .module (someModule DXE_CORE 0x200000), .module (someModule DXE_CORE 0x900000)]
def someWorld : World Unit :=
  { hash := fun n i => n * 7919 + i, lim := 100, disconnect := fun s _ _ => (true, s), connect := fun s _ => s, signal := fun s _ => (true, s),
    queue := fun a _ => (true, a), pool := fun a _ => (none, a), remaining := fun _ _ _ => none, isEnd := fun _ _ => true }

example : ∃ db, initDb someWorld.hash someWorld.lim Db.new = some db ∧ db.getInterface 1 0xa1311b5b6295d2118e3f00a0c969723b = .err .notFound ∧
    (installCore someWorld ⟨db, ()⟩ someHobs (fun _ _ => true) 0x5000 0x6000).map (·.1) = some ⟨1, 0x6000, 0x5000, 0x200000, 0x12001, 0x201000, 19, true⟩ ∧
    ((db.install someWorld.hash someWorld.lim none 5 6).1 matches .ok (87109, _)) = true :=
  ⟨made, initDb_made _ _, rfl, by decide +kernel, by decide +kernel⟩

end Verif.Images.Core
