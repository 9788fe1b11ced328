import Verif.Services.Model
/-!
Model of the protocols of an image: what `core_load_image` installs, `/repo/patina_dxe_core/src/image.rs` lines 1084-1147, and what `core_unload_image` closes and uninstalls, lines 1364-1411,
on the model of the protocol services (`Verif/Services`).

Left out: the debugger, the table of debug image infos (`Tables.Debug`), the runtime images (`Runtime`) and the memory of the image (`ImageMem`).
-/
namespace Verif.Images.Interfaces
open Verif.Protocol Verif.Services

variable {α : Type}

/-- `5b1b31a1-9562-11d2-8e3f-00a0c969723b` -/
def LOADED_IMAGE : Nat := 0xa1311b5b6295d2118e3f00a0c969723b
/-- `bc62157e-3e33-4fec-9920-2d3b36d750df` -/
def LOADED_IMAGE_PATH : Nat := 0x7e1562bc333eec4f99202d3b36d750df
/-- `6a1ee763-d47a-43b4-aabe-ef1de2ab56fc` -/
def PACKAGE_LIST : Nat := 0x63e71e6a7ad4b443aabeef1de2ab56fc

/-- What is remembered of the interfaces, lines 1143-1145. -/
structure Kept where
  info : Nat
  path : Nat
deriving DecidableEq, Repr

/-- Lines 1084-1147: `info` is the loaded image protocol, `path` the caller's device path (0 if there is none), `copy` where its copy is made, `package` the HII package list. -/
def load (w : World α) (s : St α) (info path copy : Nat) (package : Option Nat) : Outcome Err (Nat × Kept) × St α :=
  match coreInstall w false s none LOADED_IMAGE info with
  | (.err e, s) => (.err e, s)
  | (.panic, s) => (.panic, s)
  | (.ok h, s) =>
    match coreInstall w false s (some h) LOADED_IMAGE_PATH (if path = 0 then 0 else copy) with
    | (.err e, s) => (.err e, s)
    | (.panic, s) => (.panic, s)
    | (.ok _, s) =>
      match package with
      | none => (.ok (h, ⟨info, path⟩), s)
      | some p =>
        match coreInstall w false s (some h) PACKAGE_LIST p with
        | (.err e, s) => (.err e, s)
        | (.panic, s) => (.panic, s)
        | (.ok _, s) => (.ok (h, ⟨info, path⟩), s)

/-- Lines 1380-1391: the usages of one protocol. -/
def closeIn (image h : Nat) (db : Db) (g : Nat) : Db :=
  match db.usages h g with
  | .ok us => us.foldl (fun db u => if some image = u.agent then (db.removeUsage h g u.agent u.controller (some u.attrs)).2 else db) db
  | _ => db

/-- Lines 1371-1379: the protocols of one handle. -/
def closeOn (image : Nat) (db : Db) (h : Nat) : Db :=
  match db.protocolsOn h with
  | .ok gs => gs.foldl (closeIn image h) db
  | _ => db

/-- Lines 1366-1393: everything the image has open. -/
def closeAll (db : Db) (image : Nat) : Db :=
  match db.locateHandles none with
  | .ok hs => hs.foldl (closeOn image) db
  | _ => db

/-- Lines 1366-1411. The results of uninstalling are ignored. -/
def unload (w : World α) (fuel : Nat) (s : St α) (h : Nat) (k : Kept) : Option (St α) :=
  match Services.uninstall w fuel { s with db := closeAll s.db h } h LOADED_IMAGE k.info with
  | none => none
  | some (_, s) =>
    match Services.uninstall w fuel s h LOADED_IMAGE_PATH k.path with
    | none => none
    | some (_, s) => some s

end Verif.Images.Interfaces
