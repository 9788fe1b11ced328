import Verif.Prelude
/-!
Model of `EfiError` and its conversions, `/repo/sdk/patina/src/error.rs` lines 17-184. A status is a 64-bit number; the constants are those of r-efi (`Status::from_usize` with the error bit,
UEFI specification, appendix D).
-/
namespace Verif.Status

/-- `EfiError`, lines 17-87. -/
inductive Error where
  | LoadError | InvalidParameter | Unsupported | BadBufferSize | BufferTooSmall | NotReady | DeviceError | WriteProtected | OutOfResources | VolumeCorrupted
  | VolumeFull | NoMedia | MediaChanged | NotFound | AccessDenied | NoResponse | NoMapping | Timeout | NotStarted | AlreadyStarted | Aborted | IcmpError
  | TftpError | ProtocolError | IncompatibleError | SecurityViolation | CrcError | EndOfMedia | EndOfFile | InvalidLanguage | CompromisedData
  | IpAddressConflict | HttpError
  | Unknown (status : Nat)
deriving DecidableEq, Repr

/-- The highest bit of a status. -/
def ERROR : Nat := 0x8000000000000000

/-- `EfiError::status_to_result`, lines 95-133. -/
def statusToResult (status : Nat) : Except Error Unit :=
  if status = 0 then .ok ()
  else if status = ERROR + 1 then .error .LoadError
  else if status = ERROR + 2 then .error .InvalidParameter
  else if status = ERROR + 3 then .error .Unsupported
  else if status = ERROR + 4 then .error .BadBufferSize
  else if status = ERROR + 5 then .error .BufferTooSmall
  else if status = ERROR + 6 then .error .NotReady
  else if status = ERROR + 7 then .error .DeviceError
  else if status = ERROR + 8 then .error .WriteProtected
  else if status = ERROR + 9 then .error .OutOfResources
  else if status = ERROR + 10 then .error .VolumeCorrupted
  else if status = ERROR + 11 then .error .VolumeFull
  else if status = ERROR + 12 then .error .NoMedia
  else if status = ERROR + 13 then .error .MediaChanged
  else if status = ERROR + 14 then .error .NotFound
  else if status = ERROR + 15 then .error .AccessDenied
  else if status = ERROR + 16 then .error .NoResponse
  else if status = ERROR + 17 then .error .NoMapping
  else if status = ERROR + 18 then .error .Timeout
  else if status = ERROR + 19 then .error .NotStarted
  else if status = ERROR + 20 then .error .AlreadyStarted
  else if status = ERROR + 21 then .error .Aborted
  else if status = ERROR + 22 then .error .IcmpError
  else if status = ERROR + 23 then .error .TftpError
  else if status = ERROR + 24 then .error .ProtocolError
  else if status = ERROR + 25 then .error .IncompatibleError
  else if status = ERROR + 26 then .error .SecurityViolation
  else if status = ERROR + 27 then .error .CrcError
  else if status = ERROR + 28 then .error .EndOfMedia
  else if status = ERROR + 31 then .error .EndOfFile
  else if status = ERROR + 32 then .error .InvalidLanguage
  else if status = ERROR + 33 then .error .CompromisedData
  else if status = ERROR + 34 then .error .IpAddressConflict
  else if status = ERROR + 35 then .error .HttpError
  else .error (.Unknown status)

/-- `From<EfiError> for efi::Status`, lines 136-177. -/
def toStatus : Error → Nat
  | .LoadError => ERROR + 1
  | .InvalidParameter => ERROR + 2
  | .Unsupported => ERROR + 3
  | .BadBufferSize => ERROR + 4
  | .BufferTooSmall => ERROR + 5
  | .NotReady => ERROR + 6
  | .DeviceError => ERROR + 7
  | .WriteProtected => ERROR + 8
  | .OutOfResources => ERROR + 9
  | .VolumeCorrupted => ERROR + 10
  | .VolumeFull => ERROR + 11
  | .NoMedia => ERROR + 12
  | .MediaChanged => ERROR + 13
  | .NotFound => ERROR + 14
  | .AccessDenied => ERROR + 15
  | .NoResponse => ERROR + 16
  | .NoMapping => ERROR + 17
  | .Timeout => ERROR + 18
  | .NotStarted => ERROR + 19
  | .AlreadyStarted => ERROR + 20
  | .Aborted => ERROR + 21
  | .IcmpError => ERROR + 22
  | .TftpError => ERROR + 23
  | .ProtocolError => ERROR + 24
  | .IncompatibleError => ERROR + 25
  | .SecurityViolation => ERROR + 26
  | .CrcError => ERROR + 27
  | .EndOfMedia => ERROR + 28
  | .EndOfFile => ERROR + 31
  | .InvalidLanguage => ERROR + 32
  | .CompromisedData => ERROR + 33
  | .IpAddressConflict => ERROR + 34
  | .HttpError => ERROR + 35
  | .Unknown s => s

/-- `From<efi::Status> for EfiError`, lines 179-183: `unwrap_err` panics on success. -/
def ofStatus (status : Nat) : Outcome Unit Error :=
  match statusToResult status with
  | .ok _ => .panic
  | .error e => .ok e

end Verif.Status
