import Verif.Guid.Model
/-!
Model of the reporting of status codes, `/repo/sdk/patina/src/uefi_protocol/status_code.rs` lines 27-94, with the header of
`/repo/sdk/patina_pi/src/protocols/status_code.rs` lines 30-36.

* The driver that receives the report is an arbitrary function from what it is given to a status.
* The data is given by its bytes; a type with padding has bytes that are not initialised, which is not modelled. Nor is the alignment of the buffer,
  which is a `Vec<u8>` and promises the driver no more than one byte.
-/
namespace Verif.StatusCode
open Verif.Guid (G)

/-- What the driver is called with: the two codes, the instance, the caller and the bytes the last pointer points to, `none` for null. -/
structure Report where
  ty : Nat
  value : Nat
  inst : Nat
  caller : G
  data : Option (List UInt8)
deriving DecidableEq, Repr

/-- `Status::is_error` of r-efi: the highest bit. -/
def isError (status : Nat) : Bool := status.testBit 63

/-- `mem::size_of::<EfiStatusCodeData>()`: two bytes, two bytes and a GUID, status_code.rs of patina_pi lines 31-36. -/
def HEADER : Nat := 20

/-- The bytes of the header built in lines 57-61: both sizes are cut to sixteen bits. -/
def header (dataType : G) (size : Nat) : List UInt8 := leBytes 2 HEADER ++ leBytes 2 size ++ dataType.bytes

/-- The call and the conversion of its status, lines 66-69 and 80-87. -/
def send (fw : Report → Nat) (r : Report) : Report × Except Nat Unit :=
  (r, if isError (fw r) then .error (fw r) else .ok ())

/-- `report_status_code_with_data`, lines 44-70. -/
def reportWithData (fw : Report → Nat) (ty value inst : Nat) (caller dataType : G) (data : List UInt8) : Report × Except Nat Unit :=
  send fw ⟨ty, value, inst, caller, some (header dataType data.length ++ data)⟩

/-- `report_status_code`, lines 73-88. -/
def report (fw : Report → Nat) (ty value inst : Nat) (caller : G) : Report × Except Nat Unit := send fw ⟨ty, value, inst, caller, none⟩

end Verif.StatusCode
