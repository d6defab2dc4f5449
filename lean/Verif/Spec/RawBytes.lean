import Verif.Model.RawBytes
import Verif.Spec.Faults

/-!
# Specification of the raw access to the bytes of a tuple

The object is a plain array of bytes; setting an element overwrites its bytes by the encoding of the value.
-/

namespace Upd.Spec

/-- The position of the first byte of the element of index `i`. -/
def offsetOf (ts : List Ty) (i : Nat) : Nat := wireSizes (ts.take i)

/-- The bytes of the element of index `i`, those of the object being `bs`. -/
def bytesOf (ts : List Ty) (i : Nat) (bs : List Byte) : List Byte := slice bs (offsetOf ts i) (wireSizes (ts.take (i + 1)) - offsetOf ts i)

/-- The bytes of the object once an operation has been done. -/
def RawOp.after (e : Endian) (s : Mode) (ts : List Ty) (bs : List Byte) : RawOp → List Byte
  | .set i v =>
    match ts[i]? with
    | some t => splice bs (offsetOf ts i) (wire e s t v)
    | none => bs
  | .byte k b => bs.set k b

/-- What reading a type from bytes gives: the value that they stand for, unless they cannot be decoded. -/
def decoded (P : Platform) (e : Endian) (s : Mode) (t : Ty) (bs : List Byte) : M Val :=
  match undecodable P e s t bs with
  | none => .ok (unwire e s t bs)
  | some f => .error f

end Upd.Spec
