import Verif.Model.Effect

/-!
# The packet encoder of the documentation (doc/serialization.rst.in, test/snippet/serialization1)

The snippet uses particular types; here the types, the number of bytes before and after the part covered by the checksum, and the checksum are
parameters.
-/

namespace Upd

variable {τ : Type}

/-- The bytes of `[t.begin() + a, t.end() - b)` (include/upd/tuple.hpp:328-337). -/
def Tuple.range (t : Mem) (a b : Nat) : List Byte := (t.drop a).take (t.length - a - b)

/-- First half of test/snippet/serialization1 (:1-18): a tuple is built with a placeholder for the checksum (its last element, at index `ts.length - 1`),
the checksum of a part of its bytes is set, and the bytes are sent. -/
def Packet.send (P : Platform) (e : Endian) (s : Mode) (ts : List Ty) (a b : Nat) (crc : List Byte → Val) (vs : List Val) (dest : Byte → Eff τ Unit) :
    Eff τ Unit := do
  let outputTuple ← Eff.lift (Tuple.make P e s ts vs)
  let outputTuple ← Eff.lift ((Tuple.self e s ts).set P (ts.length - 1) (crc (Tuple.range outputTuple a b)) outputTuple)
  outAll dest outputTuple

/-- Second half of test/snippet/serialization1 (:20-39): the bytes of a tuple are received, then its elements are read by a structured binding. Gives
the elements and the checksum computed from the bytes received, which the snippet compares with the last element. -/
def Packet.receive (P : Platform) (e : Endian) (s : Mode) (ts : List Ty) (a b : Nat) (crc : List Byte → Val) (src : Eff τ Byte) :
    Eff τ (List Val × Val) := do
  let inputTuple ← Tuple.readFrom P e s ts src
  let vs ← Eff.lift ((Tuple.self e s ts).gets P (Tuple.self e s ts).indices inputTuple)
  pure (vs, crc (Tuple.range inputTuple a b))

end Upd
