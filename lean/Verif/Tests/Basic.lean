import Verif.Props.Demo
import Verif.Model.Iterator
import Verif.Model.PyObjects

/-!
# The tests of the library, on the model

The files of this folder transcribe the tests of /repo/test one by one and run them on the model, on several platforms. They are no proofs of
properties: they check that the model agrees with what the authors of the library have observed.
-/

namespace Upd.Tests

/-- The platforms on which the tests are run: computers of both byte orders, with and without the configuration macros, and a microcontroller. A big-endian computer
with the macros is left out: the library fails its tests there (C10; see the end of `Verif.Tests.Tuple`). -/
def platforms : List Platform := [pc, pcMacros, avr, ppc]

/-- `every_options` (test/utility.hpp:20-26). -/
def formats : List (Endian × Mode) :=
  [(.little, .signMagnitude), (.little, .onesComplement), (.little, .twosComplement), (.little, .offsetBinary),
   (.big, .signMagnitude), (.big, .onesComplement), (.big, .twosComplement), (.big, .offsetBinary)]

mutual
/-- Equality of values. -/
def same : Val → Val → Bool
  | .bool a, .bool b => a == b
  | .int a, .int b => a == b
  | .arr a, .arr b => sames a b
  | .user a, .user b => sames a b
  | _, _ => false

/-- Equality of lists of values. -/
def sames : List Val → List Val → Bool
  | [], [] => true
  | a :: as, b :: bs => same a b && sames as bs
  | _, _ => false
end

/-- The test ran to its end and its assertions hold. -/
def passed : M Bool → Bool
  | .ok b => b
  | .error _ => false

/-- The test ran to its end and its assertions hold. -/
def passes {σ : Type} (x : Eff σ Bool) (w : σ) : Bool :=
  match x w with
  | .ret b _ => b
  | _ => false

/-- Reads successive bytes of a list: `[&]() { return t[i++]; }`. -/
def bytesSrc : Eff (List Byte × List Byte) Byte := fun w =>
  match w.1 with
  | [] => .fault .oobRead
  | x :: xs => .ret x (xs, w.2)

/-- Appends the bytes: `[&](byte_t byte) { t[j++] = byte; }`. -/
def bytesDest (x : Byte) : Eff (List Byte × List Byte) Unit := fun w => .ret () (w.1, w.2 ++ [x])

end Upd.Tests
