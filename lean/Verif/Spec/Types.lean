import Verif.Spec.Encode
import Verif.Spec.Domain

/-!
# Conditions on types

Restrictions on the serializable types under which some theorems hold (the counterexamples in `Verif.Props` show why
they are needed).
-/

namespace Upd.Spec

mutual
/-- The elements of the arrays found in the type fit in their object size, i.e. `sizeof` is not lower than the size
announced by the library. Always true of arrays of integers. -/
def Loose : Ty → Prop
  | .bool | .uint _ | .sint _ => True
  | .arr t _ => Loose t ∧ t.serSize ≤ t.sizeof
  | .user _ fs => LooseAll fs

/-- `Loose`, element-wise. -/
def LooseAll : List Ty → Prop
  | [] => True
  | t :: ts => Loose t ∧ LooseAll ts
end

mutual
/-- The type can be decoded from any byte sequence on the platform: no `bool` read by a raw copy of its byte, no signed
integer whose least value is negated in its own type. -/
def DecodeSafe (P : Platform) (e : Endian) (s : Mode) : Ty → Prop
  | .bool => P.endianMacro ≠ some e
  | .uint _ => True
  | .sint k => P.signedMacro = some s ∨ s ≠ .twosComplement ∨ k < P.intBytes
  | .arr t _ => DecodeSafe P e s t
  | .user _ fs => DecodeSafeAll P e s fs

/-- `DecodeSafe`, element-wise. -/
def DecodeSafeAll (P : Platform) (e : Endian) (s : Mode) : List Ty → Prop
  | [] => True
  | t :: ts => DecodeSafe P e s t ∧ DecodeSafeAll P e s ts
end

end Upd.Spec
