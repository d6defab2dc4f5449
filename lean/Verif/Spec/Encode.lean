import Verif.Spec.Wire
import Verif.Model.Ty

/-!
# Specification of the serialized form of a value

`wire e s t v` is the byte sequence that stands for the value `v` of type `t`: the concatenation of the codes of its
integers, in order, without padding. It refers to the types and values of the model, not to the code.
-/

namespace Upd.Spec

mutual
/-- Byte sequence standing for a value. -/
def wire (e : Endian) (s : Mode) : Ty → Val → List Byte
  | .bool, .bool b => [if b then 1#8 else 0#8]
  | .uint n, .int z => wireBytes e n z.toNat
  | .sint k, .int z => wireBytes e k (signedCode s k z)
  | .arr t _, .arr vs => vs.flatMap (wire e s t)
  | .user _ fs, .user vs => wires e s fs vs
  | _, _ => []

/-- Byte sequence standing for a list of values. -/
def wires (e : Endian) (s : Mode) : List Ty → List Val → List Byte
  | t :: ts, v :: vs => wire e s t v ++ wires e s ts vs
  | _, _ => []
end

mutual
/-- Number of bytes needed to represent a value of type `t` without padding. -/
def wireSize : Ty → Nat
  | .bool => 1
  | .uint n => n
  | .sint k => k
  | .arr t n => n * wireSize t
  | .user _ fs => wireSizes fs

/-- Number of bytes needed to represent a list of values without padding. -/
def wireSizes : List Ty → Nat
  | [] => 0
  | t :: ts => wireSize t + wireSizes ts
end

mutual
/-- Types whose arrays have elements without padding, i.e. elements such that `sizeof` is the number of bytes needed. It
holds of all the types made of integers and arrays, and of the user types which do not contain arrays of padded
user types. -/
def Packed : Ty → Prop
  | .bool | .uint _ | .sint _ => True
  | .arr t _ => Packed t ∧ t.sizeof = wireSize t
  | .user _ fs => PackedAll fs

/-- `Packed`, element-wise. -/
def PackedAll : List Ty → Prop
  | [] => True
  | t :: ts => Packed t ∧ PackedAll ts
end

mutual
/-- Types accepted by a conforming compiler: the elements of arrays are not user-extended, at any depth. -/
def Conforming : Ty → Prop
  | .bool | .uint _ | .sint _ => True
  | .arr t _ => Builtin t
  | .user _ fs => ConformingAll fs

/-- `Conforming`, element-wise. -/
def ConformingAll : List Ty → Prop
  | [] => True
  | t :: ts => Conforming t ∧ ConformingAll ts

/-- Types without user-extended parts. -/
def Builtin : Ty → Prop
  | .bool | .uint _ | .sint _ => True
  | .arr t _ => Builtin t
  | .user _ _ => False
end

/-- A value made of zeros. -/
inductive IsZero : Val → Prop
  | bool : IsZero (.bool false)
  | int : IsZero (.int 0)
  | arr {vs : List Val} : (∀ v ∈ vs, IsZero v) → IsZero (.arr vs)
  | user {vs : List Val} : (∀ v ∈ vs, IsZero v) → IsZero (.user vs)

end Upd.Spec
