import Verif.Model.Basic

/-!
# Serializable types and their values

Serializable types are integer types, arrays and types with a `upd_extension`
(include/upd/detail/serialization.hpp:59-93 and :127-157 list the overloads).
-/

namespace Upd

/-- A serializable type.
* `uint n`: unsigned integer type of `n` bytes; `bool`: the type `bool` (it satisfies `require_unsigned_integer`,
  include/upd/detail/type_traits/require.hpp:97-103);
* `sint k`: signed integer type of `k` bytes;
* `arr t n`: `T[n]` or `std::array<T, n>`;
* `user size fs`: a class with a `upd_extension` such that `sizeof` is `size` and `unserialize` takes parameters of types
  `fs`. Simplification: a value of such a type is identified with the list of these parameters, `serialize` sets
  each of them in order in the view it receives, and `unserialize` rebuilds the object from them. -/
inductive Ty where
  | bool
  | uint (n : Nat)
  | sint (k : Nat)
  | arr (t : Ty) (n : Nat)
  | user (size : Nat) (fs : List Ty)
  deriving Repr, Inhabited

/-- A C++ value of a serializable type. -/
inductive Val where
  | bool (b : Bool)
  | int (z : Int)
  | arr (vs : List Val)
  | user (vs : List Val)
  deriving Repr, Inhabited

/-- `sizeof(T)`. -/
def Ty.sizeof : Ty → Nat
  | .bool => 1
  | .uint n => n
  | .sint k => k
  | .arr t n => n * t.sizeof
  | .user size _ => size

mutual
/-- `detail::serialization_size<T>::value` (include/upd/tuple.hpp:53-67): `sizeof(T)`, except for a class with a
`upd_extension`, for which it is the size of the view over the parameters of `unserialize`. -/
def Ty.serSize : Ty → Nat
  | .bool => 1
  | .uint n => n
  | .sint k => k
  | .arr t n => n * t.sizeof
  | .user _ fs => Ty.serSizes fs

/-- `tuple_base<..., Ts...>::size` (include/upd/tuple.hpp:108): the sum of the sizes of the serialized elements. -/
def Ty.serSizes : List Ty → Nat
  | [] => 0
  | t :: ts => t.serSize + Ty.serSizes ts
end

mutual
/-- Types that exist: integer types are at least one byte long, signed integer types are at most as wide as
`unsigned long long` (through which the code converts them), arrays are not empty. -/
def Ty.WF : Ty → Prop
  | .bool => True
  | .uint n => 1 ≤ n
  | .sint k => 1 ≤ k ∧ k ≤ 8
  | .arr t n => t.WF ∧ 1 ≤ n
  | .user size fs => 1 ≤ size ∧ Ty.WFs fs

/-- All the types of a list exist. -/
def Ty.WFs : List Ty → Prop
  | [] => True
  | t :: ts => t.WF ∧ Ty.WFs ts
end

mutual
/-- `v.Fits leaf t`: `v` has the shape of a value of type `t`, its unsigned integers are in the range of their type, and
`leaf k z` holds of each signed integer `z` of size `k`. -/
def Val.Fits (leaf : Nat → Int → Prop) : Ty → Val → Prop
  | .bool, .bool _ => True
  | .uint n, .int z => 0 ≤ z ∧ z < 256 ^ n
  | .sint k, .int z => leaf k z
  | .arr t n, .arr vs => vs.length = n ∧ ∀ v ∈ vs, Val.Fits leaf t v
  | .user _ fs, .user vs => Val.FitsAll leaf fs vs
  | _, _ => False

/-- `Fits`, element-wise. -/
def Val.FitsAll (leaf : Nat → Int → Prop) : List Ty → List Val → Prop
  | [], [] => True
  | t :: ts, v :: vs => Val.Fits leaf t v ∧ Val.FitsAll leaf ts vs
  | _, _ => False
end

end Upd
