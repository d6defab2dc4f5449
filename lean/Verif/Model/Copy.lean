import Verif.Model.Params
import Verif.Model.Convert

/-!
# Copies between tuples and views, seen by the compiler

Which assignments, `get` and `set` compile, according to the classes of the tuples and views, to their constness and to their value categories.
-/

namespace Upd.Cpp

/-- The iterator which a view is bound through: `byte_t *` or `const byte_t *`. -/
inductive Cursor where
  | mutable
  | const
  deriving DecidableEq

/-- A class of tuple-like objects: `tuple<E, S, Ts...>` (`cursor = none`) or `tuple_view<It, E, S, Ts...>`. -/
structure TupleClass where
  cursor : Option Cursor
  e : Endian
  s : Mode
  ts : List VTy

/-- An expression which designates a tuple-like object. -/
structure TupleExpr where
  cls : TupleClass
  isConst : Bool
  cat : Category

/-- An expression of object type (no `T[N]` has rvalues here: functions do not return arrays). -/
structure ValExpr where
  ty : VTy
  cat : Category

/-- An argument initializes a parameter `const T &`: it is of this type, or of another arithmetic type. Simplification: no conversion between classes; an array `T[N]` is not a `std::array`. -/
def Initializes (x : ValExpr) (t : VTy) : Prop :=
  x.ty = t ∨ match x.ty, t with
    | .arith _, .arith _ => True
    | _, _ => False

/-- `detail::is_tuple<T>` (include/upd/detail/type_traits/is_tuple.hpp:21-28), where `T` is deduced from the argument of `operator=(Tuple &&)`: the specialisations match neither references, which lvalues
give, nor const classes. -/
def IsTuple (y : TupleExpr) : Prop := y.cat = .rvalue ∧ y.isConst = false

/-- `src()` gives a pointer through which bytes can be written (include/upd/tuple.hpp:245, :353-357): `write_as(value, begin, offset)` requires an `output_byte_iterator`, which `const byte_t *` is not
(include/upd/detail/serialization.hpp:172-179). -/
def TupleClass.Writable (C : TupleClass) : Prop := C.cursor ≠ some .const

/-- `x.set<I>(v)` compiles (include/upd/tuple.hpp:144-151): `set` is not a const member function. -/
def Sets (x : TupleExpr) (i : Nat) (v : ValExpr) : Prop :=
  x.isConst = false ∧ x.cls.Writable ∧ ∃ t, x.cls.ts[i]? = some t ∧ Initializes v t ∧ t.Writes

/-- `upd::set<I>(x, v)` compiles (include/upd/tuple.hpp:213-216): the parameter is a reference to a non-const object. -/
def SetsFree (x : TupleExpr) (i : Nat) (v : ValExpr) : Prop := x.cat = .lvalue ∧ Sets x i v

/-- The type of `y.get<I>()` (include/upd/tuple.hpp:131-138), if it compiles; `upd::get<I>(y)` (:199-205) and the structured bindings (:431-449) are the same. -/
def GetsAs (y : TupleExpr) (i : Nat) (u : VTy) : Prop := ∃ t, y.cls.ts[i]? = some t ∧ t.Reads ∧ u = t.readTy

/-- The body of `operator=(Tuple &&t)` compiles (include/upd/tuple.hpp:118-122, :168-178): every element of the assigned object is set from the value got from the element of the same index. -/
def Lays (x y : TupleExpr) : Prop := ∀ i, i < x.cls.ts.length → ∃ u, GetsAs y i u ∧ Sets x i ⟨u, .rvalue⟩

/-- The operator of `tuple_base` is visible in the class (include/upd/tuple.hpp:231, :310): the specialisation for no element lacks the using-declaration (:401-407), so that its implicit operator hides it. -/
def TupleClass.Inherits (C : TupleClass) : Prop := ¬ (C.cursor = none ∧ C.ts = [])

/-- `x = y` compiles. If the classes are the same, the implicit operator is selected (`AssignKind`), and any expression is accepted. -/
def Assigns (x y : TupleExpr) : Prop := x.isConst = false ∧ (x.cls = y.cls ∨ (x.cls.Inherits ∧ IsTuple y ∧ Lays x y))

/-- The class of `x.view<I, L>()` (include/upd/tuple.hpp:364-395): tuples only. -/
def TupleExpr.view (x : TupleExpr) (i l : Nat) : Option TupleClass :=
  match x.cls.cursor with
  | none => some ⟨some (if x.isConst then .const else .mutable), x.cls.e, x.cls.s, (x.cls.ts.drop i).take l⟩
  | some _ => none

/-- What the identifiers of types stand for: arithmetic types, sizes of extended classes. -/
structure Abi where
  arith : Nat → Ty
  size : Nat → Nat

/-- Arithmetic types are integer types here (floating-point types are the subject of C72). -/
def Abi.Integers (A : Abi) : Prop := ∀ i, A.arith i = .bool ∨ (∃ n, 1 ≤ n ∧ A.arith i = .uint n) ∨ ∃ k, 1 ≤ k ∧ k ≤ 8 ∧ A.arith i = .sint k

mutual
/-- The type as the other modules of the model see it, where `T[N]` and `std::array<T, N>` are the same. -/
def VTy.toTy (A : Abi) : VTy → Ty
  | .arith i => A.arith i
  | .user i _ fs => .user (A.size i) (VTy.toTys A fs)
  | .carr t n => .arr (t.toTy A) n
  | .sarr t n => .arr (t.toTy A) n
  | .other _ => .user 0 []

/-- `toTy`, element-wise. -/
def VTy.toTys (A : Abi) : List VTy → List Ty
  | [] => []
  | t :: ts => t.toTy A :: VTy.toTys A ts
end

end Upd.Cpp
