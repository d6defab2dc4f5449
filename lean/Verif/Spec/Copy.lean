import Verif.Model.Copy
import Verif.Spec.Params

/-! Notions used in the statements about the copies between tuples and views (C86). -/

namespace Upd.Spec
open Upd.Cpp

/-- The expression designates an object which is about to disappear and can be modified. -/
def _root_.Upd.Cpp.TupleExpr.Temporary (y : TupleExpr) : Prop := y.cat = .rvalue ∧ y.isConst = false

/-- An element of type `t` can be given the value of an element of type `u`: both are arithmetic, or they are the same and not `T[N]`, or `u` is `T[N]` and `t` is `std::array<T, N>`. -/
inductive Copyable : (t u : VTy) → Prop where
  | arith (i j : Nat) : Copyable (.arith i) (.arith j)
  | user (i : Nat) (d : Bool) (fs : List VTy) : Copyable (.user i d fs) (.user i d fs)
  | sarr (t : VTy) (n : Nat) : Copyable (.sarr t n) (.sarr t n)
  | carr (t : VTy) (n : Nat) : Copyable (.sarr t n) (.carr t n)

/-- The type is `T[N]`. -/
def IsPlainArray (t : VTy) : Prop := ∃ u n, t = .carr u n

end Upd.Spec
