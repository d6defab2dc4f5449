import Verif.Spec.Wire
import Verif.Model.Ty

/-!
# Specification of the implicit conversions of C++ between integer types

C++11 [conv.integral] and [conv.bool]. (The conversion to a signed type of a value out of its range is implementation-defined before C++20;
it is modular on every known compiler.)
-/

namespace Upd.Spec

/-- An argument `x`, given where a value of type `t` is expected, is received as `y`. Integers and `bool` convert to one another; arrays and classes
are only accepted as they are. -/
def Converted : Ty → Val → Val → Prop
  | .uint n, .int x, .int y => 0 ≤ y ∧ y < 256 ^ n ∧ ∃ q, x = y + 256 ^ n * q
  | .sint k, .int x, .int y => InRange k y ∧ ∃ q, x = y + 2 ^ (8 * k) * q
  | .uint _, .bool b, .int y => y = if b then 1 else 0
  | .sint _, .bool b, .int y => y = if b then 1 else 0
  | .bool, .int x, .bool b => b = true ↔ x ≠ 0
  | .bool, .bool a, .bool b => a = b
  | .arr _ _, .arr xs, y => y = .arr xs
  | .user _ _, .user xs, y => y = .user xs
  | _, _, _ => False

/-- `Converted`, element-wise. -/
def ConvertedAll : List Ty → List Val → List Val → Prop
  | [], [], [] => True
  | t :: ts, x :: xs, y :: ys => Converted t x y ∧ ConvertedAll ts xs ys
  | _, _, _ => False

end Upd.Spec
