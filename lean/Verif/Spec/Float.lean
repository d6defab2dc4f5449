import Verif.Model.Float

/-! Notions used in the statements about floating-point arguments. -/

namespace Upd.Spec

/-- The two numbers are equal. -/
def SameNumber (x y : FVal) : Prop := x.num * 2 ^ y.exp = y.num * 2 ^ x.exp

/-- The significand of `x` fits in the type. -/
def FHolds (F : FFmt) (x : FVal) : Prop := ∃ m j, m < 2 ^ F.prec ∧ x.num.natAbs = m * 2 ^ j

/-- The absolute value of `x` is less than 2^(8k-1), as that of a signed integer of the same size. -/
def FBounded (F : FFmt) (x : FVal) : Prop := x.num.natAbs < 2 ^ (8 * F.size - 1) * 2 ^ x.exp

/-- `t` is `x` without its fractional part (rounded towards zero). -/
def IntegralPart (x : FVal) (t : Int) : Prop :=
  (0 ≤ x.num → t * 2 ^ x.exp ≤ x.num ∧ x.num < (t + 1) * 2 ^ x.exp) ∧
    (x.num < 0 → x.num ≤ t * 2 ^ x.exp ∧ (t - 1) * 2 ^ x.exp < x.num)

/-- `|x - t| ≤ d`. -/
def CloseTo (x : FVal) (t : Int) (d : Nat) : Prop :=
  (t - d) * 2 ^ x.exp ≤ x.num ∧ x.num ≤ (t + d) * 2 ^ x.exp

/-- The distance between neighbouring numbers of the type from 2^(8k-1) on: 256 for `float`, 2048 for `double`. -/
def step (F : FFmt) : Nat := 2 ^ (8 * F.size - F.prec)

end Upd.Spec
