import Verif.Model.Ty

/-!
# Fields set by a user extension
-/

namespace Upd.Spec

/-- The value which the field `i` holds after the assignments `ops`, in order; `none` if it is not assigned. -/
def lastSet : List (Nat × Val) → Nat → Option Val
  | [], _ => none
  | (j, v) :: ops, i =>
    match lastSet ops i with
    | some w => some w
    | none => if j = i then some v else none

end Upd.Spec
