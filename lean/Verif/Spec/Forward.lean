import Verif.Spec.Faults
import Verif.Lemmas.Decode

/-!
# Canonical encodings

Several byte sequences may stand for the same value (negative zeros, `bool`s other than 0 and 1). `canonical` gives the one which the library writes.
-/

namespace Upd.Spec


mutual
/-- The bytes which the library writes for the value that `bs` stands for: a `bool` other than 0 becomes 1, negative zeros become zeros, nothing else changes. -/
def canonical (e : Endian) (s : Mode) : Ty → List Byte → List Byte
  | .bool, bs => [if wireValue e bs = 0 then 0#8 else 1#8]
  | .uint _, bs => bs
  | .sint k, bs => if NegZero s k (wireValue e bs) then List.replicate k 0#8 else bs
  | .arr t n, bs => (List.range n).flatMap fun i => canonical e s t (slice bs (i * wireSize t) (wireSize t))
  | .user _ fs, bs => canonicals e s fs bs

/-- `canonical`, element-wise. -/
def canonicals (e : Endian) (s : Mode) : List Ty → List Byte → List Byte
  | [], _ => []
  | t :: ts, bs => canonical e s t (bs.take (wireSize t)) ++ canonicals e s ts (bs.drop (wireSize t))
end

mutual
/-- The type has no `bool` in it. -/
def NoBool : Ty → Prop
  | .bool => False
  | .uint _ | .sint _ => True
  | .arr t _ => NoBool t
  | .user _ fs => NoBools fs

/-- `NoBool`, element-wise. -/
def NoBools : List Ty → Prop
  | [] => True
  | t :: ts => NoBool t ∧ NoBools ts
end

end Upd.Spec
