import Verif.Spec.Encode
import Verif.Spec.Types

/-!
# Specification of decoding

`unwire e s t bs` is the value of type `t` that the byte sequence `bs` (of `wireSize t` bytes) stands for. It is the reading
direction of `Verif.Spec.Encode`, and refers only to positional notation and to the signed codes.
-/

namespace Upd.Spec

mutual
/-- Value that a byte sequence stands for. -/
def unwire (e : Endian) (s : Mode) : Ty → List Byte → Val
  | .bool, bs => .bool (decide (wireValue e bs ≠ 0))
  | .uint _, bs => .int (wireValue e bs)
  | .sint k, bs => .int (signedValue s k (wireValue e bs))
  | .arr t n, bs => .arr ((List.range n).map fun i => unwire e s t (slice bs (i * wireSize t) (wireSize t)))
  | .user _ fs, bs => .user (unwires e s fs bs)

/-- Values that a byte sequence stands for. -/
def unwires (e : Endian) (s : Mode) : List Ty → List Byte → List Val
  | [], _ => []
  | t :: ts, bs => unwire e s t (bs.take (wireSize t)) :: unwires e s ts (bs.drop (wireSize t))
end

end Upd.Spec
