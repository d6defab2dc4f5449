import Verif.Model.Basic

/-!
# Model of include/upd/detail/endianess.hpp

`T` is an unsigned integer type, represented by its width in bits `w` (`w = 8 * sizeof(T)`), its values by `BitVec w`.
The pointer `raw_data` is a memory object `mem` and an offset `off`.
-/

namespace Upd

/-- `T(b) << shift` for `b` a byte and `T` unsigned of `w` bits, as evaluated in
include/upd/detail/endianess.hpp:23 and :34, then converted to `T`. If `T` is narrower than `int`, the left operand is
promoted to `int` and the result must be representable in `int`; in every case the shift amount must be lower than the
width of the promoted type. -/
def cShl (P : Platform) (w : Nat) (b : Byte) (shift : Nat) : M (BitVec w) :=
  if w < 8 * P.intBytes then
    if 8 * P.intBytes ≤ shift then .error .badShift
    else if 2 ^ (8 * P.intBytes - 1) ≤ (b.setWidth w).toNat * 2 ^ shift then .error .signedOverflow
    else .ok (b.setWidth w <<< shift)
  else
    if w ≤ shift then .error .badShift
    else .ok (b.setWidth w <<< shift)

/-- `T(x >> 8)` (include/upd/detail/endianess.hpp:55 and :60): the shift amount must be lower than the width of the
promoted type of `x`. -/
def cShr8 (P : Platform) {w : Nat} (x : BitVec w) : M (BitVec w) :=
  if max w (8 * P.intBytes) ≤ 8 then .error .badShift else .ok (x >>> 8)

/-- Position accessed by the iteration `i` of the loops: `raw_data[i]` for `LITTLE`
(include/upd/detail/endianess.hpp:23 and :56), `raw_data[n - i - 1]` for `BIG` (:34 and :61). -/
def endianPos (e : Endian) (n i : Nat) : Nat :=
  match e with
  | .little => i
  | .big => n - i - 1

/-- Loop of `from_endianess_impl` (include/upd/detail/endianess.hpp:22-24 and :33-34), `rem = n - i` iterations left. -/
def fromEndianessLoop (P : Platform) (w : Nat) (e : Endian) (mem : Mem) (off n : Nat) :
    (rem i shift : Nat) → BitVec w → M (BitVec w)
  | 0, _, _, retval => .ok retval
  | rem + 1, i, shift, retval => do
    let b ← mem.rd (off + endianPos e n i)
    let t ← cShl P w b shift
    fromEndianessLoop P w e mem off n rem (i + 1) (shift + 8) (retval ||| t)

/-- `from_endianess_impl<T, Endianess>(raw_data, n)` (include/upd/detail/endianess.hpp:17-37). -/
def fromEndianessImpl (P : Platform) (w : Nat) (e : Endian) (mem : Mem) (off n : Nat) : M (BitVec w) :=
  fromEndianessLoop P w e mem off n n 0 0 0#w

/-- `from_endianess<T, Endianess>(raw_data, n)` (include/upd/detail/endianess.hpp:40-50). The native path copies `n` bytes
at the start of an object of type `T` holding zero. -/
def fromEndianess (P : Platform) (w : Nat) (e : Endian) (mem : Mem) (off n : Nat) : M (BitVec w) :=
  if P.endianMacro = some e then do
    let bs ← mem.rdN off n
    let obj ← Mem.wrN (objBytes P.host (w / 8) 0) 0 bs
    .ok (BitVec.ofNat w (ofObjBytes P.host obj))
  else fromEndianessImpl P w e mem off n

/-- Loop of `to_endianess_impl` (include/upd/detail/endianess.hpp:55-56 and :60-61), `rem = n - i` iterations left. -/
def toEndianessLoop (P : Platform) {w : Nat} (e : Endian) (off n : Nat) :
    (rem i : Nat) → BitVec w → Mem → M Mem
  | 0, _, _, mem => .ok mem
  | rem + 1, i, x, mem => do
    let mem ← mem.wr (off + endianPos e n i) ((x &&& BitVec.ofNat w 0xff).setWidth 8)
    let x ← cShr8 P x
    toEndianessLoop P e off n rem (i + 1) x mem

/-- `to_endianess_impl<Endianess>(raw_data, x, n)` (include/upd/detail/endianess.hpp:53-62). -/
def toEndianessImpl (P : Platform) {w : Nat} (e : Endian) (mem : Mem) (off : Nat) (x : BitVec w) (n : Nat) : M Mem :=
  toEndianessLoop P e off n n 0 x mem

/-- `to_endianess<Endianess>(raw_data, x, n)` (include/upd/detail/endianess.hpp:65-72). The native path copies the first
`n` bytes of the object representation of `x`. -/
def toEndianess (P : Platform) {w : Nat} (e : Endian) (mem : Mem) (off : Nat) (x : BitVec w) (n : Nat) : M Mem :=
  if P.endianMacro = some e then do
    let bs ← Mem.rdN (objBytes P.host (w / 8) x.toNat) 0 n
    mem.wrN off bs
  else toEndianessImpl P e mem off x n

end Upd
