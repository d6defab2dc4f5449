import Verif.Model.Basic

/-!
# Model of include/upd/detail/signed_representation.hpp

`T` is a signed integer type of `k` bytes; its values are integers. `unsigned long long` is `BitVec 64`.
-/

namespace Upd

/-- Conversion of an integer to a signed type of `k` bytes (modular: implementation-defined before C++20, but modular on
every known compiler). -/
def toSigned (k : Nat) (z : Int) : Int := (BitVec.ofInt (8 * k) z).toInt

/-- `T(x)` where `x` is an `unsigned long long` and `T` is a signed type of `k` bytes (modular). -/
def ullToSigned (k : Nat) (x : BitVec 64) : Int := toSigned k x.toNat

/-- `-z` where `z` has a signed type of `k` bytes: evaluated in the promoted type (`int` if `T` is narrower than `int`);
undefined if the result is not representable in it. -/
def cNeg (P : Platform) (k : Nat) (z : Int) : M Int :=
  if 2 ^ (8 * max k P.intBytes - 1) ≤ -z then .error .signedOverflow else .ok (-z)

/-- `0b10000000ull << 8 * (sizeof(T) - 1)`: `sign_mask` or `offset`
(include/upd/detail/signed_representation.hpp:15, :21, :26, :31, :50, :63). -/
def signMask (k : Nat) : BitVec 64 := 0b10000000#64 <<< (8 * (k - 1))

/-- `magnitude_mask` (include/upd/detail/signed_representation.hpp:16). -/
def magnitudeMask (k : Nat) : BitVec 64 := (~~~0#64 >>> (8 * (8 - k))) ^^^ signMask k

/-- `from_signed_mode_impl<T, Signed_Mode>(value)` (include/upd/detail/signed_representation.hpp:13-33). -/
def fromSignedModeImpl (P : Platform) (s : Mode) (k : Nat) (value : BitVec 64) : M Int :=
  match s with
  | .signMagnitude =>
    if value &&& signMask k ≠ 0#64 then do
      let n ← cNeg P k (ullToSigned k (value &&& magnitudeMask k))
      .ok (toSigned k n)
    else .ok (ullToSigned k value)
  | .onesComplement =>
    if value &&& signMask k ≠ 0#64 then do
      let n ← cNeg P k (ullToSigned k (~~~value))
      .ok (toSigned k n)
    else .ok (ullToSigned k value)
  | .twosComplement =>
    if value &&& signMask k ≠ 0#64 then do
      let n ← cNeg P k (ullToSigned k (~~~value + 1#64))
      .ok (toSigned k n)
    else .ok (ullToSigned k value)
  | .offsetBinary => .ok (ullToSigned k (value - signMask k))

/-- `from_signed_mode<T, Signed_Mode>(value)` (include/upd/detail/signed_representation.hpp:36-45). The native path copies
the first `sizeof(T)` bytes of the object `value` into an object of type `T`. -/
def fromSignedMode (P : Platform) (s : Mode) (k : Nat) (value : BitVec 64) : M Int :=
  if P.signedMacro = some s then do
    let bs ← Mem.rdN (objBytes P.host 8 value.toNat) 0 k
    .ok (toSigned k (ofObjBytes P.host bs))
  else fromSignedModeImpl P s k value

/-- `to_signed_mode_impl<Signed_Mode>(value)` (include/upd/detail/signed_representation.hpp:48-65). In the
two's complement case, `-value - 1` cannot overflow once `-value` has not (`value < 0`). -/
def toSignedModeImpl (P : Platform) (s : Mode) (k : Nat) (value : Int) : M (BitVec 64) :=
  match s with
  | .signMagnitude =>
    if 0 ≤ value then .ok (BitVec.ofInt 64 value) else do
      let n ← cNeg P k value
      .ok (BitVec.ofInt 64 n ||| signMask k)
  | .onesComplement =>
    if 0 ≤ value then .ok (BitVec.ofInt 64 value) else do
      let n ← cNeg P k value
      .ok (~~~BitVec.ofInt 64 n)
  | .twosComplement =>
    if 0 ≤ value then .ok (BitVec.ofInt 64 value) else do
      let n ← cNeg P k value
      .ok (BitVec.ofInt 64 (-(n - 1) - 1))
  | .offsetBinary => .ok (BitVec.ofInt 64 value + signMask k)

/-- `to_signed_mode<Signed_Mode>(value)` (include/upd/detail/signed_representation.hpp:68-78). The native path copies the
object representation of `value` over the first bytes of an *uninitialised* `unsigned long long`. -/
def toSignedMode (P : Platform) (s : Mode) (k : Nat) (value : Int) : M (BitVec 64) :=
  if P.signedMacro = some s then do
    let obj ← (P.junkBytes 8).wrN 0 (objBytes P.host k (BitVec.ofInt (8 * k) value).toNat)
    .ok (BitVec.ofNat 64 (ofObjBytes P.host obj))
  else toSignedModeImpl P s k value

end Upd
