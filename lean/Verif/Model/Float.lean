import Verif.Model.Serial

/-!
# Floating-point arguments

The overloads for signed integers are selected by `std::is_signed` (include/upd/detail/type_traits/require.hpp:101-103),
which holds for `float` and `double` as well, so a tuple or a key may hold them and they take the same path as signed
integers (include/upd/detail/serialization.hpp:63-68, :131-136).

A finite floating-point number is `num / 2 ^ exp`. Infinities and NaN are left out, as are the bounds on the exponent
(the integers which occur here are below 2^65, far from the largest `float`). Conversions and sums are rounded to the
nearest representable number, ties to even (the default of IEEE 754).
-/

namespace Upd

/-- A finite floating-point number, `num / 2 ^ exp`. -/
structure FVal where
  num : Int
  exp : Nat
  deriving DecidableEq, Repr

/-- A floating-point type: `sizeof` and the number of bits of the significand. -/
structure FFmt where
  size : Nat
  prec : Nat
  deriving DecidableEq, Repr

/-- `float` (IEEE 754 binary32). -/
def FFmt.float : FFmt := ⟨4, 24⟩

/-- `double` (IEEE 754 binary64). -/
def FFmt.double : FFmt := ⟨8, 53⟩

/-- Rounding of a natural number to `p` significant bits, to nearest, ties to even. -/
def roundNat (p n : Nat) : Nat :=
  if Nat.log2 n + 1 ≤ p then n
  else
    let sh := Nat.log2 n + 1 - p
    let q := n / 2 ^ sh
    let r := n % 2 ^ sh
    if 2 ^ sh < 2 * r ∨ (2 * r = 2 ^ sh ∧ q % 2 = 1) then (q + 1) * 2 ^ sh else q * 2 ^ sh

/-- Rounding of an integer (of the numerator of a dyadic number). -/
def roundInt (p : Nat) (z : Int) : Int := if 0 ≤ z then roundNat p z.natAbs else -roundNat p z.natAbs

/-- `static_cast<unsigned long long>(x)`: the integral part; undefined if it is negative or too large. -/
def FVal.toUll (x : FVal) : M (BitVec 64) :=
  let t := x.num.tdiv (2 ^ x.exp)
  if 0 ≤ t ∧ t < 2 ^ 64 then .ok (BitVec.ofInt 64 t) else .error .badCast

/-- `T(v)` where `v` is an `unsigned long long`. -/
def FVal.ofUll (F : FFmt) (v : BitVec 64) : FVal := ⟨roundNat F.prec v.toNat, 0⟩

/-- `-x`. -/
def FVal.neg (x : FVal) : FVal := ⟨-x.num, x.exp⟩

/-- `x + n` where `n` is an `unsigned long long`, converted to the type of `x` first. -/
def FVal.addUll (F : FFmt) (x : FVal) (n : BitVec 64) : FVal :=
  ⟨roundInt F.prec (x.num + (FVal.ofUll F n).num * 2 ^ x.exp), x.exp⟩

/-- `to_signed_mode_impl<Signed_Mode>(value)` for a floating-point `value`
(include/upd/detail/signed_representation.hpp:48-65). In two's complement, `~` is applied to a floating-point number: the
program does not compile. -/
def toSignedModeF (F : FFmt) (s : Mode) (x : FVal) : M (BitVec 64) :=
  match s with
  | .signMagnitude =>
    if 0 ≤ x.num then x.toUll else do
      let n ← x.neg.toUll
      .ok (n ||| signMask F.size)
  | .onesComplement =>
    if 0 ≤ x.num then x.toUll else do
      let n ← x.neg.toUll
      .ok (~~~n)
  | .twosComplement => .error .illTyped
  | .offsetBinary => (x.addUll F (signMask F.size)).toUll

/-- `from_signed_mode_impl<T, Signed_Mode>(value)` for a floating-point `T`
(include/upd/detail/signed_representation.hpp:13-33). -/
def fromSignedModeF (F : FFmt) (s : Mode) (value : BitVec 64) : FVal :=
  match s with
  | .signMagnitude =>
    if value &&& signMask F.size ≠ 0#64 then (FVal.ofUll F (value &&& magnitudeMask F.size)).neg
    else FVal.ofUll F value
  | .onesComplement =>
    if value &&& signMask F.size ≠ 0#64 then (FVal.ofUll F (~~~value)).neg else FVal.ofUll F value
  | .twosComplement =>
    if value &&& signMask F.size ≠ 0#64 then (FVal.ofUll F (~~~value + 1#64)).neg else FVal.ofUll F value
  | .offsetBinary => FVal.ofUll F (value - signMask F.size)

/-- `write_as<Endianess, Signed_Mode>(x, sequence)` for a floating-point `x`, when the signed mode is not the one given by
the macro (include/upd/detail/serialization.hpp:131-136, include/upd/detail/signed_representation.hpp:75-78). -/
def writeFloat (P : Platform) (e : Endian) (s : Mode) (F : FFmt) (x : FVal) (mem : Mem) (off : Nat) : M Mem := do
  let tmp ← toSignedModeF F s x
  toEndianess P e mem off tmp F.size

/-- `read_as<T, Endianess, Signed_Mode>(sequence)` for a floating-point `T`, when the signed mode is not the one given by
the macro (include/upd/detail/serialization.hpp:63-68, include/upd/detail/signed_representation.hpp:42-45). -/
def readFloat (P : Platform) (e : Endian) (s : Mode) (F : FFmt) (mem : Mem) (off : Nat) : M FVal := do
  let tmp ← fromEndianess P 64 e mem off F.size
  .ok (fromSignedModeF F s tmp)

/-- `write_as<Endianess, Signed_Mode>(x, sequence)` when the signed mode is the one given by the macro: the object
representation of `x`, given here as the number which the same bytes are for an unsigned integer of the host, is copied
(include/upd/detail/serialization.hpp:131-136, include/upd/detail/signed_representation.hpp:68-74). -/
def writeFloatNative (P : Platform) (e : Endian) (k : Nat) (bits : BitVec (8 * k)) (mem : Mem) (off : Nat) : M Mem := do
  let obj ← (P.junkBytes 8).wrN 0 (objBytes P.host k bits.toNat)
  toEndianess P e mem off (BitVec.ofNat 64 (ofObjBytes P.host obj)) k

/-- `read_as<T, Endianess, Signed_Mode>(sequence)` when the signed mode is the one given by the macro
(include/upd/detail/serialization.hpp:63-68, include/upd/detail/signed_representation.hpp:36-41). -/
def readFloatNative (P : Platform) (e : Endian) (k : Nat) (mem : Mem) (off : Nat) : M (BitVec (8 * k)) := do
  let tmp ← fromEndianess P 64 e mem off k
  let bs ← Mem.rdN (objBytes P.host 8 tmp.toNat) 0 k
  .ok (BitVec.ofNat (8 * k) (ofObjBytes P.host bs))

end Upd
