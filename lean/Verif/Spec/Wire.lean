import Verif.Model.Basic

/-!
# Specification of the wire format of integers

Only positional notation and textbook definitions of the signed number representations: nothing here refers to the
model of the code (besides the type of bytes and the two enumerations of format.hpp).
-/

namespace Upd.Spec

/-- Value of a base-256 numeral, least significant digit first. -/
def leValue : List Byte → Nat
  | [] => 0
  | b :: bs => b.toNat + 256 * leValue bs

/-- The `n` least significant base-256 digits of `x`, least significant first. -/
def leDigits : Nat → Nat → List Byte
  | 0, _ => []
  | n + 1, x => BitVec.ofNat 8 (x % 256) :: leDigits n (x / 256)

/-- Value of a byte sequence for the given byte order. -/
def wireValue (e : Endian) (bs : List Byte) : Nat :=
  match e with
  | .little => leValue bs
  | .big => leValue bs.reverse

/-- The `n`-byte sequence representing `x` for the given byte order. -/
def wireBytes (e : Endian) (n x : Nat) : List Byte :=
  match e with
  | .little => leDigits n x
  | .big => (leDigits n x).reverse

/-- `z` fits in a signed integer type of `k` bytes. -/
def InRange (k : Nat) (z : Int) : Prop := -(2 ^ (8 * k - 1) : Int) ≤ z ∧ z < (2 ^ (8 * k - 1) : Int)

/-- `z` has a code on `k` bytes in the given representation. -/
def Representable (s : Mode) (k : Nat) (z : Int) : Prop :=
  match s with
  | .signMagnitude | .onesComplement => -(2 ^ (8 * k - 1) : Int) < z ∧ z < (2 ^ (8 * k - 1) : Int)
  | .twosComplement | .offsetBinary => InRange k z

/-- The code of `z` on `k` bytes in the given representation. -/
def signedCode (s : Mode) (k : Nat) (z : Int) : Nat :=
  match s with
  | .signMagnitude => if z < 0 then 2 ^ (8 * k - 1) + z.natAbs else z.natAbs
  | .onesComplement => if z < 0 then 2 ^ (8 * k) - 1 - z.natAbs else z.natAbs
  | .twosComplement => if z < 0 then 2 ^ (8 * k) - z.natAbs else z.natAbs
  | .offsetBinary => (z + 2 ^ (8 * k - 1)).toNat

/-- The integer of code `c` on `k` bytes in the given representation. -/
def signedValue (s : Mode) (k : Nat) (c : Nat) : Int :=
  match s with
  | .signMagnitude => if c < 2 ^ (8 * k - 1) then c else -((c : Int) - 2 ^ (8 * k - 1))
  | .onesComplement => if c < 2 ^ (8 * k - 1) then c else -((2 ^ (8 * k) - 1 : Int) - c)
  | .twosComplement => if c < 2 ^ (8 * k - 1) then c else (c : Int) - 2 ^ (8 * k)
  | .offsetBinary => (c : Int) - 2 ^ (8 * k - 1)

/-- `c` is the code of "negative zero": sign bit alone in sign-magnitude, all bits set in ones' complement. -/
def NegZero (s : Mode) (k c : Nat) : Prop :=
  (s = .signMagnitude ∧ c = 2 ^ (8 * k - 1)) ∨ (s = .onesComplement ∧ c = 2 ^ (8 * k) - 1)

/-- The memory `m` where the bytes starting at `off` have been replaced by `bs`. -/
def splice (m : List Byte) (off : Nat) (bs : List Byte) : List Byte :=
  m.take off ++ bs ++ m.drop (off + bs.length)

/-- The `n` bytes of `m` starting at `off`. -/
def slice (m : List Byte) (off n : Nat) : List Byte := (m.drop off).take n

end Upd.Spec
