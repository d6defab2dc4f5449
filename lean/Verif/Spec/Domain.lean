import Verif.Spec.Wire

/-!
# Domains on which the code is expected to work

Two conditions appear in the theorems, because the code does not work outside of them (see the counterexamples in
`Verif.Props`).
-/

namespace Upd.Spec

/-- The combination of macros is one for which the conversions of signed integers work: any on a little-endian host; on
a big-endian host, either both conversions (byte order and sign) take the generic path, or both take the native one. -/
def Supported (P : Platform) (e : Endian) (s : Mode) : Prop :=
  P.host = .little ∨ (P.endianMacro ≠ some e ∧ P.signedMacro ≠ some s) ∨
    (P.endianMacro = some e ∧ P.signedMacro = some s)

/-- Converting the least value of a signed type of `k` bytes is well-defined: always if the native conversion is used
or if `int` is wider; otherwise the code negates it in its own type. -/
def MinSafe (P : Platform) (s : Mode) (k : Nat) : Prop :=
  P.signedMacro = some s ∨ s = .offsetBinary ∨ k < P.intBytes

/-- The integer `z` of `k` bytes has a code in mode `s`, and the code under study reaches it without overflow. -/
def Safe (P : Platform) (s : Mode) (k : Nat) (z : Int) : Prop :=
  Representable s k z ∧ (MinSafe P s k ∨ z ≠ -(2 ^ (8 * k - 1) : Int))

end Upd.Spec
