import Verif.Spec.Request
import Verif.Spec.Forward

/-!
# Spec: other encodings of requests and arguments

What any other protocol for the same keyring would have to do: write each request in bytes from which the receiver can tell the request, the end of the
request being either known from the bytes themselves (`SelfDelimiting`) or given by other means (`Injective`).
-/

namespace Upd.Spec

/-- The callee of index `i` exists and can be sent the arguments `args`. -/
def Askable (K : Keyring) (i : Nat) (args : List Val) : Prop :=
  ∃ d, K.decls[i]? = some d ∧ Val.FitsAll (Representable K.s) d.sig.params args

/-- A protocol for the requests of the keyring: no request is the beginning of another one, so that a receiver can split a stream of bytes in requests. -/
def SelfDelimiting (K : Keyring) (enc : Nat → List Val → List Byte) : Prop :=
  ∀ i a j b, Askable K i a → Askable K j b → enc i a <+: enc j b → i = j ∧ a = b

/-- A protocol for values of types `ts` whose end is known by other means: the bytes tell the values. -/
def Unambiguous (s : Mode) (ts : List Ty) (enc : List Val → List Byte) : Prop :=
  ∀ a b, Val.FitsAll (Representable s) ts a → Val.FitsAll (Representable s) ts b → enc a = enc b → a = b

/-- Number of byte sequences of the lengths of the arguments of the callbacks. -/
def spread (K : Keyring) : Nat := (K.decls.map fun d => 256 ^ wireSizes d.sig.params).sum

end Upd.Spec
