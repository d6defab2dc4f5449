import Verif.Spec.Stream

/-!
# Specification of request packets
-/

namespace Upd.Spec

/-- The request for the callback of index `index` (on `idxBytes` bytes), which takes parameters of types `ts`, with arguments `args`:
the index, then the arguments. -/
def request (e : Endian) (s : Mode) (idxBytes index : Nat) (ts : List Ty) (args : List Val) : List Byte :=
  wireBytes e idxBytes index ++ wires e s ts args

/-- Restrictions on a keyring: its number of callbacks is a `std::size_t`, and its signatures are supported. -/
def KeyringOk (K : Keyring) : Prop := K.decls.length < 2 ^ 64 ∧ ∀ d ∈ K.decls, SigOk d.sig

end Upd.Spec
