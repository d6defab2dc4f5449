import Verif.Spec.Session

/-!
# Transmissions
-/

namespace Upd.Spec

/-- `Requests Q K calls bs`: the bytes `bs` are those of the requests `calls`, whose arguments are in the domain supported by the callee. -/
inductive Requests (Q : Platform) (K : Keyring) : List (Nat × List Val) → List Byte → Prop
  | nil : Requests Q K [] []
  | cons {i : Nat} (hi : i < K.decls.length) {args : List Val} {calls : List (Nat × List Val)} {bs : List Byte} :
      Val.FitsAll (Safe Q K.s) K.decls[i].sig.params args → Requests Q K calls bs →
      Requests Q K ((K.decls[i].name, args) :: calls) (request K.e K.s K.idxBytes i K.decls[i].sig.params args ++ bs)

/-- `Carries Q K calls t`: the transmission `t` is made of the requests `calls`, possibly followed by an index which is not the one of a function and
then by anything. -/
inductive Carries (Q : Platform) (K : Keyring) : List (Nat × List Val) → List Byte → Prop
  | whole {calls : List (Nat × List Val)} {bs : List Byte} : Requests Q K calls bs → Carries Q K calls bs
  | spoilt {calls : List (Nat × List Val)} {bs index : List Byte} (rest : List Byte) : Requests Q K calls bs → index.length = K.idxBytes →
      K.decls.length ≤ wireValue K.e index → Carries Q K calls (bs ++ index ++ rest)

/-- Successive transmissions and the calls of all of them. -/
inductive CarriesAll (Q : Platform) (K : Keyring) : List (Nat × List Val) → List (List Byte) → Prop
  | nil : CarriesAll Q K [] []
  | cons {calls calls' : List (Nat × List Val)} {t : List Byte} {ts : List (List Byte)} :
      Carries Q K calls t → CarriesAll Q K calls' ts → CarriesAll Q K (calls ++ calls') (t :: ts)

end Upd.Spec
