import Verif.Spec.Request
import Verif.Spec.History
import Verif.Spec.Faults

/-!
# Requests altered on the way

The caller sends requests, and as many bytes arrive as have been sent, but not all of them with the value they had.
-/

namespace Upd.Spec

variable {σ : Type}

/-- A request and what arrives instead of it. `i` and `args` are the number of the function called and its arguments; `index` are the bytes which arrive instead of those of
the index, `bytes` those which arrive instead of those of the arguments. -/
structure Noisy where
  i : Nat
  args : List Val
  index : List Byte
  bytes : List Byte

/-- What arrives in a row. -/
def receivedAll : List Noisy → List Byte
  | [] => []
  | x :: xs => x.index ++ x.bytes ++ receivedAll xs

/-- The statuses of the bytes of a request which has not been altered: the last byte completes it. -/
def cleanStatuses (K : Keyring) (params : List Ty) : List Status :=
  List.replicate (K.idxBytes + wireSizes params - 1) .loading ++ [.resolved]

/-- The statuses of the bytes of the requests, had they not been altered. -/
def cleanAll (K : Keyring) : List Noisy → List Status
  | [] => []
  | x :: xs => (match K.decls[x.i]? with | some d => cleanStatuses K d.sig.params | none => []) ++ cleanAll K xs

/-- The request is received as it has been sent. -/
def Noisy.Intact (K : Keyring) (x : Noisy) : Prop :=
  ∃ d, K.decls[x.i]? = some d ∧ x.index = wireBytes K.e K.idxBytes x.i ∧ x.bytes = wires K.e K.s d.sig.params x.args

/-- What arrives is a request for some function of the keyring, of the length of the one which has been sent, and the library can read its arguments. -/
structure Noisy.Confined (P : Platform) (K : Keyring) (x : Noisy) (sent got : Decl) : Prop where
  sentIs : K.decls[x.i]? = some sent
  fits : Val.FitsAll (Safe P K.s) sent.sig.params x.args
  index : x.index.length = K.idxBytes
  gotIs : K.decls[wireValue K.e x.index]? = some got
  bytes : x.bytes.length = wireSizes got.sig.params
  same : wireSizes got.sig.params = wireSizes sent.sig.params
  readable : undecodables P K.e K.s got.sig.params x.bytes = none

/-- The calls which are made in a row: each one of the function which the received bytes designate, on the values which they stand for. -/
def callsMade (K : Keyring) (defs : Nat → List Val → Eff σ (Option Val)) : List Noisy → Eff σ Unit
  | [] => pure ()
  | x :: xs =>
    match K.decls[wireValue K.e x.index]? with
    | some d => do
      let _ ← defs d.name (unwires K.e K.s d.sig.params x.bytes)
      callsMade K defs xs
    | none => callsMade K defs xs

/-- The functions of the keyring have no undefined behaviour. -/
def NeverFault (K : Keyring) (defs : Nat → List Val → Eff σ (Option Val)) : Prop := ∀ d ∈ K.decls, ∀ args w e, defs d.name args w ≠ .fault e

end Upd.Spec
