import Verif.Model.Line
import Verif.Spec.Request
import Verif.Spec.Decode
import Verif.Spec.History

/-!
# Spec: calls through a line which alters bytes
-/

namespace Upd.Spec

variable {σ α : Type}

/-- The call of the function of index `i`, without library, if the request and the response are altered on the way: the bytes which arrive designate the function which is called and its arguments, and
the result is what the bytes of the response which arrive stand for. -/
def distortedCall (line : Line σ) (K : Keyring) (defs : Nat → List Val → Eff σ (Option Val)) (i : Nat) (args : List Val) : Eff σ (Option Val) :=
  match K.decls[i]? with
  | none => Eff.lift (.error .illTyped)
  | some sent => do
    let got ← line.up (request K.e K.s K.idxBytes i sent.sig.params args)
    match K.decls[wireValue K.e (got.take K.idxBytes)]? with
    | none => Eff.lift (.error .starved)
    | some d => do
      let r ← defs d.name (unwires K.e K.s d.sig.params (got.drop K.idxBytes))
      let bs ← line.down (response K.e K.s d.sig.ret r)
      pure (sent.sig.ret.map fun t => unwire K.e K.s t bs)

/-- The program, with calls as above. -/
def distorted (line : Line σ) (K : Keyring) (defs : Nat → List Val → Eff σ (Option Val)) : Talk σ α → Eff σ α
  | .done a => pure a
  | .look k => fun w => distorted line K defs (k w) w
  | .act x k => do
    x
    distorted line K defs k
  | .call i args k => do
    let r ← distortedCall line K defs i args
    distorted line K defs (k r)

/-- The program, with calls of the functions themselves. -/
def direct (K : Keyring) (defs : Nat → List Val → Eff σ (Option Val)) : Talk σ α → Eff σ α
  | .done a => pure a
  | .look k => fun w => direct K defs (k w) w
  | .act x k => do
    x
    direct K defs k
  | .call i args k =>
    match K.decls[i]? with
    | none => Eff.lift (.error .illTyped)
    | some d => do
      let r ← defs d.name args
      direct K defs (k r)

/-- The calls of the program are well-typed, and their arguments can be encoded. -/
def TalkOk (P : Platform) (K : Keyring) : Talk σ α → Prop
  | .done _ => True
  | .look k => ∀ w, TalkOk P K (k w)
  | .act _ k => TalkOk P K k
  | .call i args k => (∃ d, K.decls[i]? = some d ∧ Val.FitsAll (Safe P K.s) d.sig.params args) ∧ ∀ r, TalkOk P K (k r)

/-- The line neither loses nor adds bytes, and what arrives instead of a request is a request with as many bytes, for a function with as many bytes in its result. -/
structure Line.Frames (P : Platform) (K : Keyring) (line : Line σ) : Prop where
  up : ∀ i d args w bs w', K.decls[i]? = some d → Val.FitsAll (Safe P K.s) d.sig.params args →
    line.up (request K.e K.s K.idxBytes i d.sig.params args) w = .ret bs w' →
    bs.length = K.idxBytes + wireSizes d.sig.params ∧ ∃ d', K.decls[wireValue K.e (bs.take K.idxBytes)]? = some d' ∧ wireSizes d'.sig.params = wireSizes d.sig.params ∧
      retSize d'.sig.ret = retSize d.sig.ret
  down : ∀ bs w bs' w', line.down bs w = .ret bs' w' → bs'.length = bs.length

/-- The results can be read from any bytes. -/
def ResultsDecodeSafe (P : Platform) (K : Keyring) : Prop := ∀ d ∈ K.decls, ∀ t, d.sig.ret = some t → DecodeSafe P K.e K.s t

end Upd.Spec
