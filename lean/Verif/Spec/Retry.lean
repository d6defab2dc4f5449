import Verif.Model.Retry
import Verif.Spec.Line

/-!
# Spec: calls which are repeated until there is a response
-/

namespace Upd.Spec

variable {σ α : Type}

/-- What a call of `f` comes to, without library, if it is repeated until its result is known. The result of a function which returns nothing is known at once, even if the function has not been
called. -/
def retriedCall (f : Eff σ (Option Val)) (returns : Bool) : List Fate → Eff σ (Option Val × List Fate)
  | [] => fun w => .threw w
  | .arrives :: fates => do
    let r ← f
    pure (r, fates)
  | .requestLost :: fates => if returns then retriedCall f returns fates else pure (none, fates)
  | .responseLost :: fates => do
    let _ ← f
    if returns then retriedCall f returns fates else pure (none, fates)
  | .late :: fates => do
    let _ ← f
    if returns then retriedCall f returns fates else pure (none, fates)

/-- The program, with calls as above. -/
def retried (K : Keyring) (defs : Nat → List Val → Eff σ (Option Val)) : Talk σ α → List Fate → Eff σ (α × List Fate)
  | .done a, fates => pure (a, fates)
  | .look k, fates => fun w => retried K defs (k w) fates w
  | .act x k, fates => do
    x
    retried K defs k fates
  | .call i args k, fates =>
    match K.decls[i]? with
    | none => Eff.lift (.error .illTyped)
    | some d => do
      let r ← retriedCall (defs d.name args) d.sig.ret.isSome fates
      retried K defs (k r.1) r.2

/-- `f`, executed `n` times. -/
def times (n : Nat) (f : Eff σ (Option Val)) : Eff σ Unit :=
  match n with
  | 0 => pure ()
  | n + 1 => do
    let _ ← f
    times n f

/-- The calls of the program are well-typed, and their arguments can be encoded and decoded. -/
def TalkFits (P Q : Platform) (K : Keyring) : Talk σ α → Prop
  | .done _ => True
  | .look k => ∀ w, TalkFits P Q K (k w)
  | .act _ k => TalkFits P Q K k
  | .call i args k => (∃ d, K.decls[i]? = some d ∧ Val.FitsAll (Safe P K.s) d.sig.params args ∧ Val.FitsAll (Safe Q K.s) d.sig.params args) ∧ ∀ r, TalkFits P Q K (k r)

/-- The program only calls functions which return something, and to which repeating a call makes no difference. -/
def TalkRepeatable (K : Keyring) (defs : Nat → List Val → Eff σ (Option Val)) : Talk σ α → Prop
  | .done _ => True
  | .look k => ∀ w, TalkRepeatable K defs (k w)
  | .act _ k => TalkRepeatable K defs k
  | .call i args k => (∀ d, K.decls[i]? = some d → d.sig.ret.isSome ∧ ∀ w r w', defs d.name args w = .ret r w' → defs d.name args w' = .ret r w') ∧
      ∀ r, TalkRepeatable K defs (k r)

/-- A result which is not `void` has at least one byte. -/
def Audible (K : Keyring) : Prop := ∀ d ∈ K.decls, ∀ t, d.sig.ret = some t → 1 ≤ wireSize t

end Upd.Spec
