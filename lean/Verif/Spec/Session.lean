import Verif.Spec.History
import Verif.Model.Session

/-!
# Local calls
-/

namespace Upd.Spec

variable {σ : Type}

/-- The same calls, made locally. -/
def localCalls (defs : Nat → List Val → Eff σ (Option Val)) : List (Nat × List Val) → Eff σ (List (Option Val))
  | [] => pure []
  | (name, args) :: calls => do
    let r ← defs name args
    let rs ← localCalls defs calls
    pure (r :: rs)

/-- The functions belong to the keyring and the arguments are in the domain supported by both platforms. -/
def CallsOk (P Q : Platform) (K : Keyring) (calls : List (Nat × List Val)) : Prop :=
  ∀ c ∈ calls, (∃ d ∈ K.decls, d.name = c.1) ∧
    ∀ d ∈ K.decls, d.name = c.1 → Val.FitsAll (Safe P K.s) d.sig.params c.2 ∧ Val.FitsAll (Safe Q K.s) d.sig.params c.2

end Upd.Spec
