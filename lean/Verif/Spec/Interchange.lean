import Verif.Spec.Replace
import Verif.Model.Interchange

/-!
# What compiles, in the programs of `Verif.Model.Interchange`
-/

namespace Upd.Spec

variable {σ : Type}

/-- The new callbacks have the signature of those which they replace, and `replace` with an object is only used with `ANY` (for both dispatchers). Whatever the program finds. -/
def ServeOk (P : Platform) (K : Keyring) (f f' : Features) : ServeProg σ → Prop
  | .done _ => True
  | .act _ next => ∀ r, ServeOk P K f f' (next r)
  | .serve _ _ next => ∀ ok, ServeOk P K f f' (next ok)
  | .replace i cb next => f = .any ∧ f' = .any ∧ Suits P K i cb ∧ ServeOk P K f f' next
  | .replaceStatic i cb next => Suits P K i cb ∧ ServeOk P K f f' next

end Upd.Spec
