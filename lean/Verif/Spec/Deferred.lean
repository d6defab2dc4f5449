import Verif.Spec.Session
import Verif.Model.Deferred

/-!
# Local calls followed by a callback
-/

namespace Upd.Spec

variable {σ : Type}

/-- The same calls, made locally, each of them followed by a call of its hook on what was returned. -/
def localHooked (defs : Nat → List Val → Eff σ (Option Val)) : List (Nat × List Val × Callback σ) → Eff σ Unit
  | [] => pure ()
  | (name, args, hook) :: calls => do
    let r ← defs name args
    let _ ← hook.fn r.toList
    localHooked defs calls

/-- A callback which can be hooked to a function which returns `ret`, for a caller of platform `P`. -/
structure Hookable (P : Platform) (s : Mode) (ret : Option Ty) (hook : Callback σ) : Prop where
  params : hook.sig.params = ret.toList
  sig : SigOk hook.sig
  typed : WellTyped P s hook

/-- The hooks can be hooked to the functions. -/
def HooksOk (P : Platform) (K : Keyring) (calls : List (Nat × List Val × Callback σ)) : Prop :=
  ∀ c ∈ calls, ∀ d ∈ K.decls, d.name = c.1 → Hookable P K.s d.sig.ret c.2.2

/-- The calls without the hooks. -/
def withoutHooks (calls : List (Nat × List Val × Callback σ)) : List (Nat × List Val) := calls.map fun c => (c.1, c.2.1)

end Upd.Spec
