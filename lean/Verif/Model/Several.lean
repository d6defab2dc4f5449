import Verif.Model.Buffered

/-!
# Copies of dispatchers
-/

namespace Upd

variable {σ : Type}

/-- Implicit copy constructor of an action. An `action` holds a `unique_ptr` (include/upd/action.hpp:199), hence cannot be copied; the three members of a `no_storage_action`
(include/upd/action.hpp:234-235) are copied. -/
def Action.copy : Action σ → M (Action σ)
  | .weak e s cb => .ok (.weak e s cb)
  | _ => .error .illTyped

/-- Implicit copy constructor of the array of actions (include/upd/dispatcher.hpp:65). -/
def copyActions : List (Action σ) → M (List (Action σ))
  | [] => .ok []
  | a :: as => do
    let a ← a.copy
    let as ← copyActions as
    .ok (a :: as)

/-- Implicit copy constructor of a dispatcher (no copy operation is declared in include/upd/dispatcher.hpp:79-200). The copy constructor exists if `action_t` has one, that is for
`action_features::WEAK_REFERENCE` (:50-53). -/
def Dispatcher.copy (D : Dispatcher σ) : M (Dispatcher σ) :=
  match D.features with
  | .any => .error .illTyped
  | .weakReference => do
    let acts ← copyActions D.acts
    .ok ⟨D.e, D.s, D.idxBytes, D.size, D.features, acts⟩

/-- Implicit copy constructor of a buffered dispatcher (no copy operation is declared in include/upd/buffered_dispatcher.hpp:62-283, :294-321, :352-381): member-wise. The positions
are indices, not pointers (:282). -/
def Buf.copy (b : Buf σ) : M (Buf σ) := do
  let disp ← b.disp.copy
  .ok { disp := disp, shared := b.shared, sizeMax := b.sizeMax, ibuf := b.ibuf, obuf := b.obuf, indexLoaded := b.indexLoaded, loadCount := b.loadCount, ibufNext := b.ibufNext,
        obufNext := b.obufNext, obufBottom := b.obufBottom }

end Upd
