import Verif.Model.Layout
import Verif.Spec.Replace

/-!
# Calls on an object of a class written by the user
-/

namespace Upd.Spec

variable {σ : Type}

/-- A call on an object of class `C`. `is_loaded` and the replacement of callbacks do not depend on the class. -/
def Call.runIn (C : UserClass) (P : Platform) : Call σ → Eff (BState σ) Obs
  | .io (.put x) => C.put P x >>= fun st => pure (.status st)
  | .io .get => C.get >>= fun x => pure (.byte x)
  | c => c.run P

/-- The call is `put`. -/
def Call.isPut : Call σ → Bool
  | .io (.put _) => true
  | _ => false

/-- Sizes and alignments are positive. -/
def Base.Real : Base → Prop
  | .empty => True
  | .solid n a _ => 1 ≤ n ∧ 1 ≤ a

/-- What a real class is like. -/
structure UserClass.Real (C : UserClass) : Prop where
  pointer : 1 ≤ C.pointer
  size : 1 ≤ C.size
  align : 1 ≤ C.align
  before : ∀ b ∈ C.before, Base.Real b
  after : ∀ b ∈ C.after, Base.Real b

/-- The class has no virtual function, its base classes neither, and those before `buffered_dispatcher` are empty. -/
def UserClass.Plain (C : UserClass) : Prop :=
  C.hasVirtual = false ∧ (∀ b ∈ C.before ++ C.after, b.isDynamic = false) ∧ ∀ b ∈ C.before, b = .empty

end Upd.Spec
