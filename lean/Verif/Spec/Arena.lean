import Verif.Model.Arena
import Verif.Spec.Replace

/-!
# Specification for buffers which may overlap
-/

namespace Upd.Spec

variable {σ : Type}

/-- A call of a member function on an object whose buffers may overlap. -/
def Call.runAt (P : Platform) : Call σ → Eff (Arena σ × σ) Obs
  | .io (.put x) => Arena.put P x >>= fun st => pure (.status st)
  | .io .get => Arena.get >>= fun x => pure (.byte x)
  | .io .isLoaded => fun st => .ret (.bool st.1.isLoaded) st
  | .replace i cb => fun st => .ret .unit (st.1.replace i cb, st.2)
  | .replaceStatic i cb => fun st => .ret .unit (st.1.replaceStatic i cb, st.2)
  | .pyReplace k fn => fun st =>
    match st.1.pyReplace k fn with
    | .ok a => .ret .unit (a, st.2)
    | .error f => .fault f

/-- Neither of the ranges of `n` bytes from `i` and of `m` bytes from `o` has a byte of the other. -/
def Apart (i n o m : Nat) : Prop := i + n ≤ o ∨ o + m ≤ i

/-- `put` is only called when `is_loaded()` is false. -/
def DrainedAt (P : Platform) : List (Call σ) → Arena σ × σ → Prop
  | [], _ => True
  | c :: cs, st => ((∃ x, c = .io (.put x)) → st.1.isLoaded = false) ∧ ∀ o st', c.runAt P st = .ret o st' → DrainedAt P cs st'

/-- The same condition in terms of the abstract machine. -/
def DrainedM : List (Call σ) → (Proto σ × Machine) × σ → Prop
  | [], _ => True
  | c :: cs, st => ((∃ x, c = .io (.put x)) → st.1.2.isLoaded = false) ∧ ∀ o st', c.runM st = .ret o st' → DrainedM cs st'

end Upd.Spec
