import Verif.Spec.Session
import Verif.Model.Net

/-!
# Executions of two devices
-/

namespace Upd.Spec

variable {σ : Type}

/-- `NetRuns P Q K u d n S S'`: `n` steps, in any order, lead from `S` to `S'`. -/
inductive NetRuns (P Q : Platform) (K : Keyring) (capUp capDown : Nat) : Nat → Net σ → Net σ → Prop
  | zero (S : Net σ) : NetRuns P Q K capUp capDown 0 S S
  | succ {n : Nat} {S S' S'' : Net σ} (a : NetStep) : NetRuns P Q K capUp capDown n S S' →
      Net.step P Q K capUp capDown a S' = some (.ret () S'') → NetRuns P Q K capUp capDown (n + 1) S S''

/-- No step is possible. -/
def NetStuck (P Q : Platform) (K : Keyring) (capUp capDown : Nat) (S : Net σ) : Prop := ∀ a, Net.step P Q K capUp capDown a S = none

end Upd.Spec
