import Verif.Spec.Session
import Verif.Model.Pipeline

/-!
# Executions of two devices, the first of which does not wait for the responses
-/

namespace Upd.Spec

variable {σ : Type}

/-- `n` steps, in any order, lead from a state to another one. -/
inductive PipeRuns (P Q : Platform) (K : Keyring) (D : Discipline) (capUp capDown : Nat) : Nat → Pipe σ → Pipe σ → Prop
  | zero (S : Pipe σ) : PipeRuns P Q K D capUp capDown 0 S S
  | succ {n : Nat} {S S' S'' : Pipe σ} (a : PipeStep) : PipeRuns P Q K D capUp capDown n S S' →
      Pipe.step P Q K D capUp capDown a S' = some (.ret () S'') → PipeRuns P Q K D capUp capDown (n + 1) S S''

/-- The caller can write all the requests before it reads a response: whenever the responses to the first ones do not fit in the channel to the caller,
the requests which follow fit in the channel to the callee. `ask` and `reply`: number of bytes of a request and of its response. -/
def WritableFirst (ask reply : Nat → Nat) (capUp capDown : Nat) (calls : List (Nat × List Val)) : Prop :=
  ∀ a c, calls = a ++ c → (a.map fun x => reply x.1).sum ≤ capDown ∨ (c.map fun x => ask x.1).sum ≤ capUp

/-- No step is possible. -/
def PipeStuck (P Q : Platform) (K : Keyring) (D : Discipline) (capUp capDown : Nat) (S : Pipe σ) : Prop :=
  ∀ a, Pipe.step P Q K D capUp capDown a S = none

/-- Everything is done: the calls have returned `rs`, and nothing is left in the channels nor in the buffers. -/
structure PipeDone (rs : List (Option Val)) (w : σ) (S : Pipe σ) : Prop where
  results : S.results = rs
  world : S.world = w
  caller : S.todo = [] ∧ S.sending = [] ∧ S.awaiting = [] ∧ S.got = []
  channels : S.up = [] ∧ S.down = []
  input : Pending S.callee []
  output : Unread S.callee []

end Upd.Spec
