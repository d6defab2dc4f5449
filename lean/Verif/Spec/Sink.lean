import Verif.Spec.History
import Verif.Spec.Caught

/-!
# Byte putters which throw (C88)
-/

namespace Upd.Spec

variable {σ τ : Type}

/-- From the world `w`, calling the byte putter `dest` on each byte of `bs` in order ends with an exception thrown on the byte `x`, in the world `w'`; the
bytes `rest` are not given to it. -/
def Refuses (dest : Byte → Eff τ Unit) (w : τ) (bs : List Byte) (rest : List Byte) (w' : τ) : Prop :=
  ∃ pre x w1, bs = pre ++ x :: rest ∧ Accepts dest w pre w1 ∧ dest x w1 = .threw w'

/-- A byte putter which also records the bytes it is given, whether it accepts them or throws. The record is the first component of the world. -/
def recording (dest : Byte → Eff τ Unit) (x : Byte) : Eff (List Byte × τ) Unit := fun st =>
  match dest x st.2 with
  | .ret _ t => .ret () (st.1 ++ [x], t)
  | .threw t => .threw (st.1 ++ [x], t)
  | .fault f => .fault f

/-- Successive calls of `write_to`, each one with its own putter; the exceptions are caught. -/
def attempts (dests : List (Byte → Eff τ Unit)) : Eff (BState (List Byte × τ)) (List (Option Obs)) :=
  runCaught OutOp.run (dests.map fun dest => .writeTo (recording dest))

end Upd.Spec
