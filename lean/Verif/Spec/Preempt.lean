import Verif.Model.Preempt
import Verif.Spec.History

/-!
# Vocabulary of C92: `write_to` interrupted at any points
-/

namespace Upd.Spec

open Upd

variable {σ : Type}

/-- Successive events, and what is observed of each. -/
def happen (P : Platform) (C : Compiled) (tx : Byte → Eff σ Unit) : List WEvent → Eff (WPc × BState σ) (List WObs)
  | [] => pure []
  | e :: es => do
    let o ← e.run P C tx
    let os ← happen P C tx es
    pure (o :: os)

/-- The bytes given to the putter. -/
def sent : List WObs → List Byte
  | [] => []
  | .sent x :: os => x :: sent os
  | _ :: os => sent os

/-- The responses of the requests completed by the handler, one after the other. -/
def responses : List WObs → List Byte
  | [] => []
  | .status .resolved resp :: os => resp ++ responses os
  | _ :: os => responses os

/-- The statuses which the handler gets. -/
def statuses : List WObs → List Status
  | [] => []
  | .status st _ :: os => st :: statuses os
  | _ :: os => statuses os

/-- The bytes put by the handler. -/
def received : List WEvent → List Byte
  | [] => []
  | .main :: es => received es
  | .put x :: es => x :: received es

/-- Each time the handler completes a request, the dispatcher before that and the response satisfy `rule`. -/
def Obeys (rule : Buf σ → List Byte → Prop) (P : Platform) (C : Compiled) (tx : Byte → Eff σ Unit) : List WEvent → WPc × BState σ → Prop
  | [], _ => True
  | e :: es, st => ∀ o st', e.run P C tx st = .ret o st' → (∀ resp, o = .status .resolved resp → rule st.2.1 resp) ∧ Obeys rule P C tx es st'

/-- A request is completed only when `is_loaded()` is false. -/
def WhenEmpty (b : Buf σ) (_ : List Byte) : Prop := b.isLoaded = false

/-- A request is completed only when `is_loaded()` is false, and its response is not empty. -/
def Answering (b : Buf σ) (resp : List Byte) : Prop := b.isLoaded = false ∧ resp ≠ []

/-- No request is completed. -/
def Nothing (_ : Buf σ) (_ : List Byte) : Prop := False

/-- `write_to` is not in the middle of `get()` or of the call of the putter. -/
def Between : WPc → Prop
  | .loop | .loopHalf _ | .done => True
  | _ => False

end Upd.Spec
