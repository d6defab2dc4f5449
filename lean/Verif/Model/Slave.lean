import Verif.Model.Session

/-!
# Interrupt-driven callee

The handlers of test/snippet/slave1.cpp.
-/

namespace Upd

variable {σ : Type}

/-- `on_byte_received()` (test/snippet/slave1.cpp:21-44). The program leaves the case of a dropped packet to the reader: nothing is done. -/
def onByteReceived (Q : Platform) : Eff (BState (Link σ)) Unit := do
  let x ← onWorld Link.readFromMaster
  let status ← Buf.put Q x
  match status with
  | .resolved => do
    let y ← Buf.get
    onWorld (Link.writeToMaster y)
  | _ => pure ()

/-- `on_byte_sent()` (test/snippet/slave1.cpp:46-51). -/
def onByteSent : Eff (BState (Link σ)) Unit := do
  let y ← Buf.get
  onWorld (Link.writeToMaster y)

/-- The two interrupts. -/
inductive SlaveEvent where
  | received
  | sent

/-- The handler of an interrupt. Handlers do not interrupt each other, nor anything which uses the dispatcher (`main` of
test/snippet/slave1.cpp:53-57 does not). -/
def SlaveEvent.run (Q : Platform) : SlaveEvent → Eff (BState (Link σ)) Unit
  | .received => onByteReceived Q
  | .sent => onByteSent

/-- Handlers of successive interrupts. -/
def slaveRun (Q : Platform) : List SlaveEvent → Eff (BState (Link σ)) Unit
  | [] => pure ()
  | e :: es => do
    e.run Q
    slaveRun Q es

end Upd
