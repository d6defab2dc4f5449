import Verif.Model.Buffered
import Verif.Model.Key

/-!
# Sessions

The programs of the documentation: a caller and a callee linked by two byte streams.
-/

namespace Upd

variable {σ τ : Type}

/-- Two devices: the bytes sent by the caller which the callee has not read yet, those sent by the callee which the caller has not read yet,
and the rest of the world. The streams neither lose nor alter bytes. -/
structure Link (σ : Type) where
  up : List Byte
  down : List Byte
  world : σ

/-- `write_byte_to_slave` (test/snippet/caller1:1). -/
def Link.writeToSlave (x : Byte) : Eff (Link σ) Unit := fun l => .ret () { l with up := l.up ++ [x] }

/-- `read_byte_from_slave` (test/snippet/caller1:2). Reading too soon is not modelled: it faults. -/
def Link.readFromSlave : Eff (Link σ) Byte := fun l =>
  match l.down with
  | [] => .fault .starved
  | x :: down => .ret x { l with down := down }

/-- `write_byte_to_master` (test/snippet/callee1:1). -/
def Link.writeToMaster (x : Byte) : Eff (Link σ) Unit := fun l => .ret () { l with down := l.down ++ [x] }

/-- `read_byte_from_master` (test/snippet/callee1:2). Reading too soon is not modelled: it faults. -/
def Link.readFromMaster : Eff (Link σ) Byte := fun l =>
  match l.up with
  | [] => .fault .starved
  | x :: up => .ret x { l with up := up }

/-- The rest of the world, as a part of the whole. -/
def Link.rest : Lens (Link σ) σ := ⟨fun l => l.world, fun w l => { l with world := w }⟩

/-- Functions which act on the rest of the world (they do not use the link). -/
def hosted (defs : Nat → List Val → Eff σ (Option Val)) : Nat → List Val → Eff (Link σ) (Option Val) :=
  fun name args => Eff.zoom Link.rest (defs name args)

/-- `processing_request()` of test/snippet/callee2:11-16 with an unbuffered dispatcher. -/
def serveUnbuffered (Q : Platform) (D : Dispatcher (Link σ)) : Eff (Link σ) Unit := do
  let _ ← D.run Q (Lens.whole _) Link.readFromMaster Link.writeToMaster
  pure ()

/-- `processing_request()` of test/snippet/callee2:11-16 with a buffered dispatcher. -/
def serveBuffered (Q : Platform) : Eff (BState (Link σ)) Unit := do
  let _ ← Buf.process Q Link.readFromMaster Link.writeToMaster
  pure ()

/-- The link, as seen from the state of a buffered dispatcher and the link. -/
def Link.beside : Lens (BState (Link σ)) (Link σ) := ⟨fun st => st.2, fun l st => (st.1, l)⟩

/-- Blocking mode (test/snippet/caller4:7-14): the request is sent, the callee serves it, the response is read. `L` is the place of the
link. -/
def blockingCall (P : Platform) (L : Lens τ (Link σ)) (serve : Eff τ Unit) (k : Key) (args : List Val) : Eff τ (Option Val) := do
  Eff.zoom L (k.writeTo P args Link.writeToSlave)
  serve
  Eff.zoom L (k.readFrom P Link.readFromSlave)

/-- A sequence of calls in blocking mode, by names: the key of each function comes from the keyring (test/snippet/caller4:4; a name which is
not in the keyring does not compile). -/
def blockingCalls (P : Platform) (K : Keyring) (L : Lens τ (Link σ)) (serve : Eff τ Unit) : List (Nat × List Val) → Eff τ (List (Option Val))
  | [] => pure []
  | (name, args) :: calls =>
    match K.get11 name with
    | none => Eff.lift (.error .illTyped)
    | some k => do
      let r ← blockingCall P L serve k args
      let rs ← blockingCalls P K L serve calls
      pure (r :: rs)

/-- All the requests, sent in a row (test/snippet/master1.cpp:7-8). -/
def sendAll (P : Platform) (K : Keyring) (L : Lens τ (Link σ)) : List (Nat × List Val) → Eff τ Unit
  | [] => pure ()
  | (name, args) :: calls =>
    match K.get11 name with
    | none => Eff.lift (.error .illTyped)
    | some k => do
      Eff.zoom L (k.writeTo P args Link.writeToSlave)
      sendAll P K L calls

/-- `n` requests served in a row. -/
def serveAll (serve : Eff τ Unit) : Nat → Eff τ Unit
  | 0 => pure ()
  | n + 1 => do
    serve
    serveAll serve n

/-- All the responses, read in a row. -/
def receiveAll (P : Platform) (K : Keyring) (L : Lens τ (Link σ)) : List (Nat × List Val) → Eff τ (List (Option Val))
  | [] => pure []
  | (name, _) :: calls =>
    match K.get11 name with
    | none => Eff.lift (.error .illTyped)
    | some k => do
      let r ← Eff.zoom L (k.readFrom P Link.readFromSlave)
      let rs ← receiveAll P K L calls
      pure (r :: rs)

/-- The requests are sent first, then they are served, then the responses are read. -/
def pipelinedCalls (P : Platform) (K : Keyring) (L : Lens τ (Link σ)) (serve : Eff τ Unit) (calls : List (Nat × List Val)) :
    Eff τ (List (Option Val)) := do
  sendAll P K L calls
  serveAll serve calls.length
  receiveAll P K L calls

end Upd
