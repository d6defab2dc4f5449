import Verif.Model.Line
import Verif.Model.Python

/-!
# Coroutines which call a device at the same time

`Client.call` (py/unpadded/client.py:5-11) is a coroutine: it encodes the request, awaits what `new_request` returns, and decodes the response. Here, several coroutines run on an event loop; `new_request`,
which is given by the user (it is not implemented: py/unpadded/client.py:2-3), sends the payload to a device and returns a future (as in test/py/test.py:34-40), and the responses of the device, which
the transport delivers one by one and in order, are the results of the oldest futures.
-/

namespace Upd

variable {σ τ α : Type}

/-- A coroutine: ready to run, or suspended in `Client.call(key, ...)` until the future is resolved, or finished, or cancelled (`asyncio.Task.cancel`). -/
inductive Coro (σ α : Type) where
  | ready (p : Talk σ α)
  | awaiting (key : Key) (k : Option Val → Talk σ α)
  | finished (a : α)
  | cancelled

/-- The coroutines, the futures which are not resolved, each of which is identified by the coroutine which awaits it, the responses which the transport has not delivered, and the rest, which the link
to the device is a part of. -/
structure EventLoop (σ α τ : Type) where
  coros : List (Coro σ α)
  futures : List Nat
  inbox : List (List Byte)
  rest : τ

/-- What happens next: a coroutine does something, or the device serves a request, or a response is delivered, or a coroutine is cancelled. -/
inductive Happening where
  | step (c : Nat)
  | serve
  | deliver
  | cancel (c : Nat)

/-- The rest of the event loop. -/
def EventLoop.restL : Lens (EventLoop σ α τ) τ := ⟨fun s => s.rest, fun t s => { s with rest := t }⟩

/-- A coroutine is replaced. -/
def EventLoop.become (c : Nat) (x : Coro σ α) : Eff (EventLoop σ α τ) Unit := fun s => .ret () { s with coros := s.coros.set c x }

/-- `new_request(payload)`, called by the coroutine `c`. -/
def EventLoop.newRequest (L : Lens τ (Link σ)) (c : Nat) (payload : List Byte) : Eff (EventLoop σ α τ) Unit := fun s =>
  .ret () { s with futures := s.futures ++ [c], rest := L.put { L.get s.rest with up := (L.get s.rest).up ++ payload } s.rest }

/-- The coroutine `c` runs: one operation, or until `await` (py/unpadded/client.py:6) for a call. Nothing happens if it is suspended or finished. -/
def EventLoop.step (P : Platform) (K : Keyring) (L : Lens τ (Link σ)) (c : Nat) : Eff (EventLoop σ α τ) Unit := fun s =>
  match s.coros[c]? with
  | some (.ready (.done a)) => EventLoop.become c (.finished a) s
  | some (.ready (.look k)) => EventLoop.become c (.ready (k (L.get s.rest).world)) s
  | some (.ready (.act x k)) => (do
      Eff.zoom EventLoop.restL (Eff.zoom L (Eff.zoom Link.rest x))
      EventLoop.become c (.ready k)) s
  | some (.ready (.call i args k)) =>
    match K.keyAt (some i) with
    | none => .fault .illTyped
    | some key => (do
      let payload ← Eff.lift (PyKey.encode P key args)
      EventLoop.newRequest L c payload
      EventLoop.become c (.awaiting key k)) s
  | _ => .ret () s

/-- The device serves a request if there is one; the bytes which it sends are a response, which the transport keeps apart from the others. -/
def EventLoop.serve (L : Lens τ (Link σ)) (serve : Eff τ Unit) : Eff (EventLoop σ α τ) Unit := fun s =>
  match (L.get s.rest).up with
  | [] => .ret () s
  | _ :: _ => (do
    Eff.zoom EventLoop.restL serve
    fun s => .ret () { s with inbox := s.inbox ++ [(L.get s.rest).down], rest := L.put { L.get s.rest with down := [] } s.rest }) s

/-- The oldest future is resolved with the oldest response, and the coroutine resumes (py/unpadded/client.py:8-9). If the coroutine was
cancelled, the response is thrown away. -/
def EventLoop.deliver (P : Platform) : Eff (EventLoop σ α τ) Unit := fun s =>
  match s.inbox, s.futures with
  | m :: inbox, c :: futures =>
    match s.coros[c]? with
    | some (.awaiting key k) =>
      match PyKey.decode P key m with
      | .ret r _ => .ret () { s with coros := s.coros.set c (.ready (k r)), inbox := inbox, futures := futures }
      | .threw _ => .threw s
      | .fault f => .fault f
    | _ => .ret () { s with inbox := inbox, futures := futures }
  | _, _ => .ret () s

/-- `CancelledError` is raised in the coroutine, in `await` (py/unpadded/client.py:6) if it is suspended, and is not caught. A program which catches it and goes on, because of a timeout for instance, is
another coroutine which runs from then on. -/
def EventLoop.cancel (c : Nat) : Eff (EventLoop σ α τ) Unit := fun s =>
  match s.coros[c]? with
  | some (.ready _) | some (.awaiting _ _) => EventLoop.become c .cancelled s
  | _ => .ret () s

/-- One event. -/
def EventLoop.next (P : Platform) (K : Keyring) (L : Lens τ (Link σ)) (serve : Eff τ Unit) : Happening → Eff (EventLoop σ α τ) Unit
  | .step c => EventLoop.step P K L c
  | .serve => EventLoop.serve L serve
  | .deliver => EventLoop.deliver P
  | .cancel c => EventLoop.cancel c

/-- All that happens, in order. -/
def EventLoop.run (P : Platform) (K : Keyring) (L : Lens τ (Link σ)) (serve : Eff τ Unit) : List Happening → Eff (EventLoop σ α τ) Unit
  | [] => pure ()
  | h :: hs => do
    EventLoop.next P K L serve h
    EventLoop.run P K L serve hs

end Upd
