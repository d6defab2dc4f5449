import Verif.Model.Session

/-!
# Callbacks which run the unbuffered dispatcher that runs them

Nothing prevents a callback from calling `dispatcher(src, dest)` (include/upd/dispatcher.hpp:119-127) on the dispatcher which it belongs to, for example in order to process several requests as a whole.
-/

namespace Upd

variable {σ : Type}

/-- The body of a callback: `serve` is a call to the dispatcher, on the streams of test/snippet/callee1:1-2, which returns the index of the request which has been served; `attempt` is the same in a `try` block
whose handler catches all the exceptions (`none` if there was one). -/
inductive Body (σ : Type) where
  | done (r : Option Val)
  | act (x : Eff σ (Option Val)) (next : Option Val → Body σ)
  | serve (next : Nat → Body σ)
  | attempt (next : Option Nat → Body σ)

/-- Runs the body of a callback. -/
def Body.run (serve : Eff (Link σ) Nat) : Body σ → Eff (Link σ) (Option Val)
  | .done r => pure r
  | .act x next => do
    let r ← Eff.zoom Link.rest x
    Body.run serve (next r)
  | .serve next => do
    let i ← serve
    Body.run serve (next i)
  | .attempt next => fun l =>
    match serve l with
    | .ret i l => Body.run serve (next (some i)) l
    | .threw l => Body.run serve (next none) l
    | .fault f => .fault f

/-- The callbacks, if the stack has room for `n` of them: calls nested deeper are undefined behaviour (`starved`). -/
def nestedFns (Q : Platform) (K : Keyring) (f : Features) (bodies : Nat → List Val → Body σ) : Nat → Nat → List Val → Eff (Link σ) (Option Val)
  | 0 => fun _ _ => Eff.lift (.error .starved)
  | n + 1 => fun name args =>
    (bodies name args).run ((Dispatcher.make K f (nestedFns Q K f bodies n)).run Q (Lens.whole _) Link.readFromMaster Link.writeToMaster)

/-- `dispatcher(read_byte_from_master, write_byte_to_master)` (test/snippet/callee2:11-16, include/upd/dispatcher.hpp:119-127) on a dispatcher with such callbacks. -/
def serveNested (Q : Platform) (K : Keyring) (f : Features) (bodies : Nat → List Val → Body σ) (n : Nat) : Eff (Link σ) Nat :=
  (Dispatcher.make K f (nestedFns Q K f bodies n)).run Q (Lens.whole _) Link.readFromMaster Link.writeToMaster

/-- A caller writes requests: the keys come from the keyring (include/upd/keyring.hpp:85-88, :56-61), by positions. -/
def sendCalls (P : Platform) (K : Keyring) : List (Nat × List Val) → Eff (Link σ) Unit
  | [] => pure ()
  | (i, args) :: calls =>
    match K.keyAt (some i) with
    | none => Eff.lift (.error .illTyped)
    | some k => do
      k.writeTo P args Link.writeToSlave
      sendCalls P K calls

/-- A caller reads the responses to requests, by positions. -/
def receiveResults (P : Platform) (K : Keyring) : List Nat → Eff (Link σ) (List (Option Val))
  | [] => pure []
  | i :: is =>
    match K.keyAt (some i) with
    | none => Eff.lift (.error .illTyped)
    | some k => do
      let r ← k.readFrom P Link.readFromSlave
      let rs ← receiveResults P K is
      pure (r :: rs)

end Upd
