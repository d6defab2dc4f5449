import Verif.Model.Line

/-!
# Calls which are repeated until there is a response

A caller in blocking mode (test/snippet/caller4) on a line which may lose whole messages, or deliver responses too late. The functions which read and write bytes are given by the user (test/snippet/caller1);
here the one which reads throws an exception if no byte has arrived in time, and the caller then sends its request again.
-/

namespace Upd

variable {σ τ α : Type}

/-- What becomes of an attempt. -/
inductive Fate where
  /-- the request and the response arrive -/
  | arrives
  | requestLost
  | responseLost
  /-- the response arrives when the caller does not wait for it any more -/
  | late
deriving DecidableEq

/-- `read_byte_from_slave` (test/snippet/caller1:2), with a timeout: it throws if no byte has arrived. -/
def Link.readOrTimeout : Eff (Link σ) Byte := fun l =>
  match l.down with
  | [] => .threw l
  | x :: down => .ret x { l with down := down }

/-- The bytes on the way to the callee are lost. -/
def Link.dropUp : Eff (Link σ) Unit := fun l => .ret () { l with up := [] }

/-- The bytes on the way to the caller are lost, or discarded by the caller. -/
def Link.dropDown : Eff (Link σ) Unit := fun l => .ret () { l with down := [] }

/-- The bytes on the way to the caller are delayed. -/
def Link.delay : Eff (Link σ) (List Byte) := fun l => .ret l.down { l with down := [] }

/-- The delayed bytes arrive. -/
def Link.deliver (bs : List Byte) : Eff (Link σ) Unit := fun l => .ret () { l with down := l.down ++ bs }

/-- Reads the response (include/upd/key.hpp:121-131); the exception of `readOrTimeout` is caught. -/
def tryRead (P : Platform) (k : Key) : Eff (Link σ) (Option (Option Val)) := fun l =>
  match k.readFrom P Link.readOrTimeout l with
  | .ret r l' => .ret (some r) l'
  | .threw l' => .ret none l'
  | .fault f => .fault f

/-- An attempt at a call. If `flush`, the caller first discards the bytes which have arrived too late. -/
def attempt (P : Platform) (L : Lens τ (Link σ)) (serve : Eff τ Unit) (flush : Bool) (k : Key) (args : List Val) (fate : Fate) : Eff τ (Option (Option Val)) := do
  if flush then Eff.zoom L Link.dropDown else pure ()
  Eff.zoom L (k.writeTo P args Link.writeToSlave)
  match fate with
  | .arrives => do
    serve
    Eff.zoom L (tryRead P k)
  | .requestLost => do
    Eff.zoom L Link.dropUp
    Eff.zoom L (tryRead P k)
  | .responseLost => do
    serve
    Eff.zoom L Link.dropDown
    Eff.zoom L (tryRead P k)
  | .late => do
    serve
    let bs ← Eff.zoom L Link.delay
    let r ← Eff.zoom L (tryRead P k)
    Eff.zoom L (Link.deliver bs)
    pure r

/-- Attempts until one succeeds; the fates of the attempts to come are given, and those which have not been used are returned. The caller gives up, by an exception, when there is none left. -/
def retryCall (P : Platform) (L : Lens τ (Link σ)) (serve : Eff τ Unit) (flush : Bool) (k : Key) (args : List Val) : List Fate → Eff τ (Option Val × List Fate)
  | [] => fun t => .threw t
  | fate :: fates => do
    let r ← attempt P L serve flush k args fate
    match r with
    | some v => pure (v, fates)
    | none => retryCall P L serve flush k args fates

/-- A program whose calls are repeated. -/
def Talk.retrying (P : Platform) (K : Keyring) (L : Lens τ (Link σ)) (serve : Eff τ Unit) (flush : Bool) : Talk σ α → List Fate → Eff τ (α × List Fate)
  | .done a, fates => pure (a, fates)
  | .look k, fates => fun t => Talk.retrying P K L serve flush (k (L.get t).world) fates t
  | .act x k, fates => do
    Eff.zoom L (Eff.zoom Link.rest x)
    Talk.retrying P K L serve flush k fates
  | .call i args k, fates =>
    match K.keyAt (some i) with
    | none => Eff.lift (.error .illTyped)
    | some key => do
      let r ← retryCall P L serve flush key args fates
      Talk.retrying P K L serve flush (k r.1) r.2

end Upd
