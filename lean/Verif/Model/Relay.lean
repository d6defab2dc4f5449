import Verif.Model.Session

/-!
# Relays

Devices in a row: the functions which a device serves call the functions of the next one, through its key.
-/

namespace Upd

variable {σ τ : Type}

/-- A device which serves requests: its platform and its dispatcher, buffered (test/snippet/callee2 with a buffered dispatcher, with one
buffer if `shared`) or not. -/
inductive Node where
  | buffered (P : Platform) (f : Features) (shared : Bool)
  | unbuffered (P : Platform) (f : Features)

/-- Platform of a device. -/
def Node.plat : Node → Platform
  | .buffered P _ _ => P
  | .unbuffered P _ => P

/-- State of a device, of the link between its caller and itself, and of what is behind it. An unbuffered dispatcher has no state of its own
(actions are not replaced). -/
def Node.State (n : Node) (τ : Type) : Type :=
  match n with
  | .buffered .. => BState (Link τ)
  | .unbuffered .. => Link τ

/-- The link between a device and its caller. -/
def Node.link : (n : Node) → Lens (n.State τ) (Link τ)
  | .buffered .. => Link.beside
  | .unbuffered .. => Lens.whole _

/-- `processing_request()` (test/snippet/callee2:11-16). `fns` are the functions which the device serves. -/
def Node.serve (K : Keyring) (fns : Nat → List Val → Eff τ (Option Val)) : (n : Node) → Eff (n.State τ) Unit
  | .buffered P _ _ => serveBuffered P
  | .unbuffered P f => serveUnbuffered P (Dispatcher.make K f (hosted fns))

/-- State of devices in a row, the last of which acts on the rest of the world. -/
def Chain (σ : Type) : List Node → Type
  | [] => σ
  | n :: ns => n.State (Chain σ ns)

/-- The functions of the keyring, as a device of platform `P` can call them when the devices `ns` follow it: `defs` if there is none,
otherwise through the key of the function (test/snippet/caller4:7-14,
blocking mode). The next device serves functions which do the same. -/
def Chain.fns (K : Keyring) (defs : Nat → List Val → Eff σ (Option Val)) :
    (P : Platform) → (ns : List Node) → Nat → List Val → Eff (Chain σ ns) (Option Val)
  | _, [] => defs
  | P, n :: ns => fun name args =>
    match K.get11 name with
    | none => Eff.lift (.error .illTyped)
    | some k => blockingCall P n.link (n.serve K (Chain.fns K defs n.plat ns)) k args

end Upd
