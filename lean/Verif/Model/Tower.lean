import Verif.Model.Line
import Verif.Model.Relay

/-!
# Layers of devices

Devices in a row again (`Model/Relay.lean`), but each one has its own keyring, and the functions which it serves are any programs, which may call the functions of the next device.
-/

namespace Upd

variable {σ τ α : Type}

/-- A device: its platform and dispatcher, the keyring which it shares with its caller, and the bodies of its functions, by names. The bodies call functions of the next device by indices. -/
structure Tier (σ : Type) where
  node : Node
  ring : Keyring
  body : Nat → List Val → Talk σ (Option Val)

/-- State of the devices, the links, and the rest of the world. -/
def Tower (σ : Type) : List (Tier σ) → Type
  | [] => σ
  | t :: ts => t.node.State (Tower σ ts)

/-- The rest of the world, which the bodies of all the functions may act on. -/
def Tower.rest : (ts : List (Tier σ)) → Lens (Tower σ ts) σ
  | [] => Lens.whole σ
  | t :: ts => ⟨fun W => (Tower.rest ts).get (t.node.link.get W).world,
      fun w W => t.node.link.put { t.node.link.get W with world := (Tower.rest ts).put w (t.node.link.get W).world } W⟩

/-- A program, for any way to act on the rest of the world and to call functions. -/
def Talk.on (R : Lens τ σ) (call : Nat → List Val → Eff τ (Option Val)) : Talk σ α → Eff τ α
  | .done a => pure a
  | .look k => fun t => Talk.on R call (k (R.get t)) t
  | .act x k => do
    Eff.zoom R x
    Talk.on R call k
  | .call i args k => do
    let r ← call i args
    Talk.on R call (k r)

/-- How a device of platform `P` calls the function of index `i` of the next one: with its key, in blocking mode (test/snippet/caller4:7-14). The next device serves its functions with
`processing_request()` (test/snippet/callee2:11-16). -/
def Tower.call : (ts : List (Tier σ)) → Platform → Nat → List Val → Eff (Tower σ ts) (Option Val)
  | [], _ => fun _ _ => Eff.lift (.error .illTyped)
  | t :: ts, P => fun i args =>
    match t.ring.keyAt (some i) with
    | none => Eff.lift (.error .illTyped)
    | some key => blockingCall P t.node.link (t.node.serve t.ring fun name args => (t.body name args).on (Tower.rest ts) (Tower.call ts t.node.plat)) key args

/-- The functions which the first device serves. -/
def Tower.served (t : Tier σ) (ts : List (Tier σ)) : Nat → List Val → Eff (Tower σ ts) (Option Val) :=
  fun name args => (t.body name args).on (Tower.rest ts) (Tower.call ts t.node.plat)

end Upd
