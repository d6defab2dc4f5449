import Verif.Model.Relay

/-!
# Networks of devices

Devices are numbered, and the functions of a device may call the functions of any of the devices which come after it: several devices may call the same one, and a device may call several ones. Each
device receives requests through one link, which its callers share. No device is called while it is itself waiting for the result of a call, since devices only call those which come after them.
-/

namespace Upd

variable {σ τ α : Type}

/-- A program which calls functions of devices (the device, the index of the function, the arguments), and does other things; what it does next depends on the results. -/
inductive Script (σ α : Type) where
  | done (a : α)
  | look (k : σ → Script σ α)
  | act (x : Eff σ Unit) (k : Script σ α)
  | call (dev i : Nat) (args : List Val) (k : Option Val → Script σ α)

/-- A device: its platform and dispatcher, the keyring of its functions, and the bodies of these, by names. The device of number `m` for these bodies is the one `m + 1` places after this one. -/
structure Outpost (σ : Type) where
  node : Node
  ring : Keyring
  body : Nat → List Val → Script σ (Option Val)

/-- State of the devices, the links, and the rest of the world. -/
def Grid (σ : Type) : List (Outpost σ) → Type
  | [] => σ
  | t :: ts => t.node.State (Grid σ ts)

/-- What is behind a device. -/
def Node.behind (n : Node) : Lens (n.State τ) τ := ⟨fun W => (n.link.get W).world, fun w W => n.link.put { n.link.get W with world := w } W⟩

/-- The rest of the world, which the bodies of all the functions may act on. -/
def Grid.rest : (ts : List (Outpost σ)) → Lens (Grid σ ts) σ
  | [] => Lens.whole σ
  | t :: ts => ⟨fun W => (Grid.rest ts).get (t.node.behind.get W), fun w W => t.node.behind.put ((Grid.rest ts).put w (t.node.behind.get W)) W⟩

/-- A program, for any way to act on the rest of the world and to call functions. -/
def Script.on (R : Lens τ σ) (call : Nat → Nat → List Val → Eff τ (Option Val)) : Script σ α → Eff τ α
  | .done a => pure a
  | .look k => fun t => Script.on R call (k (R.get t)) t
  | .act x k => do
    Eff.zoom R x
    Script.on R call k
  | .call dev i args k => do
    let r ← call dev i args
    Script.on R call (k r)

/-- How a device of platform `P` calls the function of index `i` of the device `dev`: with its key, in blocking mode (test/snippet/caller4:7-14). The device serves its functions with
`processing_request()` (test/snippet/callee2:11-16). -/
def Grid.call : (ts : List (Outpost σ)) → Platform → Nat → Nat → List Val → Eff (Grid σ ts) (Option Val)
  | [], _ => fun _ _ _ => Eff.lift (.error .illTyped)
  | t :: ts, P => fun dev i args =>
    match dev with
    | 0 =>
      match t.ring.keyAt (some i) with
      | none => Eff.lift (.error .illTyped)
      | some key => blockingCall P t.node.link (t.node.serve t.ring fun name args => (t.body name args).on (Grid.rest ts) (Grid.call ts t.node.plat)) key args
    | dev + 1 => Eff.zoom t.node.behind (Grid.call ts P dev i args)

/-- The functions which the first device serves. -/
def Grid.served (t : Outpost σ) (ts : List (Outpost σ)) : Nat → List Val → Eff (Grid σ ts) (Option Val) :=
  fun name args => (t.body name args).on (Grid.rest ts) (Grid.call ts t.node.plat)

end Upd
