import Verif.Model.Grid
import Verif.Spec.Tower

/-!
# Spec: networks of devices
-/

namespace Upd.Spec

variable {σ α : Type}

/-- A program whose calls are calls of ordinary functions. -/
def scripted (call : Nat → Nat → List Val → Eff σ (Option Val)) : Script σ α → Eff σ α
  | .done a => pure a
  | .look k => fun w => scripted call (k w) w
  | .act x k => do
    x
    scripted call k
  | .call dev i args k => do
    let r ← call dev i args
    scripted call (k r)

/-- The functions of all the devices, as ordinary functions which call each other, without library. -/
def netted : List (Outpost σ) → Nat → Nat → List Val → Eff σ (Option Val)
  | [] => fun _ _ _ => Eff.lift (.error .illTyped)
  | t :: ts => fun dev i args =>
    match dev with
    | 0 =>
      match t.ring.decls[i]? with
      | none => Eff.lift (.error .illTyped)
      | some d => scripted (netted ts) (t.body d.name args)
    | dev + 1 => netted ts dev i args

/-- The program, on a device of platform `P`, is correct with respect to types: the devices which it calls have `P` among the platforms of their callers (`clients`), it calls their functions on arguments
which can be encoded and decoded, and ends with values such that `post`, provided that these functions return what they should. -/
def ScriptSound (P : Platform) (post : α → Prop) (clients : Nat → Platform → Prop) (ts : List (Outpost σ)) : Script σ α → Prop
  | .done a => post a
  | .look k => ∀ w, ScriptSound P post clients ts (k w)
  | .act _ k => ScriptSound P post clients ts k
  | .call dev i args k => clients dev P ∧ ∃ t d, ts[dev]? = some t ∧ t.ring.decls[i]? = some d ∧ Val.FitsAll (Safe P t.ring.s) d.sig.params args ∧
      Val.FitsAll (Safe t.node.plat t.ring.s) d.sig.params args ∧ ∀ r, RetOk P t.ring.s d.sig.ret r → ScriptSound P post clients ts (k r)

/-- Each device can serve its keyring; its callers, whose platforms are those such that `clients`, support the format of the keyring and can decode the results; and the bodies of its functions are correct
with respect to types. -/
def GridOk : (Nat → Platform → Prop) → List (Outpost σ) → Prop
  | _, [] => True
  | clients, t :: ts => (∀ P, clients 0 P → P.Valid ∧ Supported P t.ring.e t.ring.s) ∧ KeyringOk t.ring ∧ NodeOk t.ring t.node ∧
      (∀ d ∈ t.ring.decls, ∀ args, Val.FitsAll (Safe t.node.plat t.ring.s) d.sig.params args →
        ScriptSound t.node.plat (fun r => (∀ P, clients 0 P → RetOk P t.ring.s d.sig.ret r) ∧ RetOk t.node.plat t.ring.s d.sig.ret r) (fun dev => clients (dev + 1)) ts
          (t.body d.name args)) ∧
      GridOk (fun dev => clients (dev + 1)) ts

/-- No byte is on its way, and every dispatcher is between two requests, having been used in any way before. -/
def AtRest : (ts : List (Outpost σ)) → Grid σ ts → Prop
  | [], _ => True
  | ⟨.buffered P f shared, K, body⟩ :: ts, W =>
    let (b, l) := (W : BState (Link (Grid σ ts)))
    l.up = [] ∧ l.down = [] ∧ Reachable P K f (hosted (Grid.served ⟨.buffered P f shared, K, body⟩ ts)) shared (b, l) ∧ Pending b [] ∧ AtRest ts l.world
  | ⟨.unbuffered .., _, _⟩ :: ts, W =>
    let l := (W : Link (Grid σ ts))
    l.up = [] ∧ l.down = [] ∧ AtRest ts l.world

/-- New devices. -/
def newGrid (sizeMax : Nat) (w : σ) : (ts : List (Outpost σ)) → Grid σ ts
  | [] => w
  | ⟨.buffered P f shared, K, body⟩ :: ts =>
    ((fresh P K f (hosted (Grid.served ⟨.buffered P f shared, K, body⟩ ts)) sizeMax shared, ⟨[], [], newGrid sizeMax w ts⟩) : BState (Link (Grid σ ts)))
  | ⟨.unbuffered .., _, _⟩ :: ts => (⟨[], [], newGrid sizeMax w ts⟩ : Link (Grid σ ts))

/-- What the devices lead to is what `r` leads to: same result, same exception, same undefined behaviour, same effect on the rest of the world. If there is a result, the devices are ready for the next
call. -/
def GridOutcome (ts : List (Outpost σ)) (r : Res σ α) (R : Res (Grid σ ts) α) : Prop :=
  match r with
  | .ret a w => ∃ W, R = .ret a W ∧ AtRest ts W ∧ (Grid.rest ts).get W = w
  | .threw w => ∃ W, R = .threw W ∧ (Grid.rest ts).get W = w
  | .fault f => R = .fault f

/-- A program which calls the next device only. -/
def toNext : Talk σ α → Script σ α
  | .done a => .done a
  | .look k => .look fun w => toNext (k w)
  | .act x k => .act x (toNext k)
  | .call i args k => .call 0 i args fun r => toNext (k r)

/-- A device of a row of devices (C110), as a device of a network. -/
def Tier.outpost (t : Tier σ) : Outpost σ := ⟨t.node, t.ring, fun name args => toNext (t.body name args)⟩

end Upd.Spec
