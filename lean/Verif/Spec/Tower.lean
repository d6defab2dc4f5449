import Verif.Model.Tower
import Verif.Spec.Relay

/-!
# Spec: layers of devices
-/

namespace Upd.Spec

variable {σ α : Type}

/-- A program whose calls are calls of ordinary functions. -/
def ordinary (call : Nat → List Val → Eff σ (Option Val)) : Talk σ α → Eff σ α
  | .done a => pure a
  | .look k => fun w => ordinary call (k w) w
  | .act x k => do
    x
    ordinary call k
  | .call i args k => do
    let r ← call i args
    ordinary call (k r)

/-- The functions of the first layer, as ordinary functions which call those of the next layer, without library. -/
def layered : List (Tier σ) → Nat → List Val → Eff σ (Option Val)
  | [] => fun _ _ => Eff.lift (.error .illTyped)
  | t :: ts => fun i args =>
    match t.ring.decls[i]? with
    | none => Eff.lift (.error .illTyped)
    | some d => ordinary (layered ts) (t.body d.name args)

/-- The program, on a device of platform `P`, is correct with respect to types: it calls functions of the next device on arguments which can be encoded and decoded, and ends with values such that `post`,
provided that these functions return what they should. -/
def TalkSound (P : Platform) (post : α → Prop) (ts : List (Tier σ)) : Talk σ α → Prop
  | .done a => post a
  | .look k => ∀ w, TalkSound P post ts (k w)
  | .act _ k => TalkSound P post ts k
  | .call i args k => ∃ t d, ts.head? = some t ∧ t.ring.decls[i]? = some d ∧ Val.FitsAll (Safe P t.ring.s) d.sig.params args ∧
      Val.FitsAll (Safe t.node.plat t.ring.s) d.sig.params args ∧ ∀ r, RetOk P t.ring.s d.sig.ret r → TalkSound P post ts (k r)

/-- Each device can serve its keyring and support its format, so can its caller (of platform `P` for the first device), and the bodies of its functions are correct with respect to types. -/
def TowerOk : Platform → List (Tier σ) → Prop
  | _, [] => True
  | P, t :: ts => P.Valid ∧ Supported P t.ring.e t.ring.s ∧ KeyringOk t.ring ∧ NodeOk t.ring t.node ∧
      (∀ d ∈ t.ring.decls, ∀ args, Val.FitsAll (Safe t.node.plat t.ring.s) d.sig.params args →
        TalkSound t.node.plat (fun r => RetOk P t.ring.s d.sig.ret r ∧ RetOk t.node.plat t.ring.s d.sig.ret r) ts (t.body d.name args)) ∧
      TowerOk t.node.plat ts

/-- No byte is on its way, and every dispatcher is between two requests, having been used in any way before. -/
def Settled : (ts : List (Tier σ)) → Tower σ ts → Prop
  | [], _ => True
  | ⟨.buffered P f shared, K, body⟩ :: ts, W =>
    let (b, l) := (W : BState (Link (Tower σ ts)))
    l.up = [] ∧ l.down = [] ∧ Reachable P K f (hosted (Tower.served ⟨.buffered P f shared, K, body⟩ ts)) shared (b, l) ∧ Pending b [] ∧ Settled ts l.world
  | ⟨.unbuffered .., _, _⟩ :: ts, W =>
    let l := (W : Link (Tower σ ts))
    l.up = [] ∧ l.down = [] ∧ Settled ts l.world

/-- New devices. -/
def newTower (sizeMax : Nat) (w : σ) : (ts : List (Tier σ)) → Tower σ ts
  | [] => w
  | ⟨.buffered P f shared, K, body⟩ :: ts =>
    ((fresh P K f (hosted (Tower.served ⟨.buffered P f shared, K, body⟩ ts)) sizeMax shared, ⟨[], [], newTower sizeMax w ts⟩) : BState (Link (Tower σ ts)))
  | ⟨.unbuffered .., _, _⟩ :: ts => (⟨[], [], newTower sizeMax w ts⟩ : Link (Tower σ ts))

/-- What the devices lead to is what `r` leads to: same result, same exception, same undefined behaviour, same effect on the rest of the world. If there is a result, the devices are ready for the next
call. -/
def TowerOutcome (ts : List (Tier σ)) (r : Res σ α) (R : Res (Tower σ ts) α) : Prop :=
  match r with
  | .ret a w => ∃ W, R = .ret a W ∧ Settled ts W ∧ (Tower.rest ts).get W = w
  | .threw w => ∃ W, R = .threw W ∧ (Tower.rest ts).get W = w
  | .fault f => R = .fault f

end Upd.Spec
