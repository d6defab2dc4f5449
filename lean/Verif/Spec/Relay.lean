import Verif.Model.Relay
import Verif.Spec.Session

/-!
# Devices in a row
-/

namespace Upd.Spec

variable {σ : Type}

/-- The rest of the world, at the end of the row. -/
def bottom : (ns : List Node) → Chain σ ns → σ
  | [], w => w
  | .buffered .. :: ns, t => bottom ns (t : BState (Link (Chain σ ns))).2.world
  | .unbuffered .. :: ns, t => bottom ns (t : Link (Chain σ ns)).world

/-- No byte is on its way, and every dispatcher is between two requests, having been used in any way before. -/
def Idle (K : Keyring) (defs : Nat → List Val → Eff σ (Option Val)) : (ns : List Node) → Chain σ ns → Prop
  | [], _ => True
  | .buffered P f shared :: ns, t =>
    let (b, l) := (t : BState (Link (Chain σ ns)))
    l.up = [] ∧ l.down = [] ∧ Reachable P K f (hosted (Chain.fns K defs P ns)) shared (b, l) ∧ Pending b [] ∧ Idle K defs ns l.world
  | .unbuffered _ _ :: ns, t =>
    let l := (t : Link (Chain σ ns))
    l.up = [] ∧ l.down = [] ∧ Idle K defs ns l.world

/-- New devices. -/
def newRow (K : Keyring) (defs : Nat → List Val → Eff σ (Option Val)) (sizeMax : Nat) (w : σ) : (ns : List Node) → Chain σ ns
  | [] => w
  | .buffered P f shared :: ns =>
    ((fresh P K f (hosted (Chain.fns K defs P ns)) sizeMax shared, ⟨[], [], newRow K defs sizeMax w ns⟩) : BState (Link (Chain σ ns)))
  | .unbuffered _ _ :: ns => (⟨[], [], newRow K defs sizeMax w ns⟩ : Link (Chain σ ns))

/-- What is required of a device in order that it serves the keyring. -/
def NodeOk (K : Keyring) : Node → Prop
  | .buffered P f shared => P.Valid ∧ Supported P K.e K.s ∧ ResponsesFit K shared ∧
      ∀ d ∈ K.decls, ∀ t ∈ d.sig.params, wireSize t ≤ t.sizeof ∧ (f = .weakReference → t.sizeof = wireSize t)
  | .unbuffered P _ => P.Valid ∧ Supported P K.e K.s

/-- A function has one signature. -/
def OneSignature (K : Keyring) : Prop := ∀ d ∈ K.decls, ∀ d' ∈ K.decls, d.name = d'.name → d.sig = d'.sig

/-- What devices in a row lead to is what `r` leads to: same result, same exception, same effect on the rest of the world. If there is a
result, the devices are ready for the next call. -/
def RowOutcome {α : Type} (K : Keyring) (defs : Nat → List Val → Eff σ (Option Val)) (ns : List Node) (r : Res σ α)
    (R : Res (Chain σ ns) α) : Prop :=
  match r with
  | .ret a w => ∃ W, R = .ret a W ∧ Idle K defs ns W ∧ bottom ns W = w
  | .threw w => ∃ W, R = .threw W ∧ bottom ns W = w
  | .fault f => R = .fault f

/-- The functions belong to the keyring and the arguments are in the domain supported by the platform. -/
def CallsOn (P : Platform) (K : Keyring) (calls : List (Nat × List Val)) : Prop :=
  ∀ c ∈ calls, (∃ d ∈ K.decls, d.name = c.1) ∧ ∀ d ∈ K.decls, d.name = c.1 → Val.FitsAll (Safe P K.s) d.sig.params c.2

end Upd.Spec
