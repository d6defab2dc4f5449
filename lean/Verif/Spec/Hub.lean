import Verif.Model.Hub
import Verif.Spec.Session

/-!
# A program which calls the functions of several devices
-/

namespace Upd.Spec

variable {σ α : Type}

/-- The same program, which calls the functions itself. -/
def here (defs : Nat → Nat → List Val → Eff σ (Option Val)) : HubProg σ α → Eff σ α
  | .done a => pure a
  | .call dev name args next => defs dev name args >>= fun r => here defs (next r)
  | .act x next => x >>= fun r => here defs (next r)

/-- How a device serves requests: buffered (with one buffer if `shared`) or not. -/
inductive HubKind where
  | buffered (f : Features) (shared : Bool)
  | unbuffered (f : Features)

/-- The device serves the functions `fns` and is between two requests, having been used in any way before; no byte is on its way. -/
def Ready (s : Site) (fns : Nat → List Val → Eff σ (Option Val)) (w : σ) : HubKind → Dev σ → Prop
  | .buffered f shared, .buffered b up down => up = [] ∧ down = [] ∧ Reachable s.Q s.K f (hosted fns) shared (b, ⟨[], [], w⟩) ∧ Pending b []
  | .unbuffered f, .unbuffered D up down => up = [] ∧ down = [] ∧ D = Dispatcher.make s.K f (hosted fns)
  | _, _ => False

/-- All the devices are ready. -/
def AllReady (sites : List (Site × HubKind)) (defs : Nat → Nat → List Val → Eff σ (Option Val)) (st : List (Dev σ) × σ) : Prop :=
  sites.length = st.1.length ∧ ∀ (i : Nat) (s : Site × HubKind) (d : Dev σ), sites[i]? = some s → st.1[i]? = some d → Ready s.1 (defs i) st.2 s.2 d

/-- What is required of a caller of platform `P` and of a device which serves the functions `fns`. -/
structure SiteOk (P : Platform) (fns : Nat → List Val → Eff σ (Option Val)) (s : Site × HubKind) : Prop where
  valid : s.1.Q.Valid
  ring : KeyringOk s.1.K
  caller : Supported P s.1.K.e s.1.K.s
  callee : Supported s.1.Q s.1.K.e s.1.K.s
  typedP : ∀ d ∈ s.1.K.decls, WellTyped P s.1.K.s ⟨d.sig, fns d.name⟩
  typedQ : ∀ d ∈ s.1.K.decls, WellTyped s.1.Q s.1.K.s ⟨d.sig, fns d.name⟩
  buffers : ∀ f shared, s.2 = .buffered f shared → ResponsesFit s.1.K shared ∧
    ∀ d ∈ s.1.K.decls, ∀ t ∈ d.sig.params, wireSize t ≤ t.sizeof ∧ (f = .weakReference → t.sizeof = wireSize t)

/-- Along the executions of the program, called functions belong to the keyrings of the devices and the arguments are in the domain supported by both platforms. -/
def ProgOk (P : Platform) (sites : List (Site × HubKind)) (defs : Nat → Nat → List Val → Eff σ (Option Val)) : HubProg σ α → σ → Prop
  | .done _, _ => True
  | .call dev name args next, w =>
    (∃ s, sites[dev]? = some s ∧ (∃ d ∈ s.1.K.decls, d.name = name) ∧
      ∀ d ∈ s.1.K.decls, d.name = name → Val.FitsAll (Safe P s.1.K.s) d.sig.params args ∧ Val.FitsAll (Safe s.1.Q s.1.K.s) d.sig.params args) ∧
    ∀ r w', defs dev name args w = .ret r w' → ProgOk P sites defs (next r) w'
  | .act x next, w => ∀ r w', x w = .ret r w' → ProgOk P sites defs (next r) w'

/-- What a program leads to with devices is what `r` leads to: same result, same exception, same effect on the rest of the world. If there is a result, the devices are
ready for the next call. -/
def HubOutcome (sites : List (Site × HubKind)) (defs : Nat → Nat → List Val → Eff σ (Option Val)) (r : Res σ α) (R : Res (List (Dev σ) × σ) α) : Prop :=
  match r with
  | .ret a w => ∃ ds, R = .ret a (ds, w) ∧ AllReady sites defs (ds, w)
  | .threw w => ∃ ds, R = .threw (ds, w)
  | .fault f => R = .fault f

/-- A new device. -/
def newDev (s : Site) (fns : Nat → List Val → Eff σ (Option Val)) (sizeMax : Nat) : HubKind → Dev σ
  | .buffered f shared => .buffered (fresh s.Q s.K f (hosted fns) sizeMax shared) [] []
  | .unbuffered f => .unbuffered (Dispatcher.make s.K f (hosted fns)) [] []

/-- New devices, the first of which has the number `i`. -/
def newDevs (defs : Nat → Nat → List Val → Eff σ (Option Val)) (sizeMax i : Nat) : List (Site × HubKind) → List (Dev σ)
  | [] => []
  | s :: sites => newDev s.1 (defs i) sizeMax s.2 :: newDevs defs sizeMax (i + 1) sites

end Upd.Spec
