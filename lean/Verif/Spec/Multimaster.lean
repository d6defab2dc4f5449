import Verif.Spec.History
import Verif.Spec.Deferred
import Verif.Model.Multimaster

/-!
# Executions of two devices which both initiate requests
-/

namespace Upd.Spec

variable {σ : Type}

/-- The beginning: new dispatchers, nothing in transit. -/
def Masters.start (Φ : Bool → Station σ) (sizeMax : Bool → Nat) (calls : Bool → List (Call σ)) (w : σ) : Masters σ :=
  ⟨calls, fun s => fresh (Φ s).P (Φ s).K (Φ s).f ((Φ s).table s) (sizeMax s) (Φ s).shared, ⟨fun _ => [], fun _ => [], w⟩⟩

/-- `MasterRuns Φ g n S S'`: `n` steps, in any order, lead from `S` to `S'`. -/
inductive MasterRuns (Φ : Bool → Station σ) (g : Buf (Bus σ) → Bool) : Nat → Masters σ → Masters σ → Prop
  | zero (S : Masters σ) : MasterRuns Φ g 0 S S
  | succ {n : Nat} {S S' S'' : Masters σ} (a : MasterStep) : MasterRuns Φ g n S S' → Masters.step Φ g a S' = some (.ret () S'') →
      MasterRuns Φ g (n + 1) S S''

/-- No step is possible. -/
def MastersRest (Φ : Bool → Station σ) (g : Buf (Bus σ) → Bool) (S : Masters σ) : Prop := ∀ a, Masters.step Φ g a S = none

/-- What happens on both devices, as seen by their users: a call `c` of the device `s` is served by the other one, which returns `r`; the callback hooked
to it is called on `r`. -/
inductive Event (σ : Type) where
  | served (s : Bool) (c : Call σ) (r : Option Val)
  | hooked (s : Bool) (c : Call σ) (r : Option Val)

/-- The events in this order, all of them being local function calls, lead from `w` to `w'`. -/
inductive Happen (Φ : Bool → Station σ) : List (Event σ) → σ → σ → Prop
  | nil (w : σ) : Happen Φ [] w w
  | served {es : List (Event σ)} {w w1 w2 : σ} {s : Bool} {c : Call σ} {r : Option Val} : Happen Φ es w w1 →
      (Φ (!s)).defs c.1 c.2.1 w1 = .ret r w2 → Happen Φ (es ++ [.served s c r]) w w2
  | hooked {es : List (Event σ)} {w w1 w2 : σ} {s : Bool} {c : Call σ} {r x : Option Val} : Happen Φ es w w1 →
      c.2.2.fn r.toList w1 = .ret x w2 → Happen Φ (es ++ [.hooked s c r]) w w2

/-- The calls of the device `s` which were served, in order, and what they returned. -/
def servedOf (s : Bool) : List (Event σ) → List (Call σ × Option Val)
  | [] => []
  | .served t c r :: es => if t = s then (c, r) :: servedOf s es else servedOf s es
  | .hooked _ _ _ :: es => servedOf s es

/-- Those whose callback was called, in order, and what it was called on. -/
def hookedOf (s : Bool) : List (Event σ) → List (Call σ × Option Val)
  | [] => []
  | .hooked t c r :: es => if t = s then (c, r) :: hookedOf s es else hookedOf s es
  | .served _ _ _ :: es => hookedOf s es

/-- Those which returned a value. -/
def withValue (l : List (Call σ × Option Val)) : List (Call σ × Option Val) := l.filter fun x => x.2.isSome

/-- Hypotheses on a device `A`, where `B` is the other one: those of a buffered dispatcher whose functions return, and return values which both devices
can encode; the other device supports the format of the keyring; the replies are received by a function of the keyring which takes an array of bytes, large
enough for the responses of the other device; the types which are returned have at least one byte. -/
structure StationOk (A B : Station σ) : Prop where
  valid : A.P.Valid
  ring : KeyringOk A.K
  sup : Supported A.P A.K.e A.K.s
  peer : Supported B.P A.K.e A.K.s
  sizes : ∀ d ∈ A.K.decls, ∀ t ∈ d.sig.params, wireSize t ≤ t.sizeof ∧ (A.f = .weakReference → t.sizeof = wireSize t)
  room : ResponsesFit A.K A.shared
  total : ∀ d ∈ A.K.decls, d.name ≠ A.reply → ∀ args w, ∃ r w', A.defs d.name args w = .ret r w'
  typed : ∀ d ∈ A.K.decls, d.name ≠ A.reply → WellTyped A.P A.K.s ⟨d.sig, A.defs d.name⟩
  typedPeer : ∀ d ∈ A.K.decls, d.name ≠ A.reply → WellTyped B.P A.K.s ⟨d.sig, A.defs d.name⟩
  bytes : ∀ d ∈ A.K.decls, ∀ t, d.sig.ret = some t → 1 ≤ wireSize t
  reply : ∃ d ∈ A.K.decls, d.name = A.reply
  replySig : ∀ d ∈ A.K.decls, d.name = A.reply → d.sig = ⟨[.arr (.uint 1) A.n], none⟩
  replyPos : 1 ≤ A.n
  replyRoom : ∀ d ∈ B.K.decls, retSize d.sig.ret ≤ A.n

/-- Hypotheses on the calls of the device `A`: they are calls of functions of the other device `B`, other than the one which receives replies, with
arguments in the domain supported by both; the callbacks which are hooked to functions which return something take what they return, and return. -/
structure MasterCallsOk (A B : Station σ) (calls : List (Call σ)) : Prop where
  fit : CallsOk A.P B.P B.K (withoutHooks calls)
  notReply : ∀ c ∈ calls, c.1 ≠ B.reply
  hooks : ∀ c ∈ calls, ∀ d ∈ B.K.decls, d.name = c.1 → d.sig.ret.isSome → Hookable A.P B.K.s d.sig.ret c.2.2
  total : ∀ c ∈ calls, ∀ args w, ∃ x w', c.2.2.fn args w = .ret x w'

end Upd.Spec
