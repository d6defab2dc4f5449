import Verif.Model.Action

/-!
# Model of include/upd/dispatcher.hpp
-/

namespace Upd

variable {σ τ : Type}

/-- `action_features` (include/upd/policy.hpp:10). -/
inductive Features where
  | weakReference
  | any
  deriving DecidableEq, Repr

/-- `detail::make_action` (include/upd/dispatcher.hpp:30-48). -/
def makeAction (f : Features) (e : Endian) (s : Mode) (cb : Callback σ) : Action σ :=
  match f with
  | .weakReference => .weak e s cb
  | .any => .stored e s cb

/-- `dispatcher<Keyring, Action_Features>` (include/upd/dispatcher.hpp:79-200): its static parameters and `m_actions.content`. -/
structure Dispatcher (σ : Type) where
  e : Endian
  s : Mode
  /-- `sizeof(index_t)` -/
  idxBytes : Nat
  size : Nat
  features : Features
  acts : List (Action σ)

/-- `dispatcher()` (include/upd/dispatcher.hpp:108) with `detail::actions` (:59-66). `defs` gives the definition of the
functions known to the keyring. -/
def Dispatcher.make (K : Keyring) (f : Features) (defs : Nat → List Val → Eff σ (Option Val)) : Dispatcher σ :=
  ⟨K.e, K.s, K.idxBytes, K.size, f, K.decls.map fun d => makeAction f K.e K.s ⟨d.sig, defs d.name⟩⟩

/-- `dispatcher::get_index(src)` (include/upd/dispatcher.hpp:141-149). -/
def Dispatcher.getIndex (P : Platform) (D : Dispatcher σ) (src : Eff τ Byte) : Eff τ Nat := do
  let indexTuple ← Tuple.readFrom P D.e D.s [.uint D.idxBytes] src
  let v ← Eff.lift ((Tuple.self D.e D.s [.uint D.idxBytes]).get P 0 indexTuple)
  match v with
  | .int z => pure z.toNat
  | _ => Eff.lift (.error .illTyped)

/-- `dispatcher::operator[](index)` (include/upd/dispatcher.hpp:193-196): no bound check in C++. -/
def Dispatcher.at (D : Dispatcher σ) (index : Nat) : M (Action σ) :=
  match D.acts[index]? with
  | some a => .ok a
  | none => .error .oobRead

/-- `dispatcher::operator()(src, dest)` (include/upd/dispatcher.hpp:119-127). -/
def Dispatcher.run (P : Platform) (D : Dispatcher σ) (L : Lens τ σ) (src : Eff τ Byte) (dest : Byte → Eff τ Unit) :
    Eff τ Nat := do
  let index ← D.getIndex P src
  if index < D.size then do
    let a ← Eff.lift (D.at index)
    a.invoke P L src dest
    pure index
  else pure index

/-- `dispatcher::get_action(src)` (include/upd/dispatcher.hpp:132-136): a pointer to an element of the array of actions (as its
position) or null. -/
def Dispatcher.getAction (P : Platform) (D : Dispatcher σ) (src : Eff τ Byte) : Eff τ (Option Nat) := do
  let index ← D.getIndex P src
  pure (if index < D.size then some index else none)

/-- `dispatcher::replace<Index>(unevaluated<F, Ftor>)` (include/upd/dispatcher.hpp:154-161). The two `static_assert` require
`index < size` and the same signature: see the hypotheses of the theorems. -/
def Dispatcher.replaceStatic (D : Dispatcher σ) (index : Nat) (cb : Callback σ) : Dispatcher σ :=
  { D with acts := D.acts.set index (makeAction D.features D.e D.s cb) }

/-- `dispatcher::replace<Index>(F &&ftor)` (include/upd/dispatcher.hpp:180-187), only for `action_features::ANY`. -/
def Dispatcher.replace (D : Dispatcher σ) (index : Nat) (cb : Callback σ) : Dispatcher σ :=
  { D with acts := D.acts.set index (.stored D.e D.s cb) }

end Upd
