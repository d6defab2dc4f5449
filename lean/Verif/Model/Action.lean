import Verif.Model.Key

/-!
# Model of include/upd/action.hpp
-/

namespace Upd

/-- A callback: its signature and what it does. It receives the unserialized arguments, and returns a value, or nothing (`none`,
for `void`), or throws. -/
structure Callback (σ : Type) where
  sig : Sig
  fn : List Val → Eff σ (Option Val)

variable {σ τ : Type}

/-- `detail::insert(dest, value)` (include/upd/action.hpp:34-41). -/
def insert (P : Platform) (e : Endian) (s : Mode) (t : Ty) (v : Val) (dest : Byte → Eff τ Unit) : Eff τ Unit := do
  let output ← Eff.lift (Tuple.make P e s [t] [v])
  outAll dest output

/-- `detail::call<Tuple>(src, dest, ftor)` (include/upd/action.hpp:53-69). The callback acts on the part `L` of the state. -/
def call (P : Platform) (e : Endian) (s : Mode) (cb : Callback σ) (L : Lens τ σ) (src : Eff τ Byte)
    (dest : Byte → Eff τ Unit) : Eff τ Unit := do
  let inputArgs ← Tuple.readFrom P e s cb.sig.params src
  let invocation ← Eff.lift ((Tuple.self e s cb.sig.params).invoke P cb.fn inputArgs)
  let r ← Eff.zoom L invocation
  match cb.sig.ret, r with
  | none, none => pure ()
  | some t, some v => insert P e s t v dest
  | _, _ => Eff.lift (.error .illTyped)

/-- `static_storage_duration_callback_wrapper` (include/upd/action.hpp:122-141). -/
def staticWrapper (P : Platform) (e : Endian) (s : Mode) (cb : Callback σ) (L : Lens τ σ) (src : Eff τ Byte)
    (dest : Byte → Eff τ Unit) : Eff τ Unit := do
  let parametersTuple ← Tuple.readFrom P e s cb.sig.params src
  let invocation ← Eff.lift ((Tuple.self e s cb.sig.params).invoke P cb.fn parametersTuple)
  let r ← Eff.zoom L invocation
  match cb.sig.ret, r with
  | none, none => pure ()
  | some t, some v => do
    let returnTuple ← Eff.lift (Tuple.make P e s [t] [v])
    outAll dest returnTuple
  | _, _ => Eff.lift (.error .illTyped)

/-- The actions: `action` whose pointer is null (default-constructed or moved-from), `action` with a callback
(include/upd/action.hpp:151-200, :75-117), `no_storage_action` (:207-236). -/
inductive Action (σ : Type) where
  | null
  | stored (e : Endian) (s : Mode) (cb : Callback σ)
  | weak (e : Endian) (s : Mode) (cb : Callback σ)

/-- `flatten_tuple_t<Endianess, Signed_Mode, R>` (include/upd/detail/type_traits/flatten_tuple.hpp:20-38), as the list of its
element types. Return types which are tuples themselves are not modelled (`insert` does not accept them). -/
def flattenTypes (ret : Option Ty) : List Ty :=
  match ret with
  | none => []
  | some t => [t]

/-- `input_size()` (include/upd/action.hpp:192 with :109; :226 with :217). -/
def Action.inputSize : Action σ → M Nat
  | .null => .error .nullDeref
  | .stored e s cb => .ok (Tuple.self e s cb.sig.params).size
  | .weak _ _ cb => .ok cb.sig.parametersSize

/-- `output_size()` (include/upd/action.hpp:196 with :110; :229 with :217). -/
def Action.outputSize : Action σ → M Nat
  | .null => .error .nullDeref
  | .stored e s cb => .ok (Tuple.self e s (flattenTypes cb.sig.ret)).size
  | .weak _ _ cb => .ok cb.sig.returnTypeSize

/-- `operator()(src, dest)` (include/upd/action.hpp:175-179 with :113; :220-223). -/
def Action.invoke (P : Platform) (a : Action σ) (L : Lens τ σ) (src : Eff τ Byte) (dest : Byte → Eff τ Unit) : Eff τ Unit :=
  match a with
  | .null => pure ()
  | .stored e s cb => call P e s cb L src dest
  | .weak e s cb => staticWrapper P e s cb L src dest

/-- `action::operator()(input)` (include/upd/action.hpp:185-188): the output is discarded. -/
def Action.invoke1 (P : Platform) (a : Action σ) (L : Lens τ σ) (src : Eff τ Byte) : Eff τ Unit :=
  a.invoke P L src fun _ => pure ()

/-- `key::with_hook(ftor)` (include/upd/key.hpp:138-141). -/
def Key.withHook (k : Key) (hook : Callback σ) : Action σ := .stored k.e k.s hook

/-- `key::with_hook(unevaluated<F, Ftor>)` (include/upd/key.hpp:146-149). -/
def Key.withWeakHook (k : Key) (hook : Callback σ) : Action σ := .weak k.e k.s hook

end Upd
