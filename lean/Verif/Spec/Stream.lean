import Verif.Spec.Decode
import Verif.Model.Action

/-!
# Byte sources and destinations, signatures, and what serving a request means

Refers to the effects (`Eff`) and the signatures of the model, not to the code of the library.
-/

namespace Upd.Spec

/-- From the world `w`, calling the byte getter `src` once per byte of `bs` returns these bytes, and leads to the world `w'`. -/
inductive Yields {τ : Type} (src : Eff τ Byte) : τ → List Byte → τ → Prop
  | nil (w : τ) : Yields src w [] w
  | cons {w w1 w2 : τ} {b : Byte} {bs : List Byte} : src w = .ret b w1 → Yields src w1 bs w2 → Yields src w (b :: bs) w2

/-- From the world `w`, calling the byte putter `dest` on each byte of `bs` in order leads to the world `w'`. -/
inductive Accepts {τ : Type} (dest : Byte → Eff τ Unit) : τ → List Byte → τ → Prop
  | nil (w : τ) : Accepts dest w [] w
  | cons {w w1 w2 : τ} {b : Byte} {bs : List Byte} :
    dest b w = .ret () w1 → Accepts dest w1 bs w2 → Accepts dest w (b :: bs) w2

/-- Calls `src` `n` times. -/
def getN {τ : Type} (src : Eff τ Byte) : Nat → Eff τ (List Byte)
  | 0 => pure []
  | n + 1 => do
    let b ← src
    let bs ← getN src n
    pure (b :: bs)

/-- Calls `dest` on each byte. -/
def putAll {τ : Type} (dest : Byte → Eff τ Unit) : List Byte → Eff τ Unit
  | [] => pure ()
  | b :: bs => do
    dest b
    putAll dest bs

/-- What a callback returned (`none` for `void`) is a value of the return type, which the library can encode. -/
def RetOk (P : Platform) (s : Mode) : Option Ty → Option Val → Prop
  | none, none => True
  | some t, some v => v.Fits (Safe P s) t
  | _, _ => False

/-- Encoding of what a callback returned. -/
def response (e : Endian) (s : Mode) : Option Ty → Option Val → List Byte
  | some t, some v => wire e s t v
  | _, _ => []

/-- Size of the encoding of what a callback returns. -/
def retSize : Option Ty → Nat
  | none => 0
  | some t => wireSize t

/-- Restriction on the types of a signature: they exist and have no padding inside arrays. -/
def SigOk (g : Sig) : Prop :=
  Ty.WFs g.params ∧ PackedAll g.params ∧ (∀ t, g.ret = some t → t.WF ∧ Packed t)

/-- The callback, called on arguments of the right types, always returns a value of the right type, which the library can
encode (in particular, it does not throw). -/
def Total {σ : Type} (P : Platform) (s : Mode) (cb : Callback σ) : Prop :=
  ∀ args w, Val.FitsAll (Safe P s) cb.sig.params args → ∃ r w', cb.fn args w = .ret r w' ∧ RetOk P s cb.sig.ret r

/-- The callback returns a value of the right type whenever it returns (it may throw). -/
def WellTyped {σ : Type} (P : Platform) (s : Mode) (cb : Callback σ) : Prop :=
  ∀ args w r w', Val.FitsAll (Safe P s) cb.sig.params args → cb.fn args w = .ret r w' → RetOk P s cb.sig.ret r

/-- Serving a request for the callback `cb`: get the bytes of the arguments, call the callback on the values they stand for, put
the bytes of what it returns. -/
def serve {σ τ : Type} (e : Endian) (s : Mode) (cb : Callback σ) (L : Lens τ σ) (src : Eff τ Byte) (dest : Byte → Eff τ Unit) :
    Eff τ Unit := do
  let bs ← getN src (wireSizes cb.sig.params)
  let r ← Eff.zoom L (cb.fn (unwires e s cb.sig.params bs))
  putAll dest (response e s cb.sig.ret r)

end Upd.Spec
