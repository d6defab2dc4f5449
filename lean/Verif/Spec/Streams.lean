import Verif.Spec.Request
import Verif.Model.Streams

/-!
# What streams of any kind give and take (C90)
-/

namespace Upd.Spec

variable {σ : Type}

/-- From the world `w`, the input gives the bytes `bs`, which leads to the world `w'`: the functor does when it is called, the iterator does from where it stands. -/
def Gives : Input σ → σ → List Byte → σ → Prop
  | .functor src, w, bs, w' => Yields src w bs w'
  | .iterator _ next it, w, bs, w' => ∃ it', Yields next (it, w) bs (it', w')

/-- What happens when the bytes `bs` are given to the output, one by one: to the functor, or to the iterator from where it stands. -/
def takes : Output σ → List Byte → Eff σ Unit
  | .functor dest, bs => putAll dest bs
  | .iterator _ put it, bs => fun w =>
    match putAll put bs (it, w) with
    | .ret _ st => .ret () st.2
    | .threw st => .threw st.2
    | .fault f => .fault f

/-- Calling a callback on the arguments, then giving the response to the output; returns `a`. -/
def answer {α : Type} (e : Endian) (s : Mode) (ret : Option Ty) (fn : Eff σ (Option Val)) (o : Output σ) (a : α) : Eff σ α := do
  let r ← fn
  takes o (response e s ret r)
  pure a

/-- Calls which write a message each, on the same output. -/
def writeEach (P : Platform) (o : Output σ) : List (Key × List Val) → Eff σ Unit
  | [] => pure ()
  | (k, args) :: ms => do
    k.writeOn P args o
    writeEach P o ms

/-- Calls which read a value each, on the same input. -/
def readEach (P : Platform) (i : Input σ) : List Key → Eff σ (List (Option Val))
  | [] => pure []
  | k :: ks => do
    let r ← k.readOn P i
    let rs ← readEach P i ks
    pure (r :: rs)

/-- The bytes of a message. -/
def message (m : Key × List Val) : List Byte := request m.1.e m.1.s m.1.idxBytes m.1.index m.1.sig.params m.2

/-- The message can be written. -/
def Sendable (P : Platform) (m : Key × List Val) : Prop :=
  Supported P m.1.e m.1.s ∧ 1 ≤ m.1.idxBytes ∧ m.1.index < 256 ^ m.1.idxBytes ∧ SigOk m.1.sig ∧ Val.FitsAll (Safe P m.1.s) m.1.sig.params m.2

end Upd.Spec
