import Verif.Spec.Observe
import Verif.Model.AnyIterator

/-!
# Spec: iterators of any class
-/

namespace Upd.Spec

variable {σ ι ο : Type}

/-- Evaluating `*it++` again and again gives these bytes; then `it` has the value `it'`, and the world is `w'`. -/
inductive ItYields (next : InputIt σ ι) : ι → σ → List Byte → ι → σ → Prop
  | nil (it : ι) (w : σ) : ItYields next it w [] it w
  | cons {it it1 it2 : ι} {w w1 w2 : σ} {x : Byte} {bs : List Byte} :
    next it w = .ret (x, it1) w1 → ItYields next it1 w1 bs it2 w2 → ItYields next it w (x :: bs) it2 w2

/-- `*it++ = x`, for each byte. -/
def storeAll (store : OutputIt σ ο) : ο → List Byte → Eff σ ο
  | it, [] => pure it
  | it, x :: bs => do
    let it ← store it x
    storeAll store it bs

/-- Iterators on a stream: what `*it++` does is what `src` does, whatever the value of the iterator. -/
def StreamOf (next : InputIt σ ι) (src : Eff σ Byte) : Prop :=
  ∀ it w, match src w with
    | .ret x w' => ∃ it', next it w = .ret (x, it') w'
    | .threw w' => next it w = .threw w'
    | .fault f => next it w = .fault f

/-- The same for output iterators. -/
def SinkOf (store : OutputIt σ ο) (dest : Byte → Eff σ Unit) : Prop :=
  ∀ it x w, match dest x w with
    | .ret _ w' => ∃ it', store it x w = .ret it' w'
    | .threw w' => store it x w = .threw w'
    | .fault f => store it x w = .fault f

/-- Calls of a buffered dispatcher, each one on its own iterators. -/
def walks (P : Platform) (next : InputIt σ ι) (store : OutputIt σ ο) : List (ι × ο) → Eff (BState (Walk ι ο σ)) (List Status)
  | [] => pure []
  | (i, o) :: l => do
    let st ← Buf.processWalk P next store i o
    let sts ← walks P next store l
    pure (st :: sts)

/-- As many calls of a buffered dispatcher, on functors. -/
def turns (P : Platform) (src : Eff σ Byte) (dest : Byte → Eff σ Unit) : Nat → Eff (BState σ) (List Status)
  | 0 => pure []
  | n + 1 => do
    let st ← Buf.process P src dest
    let sts ← turns P src dest n
    pure (st :: sts)

/-- Pointers to bytes: an array of bytes in the world, and positions in it. -/
def pointerNext : InputIt (Mem × σ) Nat := fun i w =>
  match w.1.rd i with
  | .ok x => .ret (x, i + 1) w
  | .error f => .fault f

/-- The same for output. -/
def pointerStore : OutputIt (Mem × σ) Nat := fun i x w =>
  match w.1.wr i x with
  | .ok mem => .ret (i + 1) (mem, w.2)
  | .error f => .fault f

end Upd.Spec
