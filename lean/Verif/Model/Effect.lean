import Verif.Model.Tuple

/-!
# Effects

User-provided byte getters, byte putters and callbacks have arbitrary side effects. They are modelled as functions on an arbitrary
type of worlds `σ`, shared by all of them: since `σ` may be, for instance, the list of all the events so far, a theorem which
holds for every `σ` describes which getters, putters and callbacks are called, how many times and in which order.
-/

namespace Upd

/-- Outcome of an effectful C++ expression: it returns, it throws a C++ exception, or it faults. -/
inductive Res (σ α : Type) where
  | ret (a : α) (w : σ)
  | threw (w : σ)
  | fault (f : Fault)

/-- An effectful C++ expression. -/
def Eff (σ α : Type) : Type := σ → Res σ α

namespace Eff

variable {σ τ α β : Type}

/-- Sequencing: exceptions and faults skip the rest. -/
def bind (x : Eff σ α) (f : α → Eff σ β) : Eff σ β := fun w =>
  match x w with
  | .ret a w => f a w
  | .threw w => .threw w
  | .fault e => .fault e

instance : Monad (Eff σ) where
  pure a := fun w => .ret a w
  bind := Eff.bind

/-- An expression without side effect. -/
def lift (x : M α) : Eff σ α := fun w =>
  match x with
  | .ok a => .ret a w
  | .error e => .fault e

/-- Reads the state. -/
def get : Eff σ σ := fun w => .ret w w

/-- Replaces the state. -/
def set (w : σ) : Eff σ Unit := fun _ => .ret () w

end Eff

/-- Access to a part of type `σ` of a state of type `τ`. -/
structure Lens (τ σ : Type) where
  get : τ → σ
  put : σ → τ → τ

/-- The whole state. -/
def Lens.whole (σ : Type) : Lens σ σ := ⟨id, fun w _ => w⟩

/-- Runs on a part of the state. -/
def Eff.zoom {τ σ α : Type} (L : Lens τ σ) (x : Eff σ α) : Eff τ α := fun t =>
  match x (L.get t) with
  | .ret a w => .ret a (L.put w t)
  | .threw w => .threw (L.put w t)
  | .fault e => .fault e

/-- `for (auto &byte : t) byte = src();` on the `n` bytes of the storage starting at `i` (include/upd/action.hpp:47-48, :56-57,
:65-66, :125-126, :136-137, include/upd/key.hpp:124-125, include/upd/dispatcher.hpp:145-146). -/
def fillFrom {τ : Type} (src : Eff τ Byte) : (n i : Nat) → Mem → Eff τ Mem
  | 0, _, mem => pure mem
  | n + 1, i, mem => do
    let b ← src
    let mem ← Eff.lift (mem.wr i b)
    fillFrom src n (i + 1) mem

/-- `for (auto byte : t) dest(byte);` (include/upd/action.hpp:39-40, :139-140,
include/upd/detail/serialized_message.hpp:34-35). -/
def outAll {τ : Type} (dest : Byte → Eff τ Unit) : List Byte → Eff τ Unit
  | [] => pure ()
  | b :: bs => do
    dest b
    outAll dest bs

/-- A default-constructed tuple whose bytes are then all read from `src` (same places as `fillFrom`). -/
def Tuple.readFrom {τ : Type} (P : Platform) (e : Endian) (s : Mode) (ts : List Ty) (src : Eff τ Byte) : Eff τ Mem := do
  let mem ← Eff.lift (Tuple.default P e s ts)
  fillFrom src (Tuple.self e s ts).size 0 mem

end Upd
