import Verif.Spec.Faults

/-!
# Abstract machine for buffered dispatchers, with exceptions

As `Machine`, but the user catches the exceptions thrown by the callbacks and goes on with the dispatcher.
-/

namespace Upd.Spec

variable {σ : Type}

/-- The input side: the bytes of the packet being received; or, once a callback has thrown, the number of bytes which lie in the input buffer. -/
inductive Input where
  | pending (l : List Byte)
  | stuck (n : Nat)

/-- State of the machine. -/
structure CMachine where
  inp : Input
  out : List Byte

/-- Receives a byte. `size`, `room`: sizes of the input and output buffers. Once a callback has thrown, no byte is interpreted any more: they are
stored as long as there is room. -/
def CMachine.put (P : Platform) (p : Proto σ) (size room : Nat) (x : Byte) : Eff (CMachine × σ) Status := fun st =>
  match st.1.inp with
  | .pending l =>
    match Machine.putExact P p room x (⟨l, st.1.out⟩, st.2) with
    | .ret s (m, w) => .ret s (⟨.pending m.pending, m.out⟩, w)
    | .threw (_, w) => .threw (⟨.stuck (l.length + 1), []⟩, w)
    | .fault f => .fault f
  | .stuck n => if n < size then .ret .loading (⟨.stuck (n + 1), st.1.out⟩, st.2) else .fault .ibufOverrun

/-- Gives the next byte of the response, or 0. -/
def CMachine.get : Eff (CMachine × σ) Byte := fun st =>
  match st.1.out with
  | [] => .ret 0#8 st
  | x :: out => .ret x (⟨st.1.inp, out⟩, st.2)

/-- An elementary call. -/
def Io.runC (P : Platform) (p : Proto σ) (size room : Nat) : Io → Eff (CMachine × σ) Obs
  | .put x => CMachine.put P p size room x >>= fun st => pure (.status st)
  | .get => CMachine.get >>= fun x => pure (.byte x)
  | .isLoaded => fun st => .ret (.bool !st.1.out.isEmpty) st

/-- Successive calls, and what they return; `none` for a call which has thrown an exception, which has been caught. -/
def runCaught {ι τ : Type} (step : ι → Eff τ Obs) : List ι → Eff τ (List (Option Obs))
  | [] => pure []
  | op :: ops => fun st =>
    match step op st with
    | .ret o st' => (runCaught step ops >>= fun os => pure (some o :: os)) st'
    | .threw st' => (runCaught step ops >>= fun os => pure (none :: os)) st'
    | .fault f => .fault f

/-- Each byte is put once the response has been drained. -/
def DrainedCaught (P : Platform) : List Io → BState σ → Prop
  | [], _ => True
  | op :: ops, st =>
    ((∃ x, op = .put x) → st.1.isLoaded = false) ∧
      ∀ st', ((∃ o, op.run P st = .ret o st') ∨ op.run P st = .threw st') → DrainedCaught P ops st'

/-- The dispatcher stores and ignores `k` bytes (whatever the state of the world, which is left as is), and then writes out of its input buffer. -/
def Jammed (P : Platform) (b : Buf σ) (k : Nat) : Prop :=
  ∀ (w : σ) (xs : List Byte),
    (xs.length ≤ k → ∃ b', puts P xs (b, w) = .ret (List.replicate xs.length .loading) (b', w)) ∧
    (k < xs.length → puts P xs (b, w) = .fault .ibufOverrun)

end Upd.Spec
