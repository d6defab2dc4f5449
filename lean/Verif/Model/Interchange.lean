import Verif.Model.Replace

/-!
# Programs which can be written with either kind of dispatcher

Both kinds of dispatchers have `operator()(src, dest)` and `replace`: a program which processes packets as a whole may be written with either kind.
-/

namespace Upd

variable {σ : Type}

/-- The program of a device: it ends (`done`), does something else (`act`), lets the dispatcher process a packet (`serve`; it then knows whether the index of the packet was valid), or
replaces a callback by an object or by a function. -/
inductive ServeProg (σ : Type) where
  | done (r : Option Val)
  | act (x : Eff σ (Option Val)) (next : Option Val → ServeProg σ)
  | serve (src : Eff σ Byte) (dest : Byte → Eff σ Unit) (next : Bool → ServeProg σ)
  | replace (i : Nat) (cb : Callback σ) (next : ServeProg σ)
  | replaceStatic (i : Nat) (cb : Callback σ) (next : ServeProg σ)

/-- The program, with an unbuffered dispatcher: `dispatcher(src, dest)` (include/upd/dispatcher.hpp:119-127) returns the index, compared with `size` (:95-96); `replace` (:154-161, :180-187). -/
def ServeProg.unbuffered (P : Platform) : ServeProg σ → Eff (Dispatcher σ × σ) (Option Val)
  | .done r => pure r
  | .act x next => fun st =>
    match x st.2 with
    | .ret r w => ServeProg.unbuffered P (next r) (st.1, w)
    | .threw w => .threw (st.1, w)
    | .fault f => .fault f
  | .serve src dest next => fun st =>
    match st.1.run P (Lens.whole σ) src dest st.2 with
    | .ret i w => ServeProg.unbuffered P (next (decide (i < st.1.size))) (st.1, w)
    | .threw w => .threw (st.1, w)
    | .fault f => .fault f
  | .replace i cb next => fun st => ServeProg.unbuffered P next (st.1.replace i cb, st.2)
  | .replaceStatic i cb next => fun st => ServeProg.unbuffered P next (st.1.replaceStatic i cb, st.2)

/-- The program, with a buffered dispatcher: `dispatcher(src, dest)` (include/upd/buffered_dispatcher.hpp:197-203) returns the status, compared with `RESOLVED_PACKET`; `replace` (:182-185, :207-217). -/
def ServeProg.buffered (P : Platform) : ServeProg σ → Eff (BState σ) (Option Val)
  | .done r => pure r
  | .act x next => fun st =>
    match x st.2 with
    | .ret r w => ServeProg.buffered P (next r) (st.1, w)
    | .threw w => .threw (st.1, w)
    | .fault f => .fault f
  | .serve src dest next => fun st =>
    match Buf.process P src dest st with
    | .ret status st => ServeProg.buffered P (next (status == .resolved)) st
    | .threw st => .threw st
    | .fault f => .fault f
  | .replace i cb next => fun st => ServeProg.buffered P next (st.1.replace i cb, st.2)
  | .replaceStatic i cb next => fun st => ServeProg.buffered P next (st.1.replaceStatic i cb, st.2)

end Upd
