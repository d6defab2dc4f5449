import Verif.Spec.Stream
import Verif.Model.Buffered

/-!
# Abstract machine for buffered dispatchers

Two queues (the bytes of the packet being received, the bytes of the response not read yet) and the world. Does not refer to the
code of the library, besides the type of effects and the callbacks.
-/

namespace Upd.Spec

variable {σ : Type}

/-- What the two ends agree on: format, width of the indices, callbacks by index. -/
structure Proto (σ : Type) where
  e : Endian
  s : Mode
  idxBytes : Nat
  cbs : List (Callback σ)

/-- What a sequence of bytes, the beginning of a packet, is: `more` bytes are needed, or the index is invalid (`bad`), or it is a whole
request. -/
inductive Cut (σ : Type) where
  | more
  | bad
  | request (cb : Callback σ) (args : List Byte)

/-- Interpretation of the bytes received since the end of the last packet. -/
def Proto.classify (p : Proto σ) (pending : List Byte) : Cut σ :=
  if pending.length < p.idxBytes then .more
  else
    match p.cbs[wireValue p.e (pending.take p.idxBytes)]? with
    | none => .bad
    | some cb =>
      if pending.length < p.idxBytes + wireSizes cb.sig.params then .more
      else .request cb (pending.drop p.idxBytes)

/-- State of the machine. -/
structure Machine where
  pending : List Byte
  out : List Byte

/-- Initial state. -/
def Machine.init : Machine := ⟨[], []⟩

/-- Receives a byte. When it completes a request, the callback is called on the values that the bytes stand for, and the response
replaces what was left of the previous one. (If the callback throws, so does `put`; what the machine is after that is not
specified, see C51.) -/
def Machine.put (p : Proto σ) (x : Byte) : Eff (Machine × σ) Status := fun st =>
  let pending := st.1.pending ++ [x]
  match p.classify pending with
  | .more => .ret .loading (⟨pending, st.1.out⟩, st.2)
  | .bad => .ret .dropped (⟨[], st.1.out⟩, st.2)
  | .request cb args =>
    match cb.fn (unwires p.e p.s cb.sig.params args) st.2 with
    | .ret r w => .ret .resolved (⟨[], response p.e p.s cb.sig.ret r⟩, w)
    | .threw w => .threw (⟨[], []⟩, w)
    | .fault f => .fault f

/-- Gives the next byte of the response, or 0. -/
def Machine.get : Eff (Machine × σ) Byte := fun st =>
  match st.1.out with
  | [] => .ret 0#8 st
  | x :: out => .ret x (⟨st.1.pending, out⟩, st.2)

/-- Whether a byte of the response remains. -/
def Machine.isLoaded (m : Machine) : Bool := !m.out.isEmpty

/-- `out` is what remains to be read in the output buffer of `b`. -/
structure Unread (b : Buf σ) (out : List Byte) : Prop where
  bottom : b.obufNext + out.length = b.obufBottom
  le : b.obufBottom ≤ b.out.length
  bytes : slice b.out b.obufNext out.length = out

end Upd.Spec
