import Verif.Model.Reentrant
import Verif.Spec.History

/-!
# What a callback gets from the buffered dispatcher which runs it (C87)

Does not refer to the code of the library, besides the sending of a key.
-/

namespace Upd.Spec

variable {σ : Type}

/-- Reads `room` + 1 bytes, the last of which overruns the input buffer. -/
def swallow {α : Type} (src : Eff σ Byte) : (room : Nat) → Eff σ α
  | 0 => do
    let _ ← src
    Eff.lift (.error .ibufOverrun)
  | room + 1 => do
    let _ ← src
    swallow src room

/-- What the callback does when `room` bytes of the input buffer are free: the bytes put are forgotten until the buffer is overrun, there is nothing to
get or to write, `read_from` overruns the buffer unless the getter throws, and `reply` sends unspecified bytes. -/
def flat (P : Platform) (room : Nat) : Prog σ → Eff σ (Option Val)
  | .done r => pure r
  | .look k => fun w => flat P room (k w) w
  | .step x k => do
    x
    flat P room k
  | .put _ k =>
    match room with
    | 0 => Eff.lift (.error .ibufOverrun)
    | room + 1 => flat P room (k .loading)
  | .get k => flat P room (k 0#8)
  | .isLoaded k => flat P room (k false)
  | .readFrom src _ => swallow src room
  | .writeTo _ k => flat P room k
  | .reply key n output k => do
    key.writeTo P [.arr ((P.junkBytes n).map fun x => .int x.toNat)] output
    flat P room (k true)

/-- The same as if nothing was ever put, and the buffer never overrun. -/
def deaf (P : Platform) : Prog σ → Eff σ (Option Val)
  | .done r => pure r
  | .look k => fun w => deaf P (k w) w
  | .step x k => do
    x
    deaf P k
  | .put _ k => deaf P (k .loading)
  | .get k => deaf P (k 0#8)
  | .isLoaded k => deaf P (k false)
  | .readFrom _ k => deaf P (k .loading)
  | .writeTo _ k => deaf P k
  | .reply key n output k => do
    key.writeTo P [.arr ((P.junkBytes n).map fun x => .int x.toNat)] output
    deaf P (k true)

/-- The callback gives no byte to the dispatcher. -/
inductive Quiet : Prog σ → Prop where
  | done (r : Option Val) : Quiet (.done r)
  | look {k : σ → Prog σ} (h : ∀ w, Quiet (k w)) : Quiet (.look k)
  | step (x : Eff σ Unit) {k : Prog σ} (h : Quiet k) : Quiet (.step x k)
  | get {k : Byte → Prog σ} (h : ∀ x, Quiet (k x)) : Quiet (.get k)
  | isLoaded {k : Bool → Prog σ} (h : ∀ x, Quiet (k x)) : Quiet (.isLoaded k)
  | writeTo (dest : Byte → Eff σ Unit) {k : Prog σ} (h : Quiet k) : Quiet (.writeTo dest k)
  | reply (key : Key) (n : Nat) (output : Byte → Eff σ Unit) {k : Bool → Prog σ} (h : ∀ x, Quiet (k x)) : Quiet (.reply key n output k)

/-- An elementary call on a buffered dispatcher whose callbacks use it. -/
def Io.runR (P : Platform) (K : Keyring) (f : Features) (defs : Nat → List Val → Prog σ) (depth : Nat) : Io → Eff (BState σ) Obs
  | .put x => Buf.putR P K f defs depth x >>= fun st => pure (.status st)
  | .get => Buf.get >>= fun x => pure (.byte x)
  | .isLoaded => fun st => .ret (.bool st.1.isLoaded) st

/-- `room name` is the number of bytes of the input buffer which a request to the function `name` leaves free. -/
def Leaves (K : Keyring) (room : Nat → Nat) : Prop :=
  ∀ d ∈ K.decls, K.idxBytes + wireSizes d.sig.params + room d.name = neededInput K

end Upd.Spec
