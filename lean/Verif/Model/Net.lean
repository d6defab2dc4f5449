import Verif.Model.Session

/-!
# Two devices which run at the same time

The caller of test/snippet/caller4 (blocking mode), and a callee which puts every byte it receives and sends the response as long as `is_loaded()`, run on
their own; bytes travel through two channels of limited capacity. One step is the transfer of one byte at one end, or a computation of the caller between
two transfers.
-/

namespace Upd

variable {σ : Type}

/-- What the caller is doing: nothing (it is about to make the next call), writing a request (the bytes which are left), or reading a response (the
bytes it has read so far). -/
inductive Phase where
  | idle
  | sending (k : Key) (left : List Byte)
  | receiving (k : Key) (got : List Byte)

/-- State of the system. -/
structure Net (σ : Type) where
  /-- calls which are not begun -/
  todo : List (Nat × List Val)
  phase : Phase
  /-- what the calls have returned -/
  results : List (Option Val)
  /-- bytes in transit to the callee -/
  up : List Byte
  /-- bytes in transit to the caller -/
  down : List Byte
  callee : Buf σ
  /-- what the functions of the callee act on -/
  world : σ

/-- The steps. -/
inductive NetStep where
  | call
  | send
  | listen
  | receive
  | finish
  | put
  | get
  deriving DecidableEq

/-- A getter which gives the bytes of a list. -/
def takeByte : Eff (List Byte) Byte := fun l =>
  match l with
  | [] => .fault .starved
  | x :: l => .ret x l

/-- A step: `none` if it is not possible in this state. `P`, `Q`: platforms of the caller and of the callee. `capUp`, `capDown`: capacity of the
channels.

* `call`: the caller evaluates `k(args...)` (include/upd/key.hpp:108-111).
* `send`: it writes the next byte (include/upd/detail/serialized_message.hpp:32-36); this waits for room in the channel.
* `listen`: `write_to` returns, and `read_from` is called (include/upd/key.hpp:121-131).
* `receive`: it reads a byte, when those which it has do not suffice; this waits for a byte in the channel.
* `finish`: `read_from` returns.
* `put`: the callee puts the next byte (include/upd/buffered_dispatcher.hpp:130-158).
* `get`: the callee sends a byte of the response, if there is one (include/upd/buffered_dispatcher.hpp:94-98, :179). -/
def Net.step (P Q : Platform) (K : Keyring) (capUp capDown : Nat) : NetStep → Net σ → Option (Res (Net σ) Unit)
  | .call, S =>
    match S.phase, S.todo with
    | .idle, (name, args) :: todo =>
      match K.get11 name with
      | none => some (.fault .illTyped)
      | some k =>
        match k.message P args with
        | .error f => some (.fault f)
        | .ok content => some (.ret () { S with todo := todo, phase := .sending k content })
    | _, _ => none
  | .send, S =>
    match S.phase with
    | .sending k (x :: left) =>
      if S.up.length < capUp then some (.ret () { S with phase := .sending k left, up := S.up ++ [x] }) else none
    | _ => none
  | .listen, S =>
    match S.phase with
    | .sending k [] => some (.ret () { S with phase := .receiving k [] })
    | _ => none
  | .receive, S =>
    match S.phase, S.down with
    | .receiving k got, x :: down =>
      match k.readFrom P takeByte got with
      | .fault .starved => some (.ret () { S with phase := .receiving k (got ++ [x]), down := down })
      | _ => none
    | _, _ => none
  | .finish, S =>
    match S.phase with
    | .receiving k got =>
      match k.readFrom P takeByte got with
      | .fault .starved => none
      | .fault f => some (.fault f)
      | .threw _ => some (.threw S)
      | .ret r _ => some (.ret () { S with phase := .idle, results := S.results ++ [r] })
    | _ => none
  | .put, S =>
    match S.up with
    | [] => none
    | x :: up =>
      match Buf.put Q x (S.callee, S.world) with
      | .fault f => some (.fault f)
      | .threw (b, w) => some (.threw { S with up := up, callee := b, world := w })
      | .ret _ (b, w) => some (.ret () { S with up := up, callee := b, world := w })
  | .get, S =>
    if S.callee.isLoaded = true ∧ S.down.length < capDown then
      match Buf.get (S.callee, S.world) with
      | .fault f => some (.fault f)
      | .threw (b, w) => some (.threw { S with callee := b, world := w })
      | .ret x (b, w) => some (.ret () { S with down := S.down ++ [x], callee := b, world := w })
    else none

/-- The beginning: `calls` are to be made, and nothing is in transit. -/
def Net.start (calls : List (Nat × List Val)) (b : Buf σ) (w : σ) : Net σ := ⟨calls, .idle, [], [], [], b, w⟩

end Upd
