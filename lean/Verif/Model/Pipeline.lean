import Verif.Model.Net

/-!
# A caller which does not wait for the responses

Same devices as in `Model/Net.lean`, except that the caller is made of two tasks: one which writes the requests one after the other, and one which reads
the responses, in the order of the requests. Nothing in the repository forbids it: `key::operator()`, `write_to` and `read_from`
(include/upd/key.hpp:108-131, include/upd/detail/serialized_message.hpp:26-36) keep no state between the request and the response.
-/

namespace Upd

variable {σ : Type}

/-- State of the system. -/
structure Pipe (σ : Type) where
  /-- calls which are not begun -/
  todo : List (Nat × List Val)
  /-- bytes of the request which is being written -/
  sending : List Byte
  /-- keys of the calls which are begun and have not returned -/
  awaiting : List Key
  /-- bytes read, of the response to the first of them -/
  got : List Byte
  /-- what the calls have returned -/
  results : List (Option Val)
  /-- bytes in transit to the callee -/
  up : List Byte
  /-- bytes in transit to the caller -/
  down : List Byte
  callee : Buf σ
  /-- what the functions of the callee act on -/
  world : σ

/-- The steps. -/
inductive PipeStep where
  | call
  | send
  | receive
  | finish
  | put
  | get
  deriving DecidableEq

/-- How the devices behave.

* `late`: the caller reads the first response once it has written the last request; otherwise both tasks run at the same time.
* `drain`: the callee puts no byte while `is_loaded()` (as advised in include/upd/buffered_dispatcher.hpp:58-60, and as `operator()` does, :199-201);
  otherwise it puts each byte as soon as it can. -/
structure Discipline where
  late : Bool
  drain : Bool

/-- Whether the caller may read: always, or when it has written everything. -/
def Pipe.mayRead (D : Discipline) (S : Pipe σ) : Bool := !D.late || (S.todo.isEmpty && S.sending.isEmpty)

/-- A step: `none` if it is not possible in this state. Parameters and steps are those of `Net.step`, except that `call` is possible as soon as the
previous request is written, and `receive` and `finish` are those of the first call which has not returned (there is no `listen`).

* `call`: include/upd/key.hpp:108-111
* `send`: include/upd/detail/serialized_message.hpp:32-36
* `receive`, `finish`: include/upd/key.hpp:121-131
* `put`: include/upd/buffered_dispatcher.hpp:130-158
* `get`: include/upd/buffered_dispatcher.hpp:94-98, :179 -/
def Pipe.step (P Q : Platform) (K : Keyring) (D : Discipline) (capUp capDown : Nat) : PipeStep → Pipe σ → Option (Res (Pipe σ) Unit)
  | .call, S =>
    match S.sending, S.todo with
    | [], (name, args) :: todo =>
      match K.get11 name with
      | none => some (.fault .illTyped)
      | some k =>
        match k.message P args with
        | .error f => some (.fault f)
        | .ok content => some (.ret () { S with todo := todo, sending := content, awaiting := S.awaiting ++ [k] })
    | _, _ => none
  | .send, S =>
    match S.sending with
    | x :: left => if S.up.length < capUp then some (.ret () { S with sending := left, up := S.up ++ [x] }) else none
    | [] => none
  | .receive, S =>
    match S.awaiting, S.down with
    | k :: _, x :: down =>
      if S.mayRead D = true then
        match k.readFrom P takeByte S.got with
        | .fault .starved => some (.ret () { S with got := S.got ++ [x], down := down })
        | _ => none
      else none
    | _, _ => none
  | .finish, S =>
    match S.awaiting with
    | k :: ks =>
      if S.mayRead D = true then
        match k.readFrom P takeByte S.got with
        | .fault .starved => none
        | .fault f => some (.fault f)
        | .threw _ => some (.threw S)
        | .ret r _ => some (.ret () { S with awaiting := ks, got := [], results := S.results ++ [r] })
      else none
    | [] => none
  | .put, S =>
    match S.up with
    | [] => none
    | x :: up =>
      if D.drain = true ∧ S.callee.isLoaded = true then none
      else
        match Buf.put Q x (S.callee, S.world) with
        | .fault f => some (.fault f)
        | .threw (b, w) => some (.threw { S with up := up, callee := b, world := w })
        | .ret _ (b, w) => some (.ret () { S with up := up, callee := b, world := w })
  | .get, S =>
    if S.callee.isLoaded = true ∧ S.down.length < capDown then
      match Buf.get (S.callee, S.world) with
      | .fault f => some (.fault f)
      | .threw (b, w) => some (.threw { S with callee := b, world := w })
      | .ret x (b, w) => some (.ret () { S with down := S.down ++ [x], callee := b, world := w })
    else none

/-- The beginning: `calls` are to be made, and nothing is in transit. -/
def Pipe.start (calls : List (Nat × List Val)) (b : Buf σ) (w : σ) : Pipe σ := ⟨calls, [], [], [], [], [], [], b, w⟩

end Upd
