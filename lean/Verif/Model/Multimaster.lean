import Verif.Model.Deferred

/-!
# Two devices which both initiate requests

The multimaster architecture (doc/caller.rst.in, "Non-blocking mode"): each device has a buffered dispatcher, calls the functions of the other one, and
replies to the calls of the other one with `buffered_dispatcher::reply`. The documentation gives no program; this one is made after
`buffered_dispatcher_DO_reply` (test/buffered_dispatcher.cpp:248-262). The devices are called `true` and `false`, and the one which is not `s` is `!s`.
-/

namespace Upd

variable {σ : Type}

/-- What both devices act on: the bytes which each of them has sent and which are not received yet, the actions which each of them keeps until the
replies come, and the rest of the world. -/
structure Bus (σ : Type) where
  sent : Bool → List Byte
  hooks : Bool → List (Action σ)
  rest : σ

/-- Replaces the component of `s`. -/
def atSide {α : Type} (g : Bool → α) (s : Bool) (a : α) : Bool → α := fun t => if t = s then a else g t

/-- The rest of the world. -/
def Bus.user : Lens (Bus σ) σ := ⟨fun w => w.rest, fun x w => { w with rest := x }⟩

/-- The device `s` sends a byte. -/
def Bus.send (s : Bool) (x : Byte) : Eff (Bus σ) Unit := fun w => .ret () { w with sent := atSide w.sent s (w.sent s ++ [x]) }

/-- One of the devices: its platform, the keyring of the functions which it provides, its dispatcher (`shared`: single buffered) and its functions;
`reply`: the one which receives the replies, whose parameter is an array of `n` bytes. -/
structure Station (σ : Type) where
  P : Platform
  K : Keyring
  f : Features
  shared : Bool
  defs : Nat → List Val → Eff σ (Option Val)
  reply : Nat
  n : Nat

/-- The function which receives the replies (test/buffered_dispatcher.cpp:24-25): it invokes the action which was kept. In the test, `reply_hook` is one
action, so that one call waits at a time; here, the actions are kept in a queue, and the oldest one is invoked. -/
def onReply (P : Platform) (s : Bool) (args : List Val) : Eff (Bus σ) (Option Val) := fun w =>
  match w.hooks s with
  | [] => .ret none w
  | a :: as => Eff.zoom Bus.user (replyFn P a args) { w with hooks := atSide w.hooks s as }

/-- The functions of the dispatcher of the device `s`. -/
def Station.table (A : Station σ) (s : Bool) (name : Nat) (args : List Val) : Eff (Bus σ) (Option Val) :=
  if name = A.reply then onReply A.P s args else Eff.zoom Bus.user (A.defs name args)

/-- A call to make: the name of the function, the arguments, the callback which is hooked. -/
abbrev Call (σ : Type) := Nat × List Val × Callback σ

/-- State of the system: the calls which each device has not begun, the dispatchers, and what both devices act on. -/
structure Masters (σ : Type) where
  todo : Bool → List (Call σ)
  disp : Bool → Buf (Bus σ)
  bus : Bus σ

/-- The steps. -/
inductive MasterStep where
  | call (s : Bool)
  | receive (s : Bool)
  deriving DecidableEq

/-- A step: `none` if it is not possible in this state. `when`: condition under which the program replies, once a packet is resolved.

* `call s`: the device `s` sends the request (include/upd/detail/serialized_message.hpp:32-36), and keeps the action (include/upd/key.hpp:138-141) if
  the function returns something;
* `receive s`: the device `s` puts a byte (include/upd/buffered_dispatcher.hpp:130-158) and, if it resolves a packet, replies
  (include/upd/buffered_dispatcher.hpp:234-247). -/
def Masters.step (Φ : Bool → Station σ) («when» : Buf (Bus σ) → Bool) : MasterStep → Masters σ → Option (Res (Masters σ) Unit)
  | .call s, S =>
    match S.todo s with
    | [] => none
    | (name, args, hook) :: todo =>
      match (Φ (!s)).K.get11 name with
      | none => some (.fault .illTyped)
      | some k =>
        match k.writeTo (Φ s).P args (Bus.send s) S.bus with
        | .fault f => some (.fault f)
        | .threw w => some (.threw { S with bus := w })
        | .ret _ w =>
          some (.ret () { S with
            todo := atSide S.todo s todo,
            bus := if k.sig.ret.isSome then { w with hooks := atSide w.hooks s (w.hooks s ++ [k.withHook hook]) } else w })
  | .receive s, S =>
    match S.bus.sent (!s) with
    | [] => none
    | x :: sent =>
      match Buf.put (Φ s).P x (S.disp s, { S.bus with sent := atSide S.bus.sent (!s) sent }) with
      | .fault f => some (.fault f)
      | .threw (b, w) => some (.threw { S with disp := atSide S.disp s b, bus := w })
      | .ret status (b, w) =>
        if status = .resolved ∧ «when» b = true then
          match (Φ (!s)).K.get11 (Φ (!s)).reply with
          | none => some (.fault .illTyped)
          | some kR =>
            match Buf.reply (Φ s).P kR (Φ (!s)).n (Bus.send s) (b, w) with
            | .fault f => some (.fault f)
            | .threw (b, w) => some (.threw { S with disp := atSide S.disp s b, bus := w })
            | .ret _ (b, w) => some (.ret () { S with disp := atSide S.disp s b, bus := w })
        else some (.ret () { S with disp := atSide S.disp s b, bus := w })

end Upd
