import Verif.Model.Dispatcher

/-!
# Actions replaced while a request is being processed

The array of actions is part of the state, so that callbacks, byte getters and byte putters can modify it.
-/

namespace Upd

variable {σ : Type}

/-- An action of a dispatcher: the number of the object which `action::m_concept_uptr` (include/upd/action.hpp:199) points to, whether the callback is a
member of this object, and the number of the callback. The callback is a member of the object if the action has been made from an rvalue, hence with `F`
not a reference in `action_model_impl<F, ...>` (include/upd/action.hpp:76-82, :157-160): lambda expressions and pointers to functions. Otherwise the member
is a reference to it: the functions of the keyring (include/upd/dispatcher.hpp:40-48, :60-62), functions and variables given to `replace` (:180-187). For
`no_storage_action` there is no such object, and the first two fields are not used. -/
structure Slot where
  obj : Nat
  own : Bool
  cb : Nat

/-- `m_actions.content` (include/upd/dispatcher.hpp:56-66, :199). Objects are numbered in the order of their creation; the objects alive are those of the
array, since each one has a single owner. -/
structure Slots where
  content : List Slot
  next : Nat

/-- `replace<Index>(ftor)` in its three forms (include/upd/dispatcher.hpp:154-187): a new object takes the place of the old one, which is destroyed by the
assignment of the `std::unique_ptr`. `c` is the number of the new callback, `own` says whether it is an rvalue. The `static_assert` require the signature
of the key. -/
def Slots.replace (t : Slots) (i : Nat) (own : Bool) (c : Nat) : Slots := ⟨t.content.set i ⟨t.next, own, c⟩, t.next + 1⟩

/-- Number of the callback of an action. -/
def Slots.callback (t : Slots) (i : Nat) : Option Nat := t.content[i]?.map (·.cb)

/-- The object number `n` has not been destroyed. -/
def Slots.alive (t : Slots) (n : Nat) : Bool := t.content.any (·.obj == n)

/-- Use of the callback: `UPD_FWD(m_impl.ftor)`, by `input_args.invoke` once the arguments have been read (include/upd/action.hpp:58, :68, :113), and then use
of its captures by the callback. The callback is in the object of the action if it is a member of it; a reference has been bound before the arguments are
read, to an object which is taken to outlive the dispatcher. For `no_storage_action`, the callback is a template parameter (:123-141). -/
def Slots.touch (f : Features) (x : Slot) : Eff (Slots × σ) Unit := fun w =>
  match f with
  | .weakReference => .ret () w
  | .any => if x.own = true ∧ w.1.alive x.obj = false then .fault .dangling else .ret () w

/-- `m_actions.content[index]` (include/upd/dispatcher.hpp:124). -/
def Slots.pick (index : Nat) : Eff (Slots × σ) Slot := fun w =>
  match w.1.content[index]? with
  | some x => .ret x w
  | none => .fault .oobRead

/-- Invocation of an action (include/upd/action.hpp:53-69, :113, :122-141, :176-179, :221-223): what is read from the object of the action before the
arguments are read is given by `slot`. `body c captures args` is the call of the callback `c`, which runs `captures` where it uses its captures. After the
call of the callback, only the returned value and `dest` are used. -/
def Slots.invoke (P : Platform) (f : Features) (e : Endian) (s : Mode) (g : Sig) (body : Nat → Eff (Slots × σ) Unit → List Val → Eff (Slots × σ) (Option Val))
    (slot : Slot) (src : Eff (Slots × σ) Byte) (dest : Byte → Eff (Slots × σ) Unit) : Eff (Slots × σ) Unit := do
  let inputArgs ← Tuple.readFrom P e s g.params src
  let invocation ← Eff.lift ((Tuple.self e s g.params).invoke P (body slot.cb (Slots.touch f slot)) inputArgs)
  Slots.touch f slot
  let r ← invocation
  match g.ret, r with
  | none, none => pure ()
  | some t, some v => insert P e s t v dest
  | _, _ => Eff.lift (.error .illTyped)

/-- `dispatcher::operator()(src, dest)` (include/upd/dispatcher.hpp:119-127). `body` gives the definitions of the callbacks: they may modify the actions,
and run the dispatcher. -/
def Slots.run (P : Platform) (K : Keyring) (f : Features) (body : Nat → Eff (Slots × σ) Unit → List Val → Eff (Slots × σ) (Option Val)) (src : Eff (Slots × σ) Byte)
    (dest : Byte → Eff (Slots × σ) Unit) : Eff (Slots × σ) Nat := do
  let index ← (Dispatcher.make (σ := σ) K f fun _ _ => Eff.lift (.error .illTyped)).getIndex P src
  if index < K.size then do
    let slot ← Slots.pick index
    let d ← Eff.lift (match K.decls[index]? with | some d => .ok d | none => .error .oobRead)
    Slots.invoke P f K.e K.s d.sig body slot src dest
    pure index
  else pure index

end Upd
