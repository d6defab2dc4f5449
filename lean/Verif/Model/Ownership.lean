import Verif.Model.Action

/-!
# Which callback object an action calls (include/upd/action.hpp)

In `Verif.Model.Action`, the callback of an action acts on an arbitrary world. Here the world contains the callback object given to the constructor
of the action, and the one which is a data member of the action, if any.
-/

namespace Upd

variable {S σ : Type}

/-- A class of callback objects whose states are in `S`: `operator()` may modify the object; `moved` is the state left in an object by the move
constructor of the class (the copy constructor for classes which are not movable). -/
structure Functor (S σ : Type) where
  sig : Sig
  app : List Val → Eff (S × σ) (Option Val)
  moved : S → S

/-- What the program holds: the object `var` given to the constructor of the action (`none` once its lifetime has ended), the data member
`action_model_impl::ftor` if it is an object (include/upd/action.hpp:81), and the rest of the world. -/
structure Owning (S σ : Type) where
  var : Option S
  own : Option S
  rest : σ

/-- Value category of the argument given to the constructor of the action. -/
inductive Category where
  | lvalue
  | rvalue
  deriving DecidableEq, Repr

/-- `action(F &&ftor, ...)` (include/upd/action.hpp:158-160), `action_model(F &&ftor)` (:108), `action_model_impl(F &&ftor) : ftor{UPD_FWD(ftor)}`
(:79): if the argument is an lvalue of type `T`, `F` is `T &` and the data member `F ftor` is a reference to it; otherwise `F` is `T` and the data
member is move-constructed. Also `key::with_hook` (include/upd/key.hpp:138-141) and `dispatcher::replace` (include/upd/dispatcher.hpp:180-187),
which forward their argument. -/
def Functor.store (F : Functor S σ) (cat : Category) (st : Owning S σ) : M (Owning S σ) :=
  match st.var with
  | none => .error .dangling
  | some s =>
    match cat with
    | .lvalue => .ok st
    | .rvalue => .ok { st with var := some (F.moved s), own := some s }

/-- `UPD_FWD(m_impl.ftor)(args...)` (include/upd/action.hpp:113, :58, :68, include/upd/tuple.hpp:184): calls the object which `ftor` is, or refers
to. -/
def Functor.stored (F : Functor S σ) (cat : Category) : Callback (Owning S σ) where
  sig := F.sig
  fn args st :=
    match cat with
    | .lvalue =>
      match st.var with
      | none => .fault .dangling
      | some s =>
        match F.app args (s, st.rest) with
        | .ret r (s, w) => .ret r { st with var := some s, rest := w }
        | .threw (s, w) => .threw { st with var := some s, rest := w }
        | .fault f => .fault f
    | .rvalue =>
      match st.own with
      | none => .fault .dangling
      | some s =>
        match F.app args (s, st.rest) with
        | .ret r (s, w) => .ret r { st with own := some s, rest := w }
        | .threw (s, w) => .threw { st with own := some s, rest := w }
        | .fault f => .fault f

/-- The action built from an object of class `F` given as an argument of category `cat`. -/
def Functor.action (F : Functor S σ) (cat : Category) (e : Endian) (s : Mode) : Action (Owning S σ) := .stored e s (F.stored cat)

end Upd
