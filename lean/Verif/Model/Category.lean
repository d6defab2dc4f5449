import Verif.Model.Ownership

/-!
# As what value category an action calls its callback object (include/upd/action.hpp)

A class given to the library has exactly one `operator()`: the signature is that of `&F::operator()`, which is ill-formed if it is overloaded
(include/upd/detail/type_traits/signature.hpp:39-42, :77). It may have a ref-qualifier (:59-73). The library calls `UPD_FWD(m_impl.ftor)(args...)`.
-/

namespace Upd

variable {S σ : Type}

/-- The ref-qualifier of `operator()` (include/upd/detail/type_traits/signature.hpp:51-73). `const` and `volatile` are not modelled. -/
inductive RefQual where
  | unqualified
  | lvalue
  | rvalue
  deriving DecidableEq

/-- A call on an object expression of the given value category compiles (C++14 [over.match.funcs]/5: an lvalue does not bind to a `&&` member function, nor an rvalue to a `&` one). -/
def RefQual.admits : RefQual → Category → Bool
  | .unqualified, _ => true
  | .lvalue, c => c == .lvalue
  | .rvalue, c => c == .rvalue

/-- A class of callback objects whose states are in `S`: what its `operator()` does to the object and to the world. -/
structure QualFunctor (S σ : Type) where
  sig : Sig
  qual : RefQual
  op : List Val → Eff (S × σ) (Option Val)

/-- Value category of the callback object when the action calls it, according to that of the argument of the constructor. If it was an rvalue, the data
member `F ftor` is an object (include/upd/action.hpp:81); if it was an lvalue, `F` is a reference type. `UPD_FWD(m_impl.ftor)` (include/upd/action.hpp:113) is `static_cast<decltype(m_impl.ftor) &&>(m_impl.ftor)` (include/upd/upd.hpp:5): an rvalue if
`F` is not a reference type, even if the action is itself an lvalue. It is forwarded (include/upd/action.hpp:58, :68, include/upd/tuple.hpp:162) and
called (include/upd/tuple.hpp:184) as such. -/
def Category.ofCall : (given : Category) → Category
  | .rvalue => .rvalue
  | .lvalue => .lvalue

/-- The action built from the callback object, which belongs to the world; `none` if it does not compile. -/
def QualFunctor.action (F : QualFunctor S σ) (g : Category) (e : Endian) (s : Mode) : Option (Action (S × σ)) :=
  if F.qual.admits g.ofCall then some (.stored e s ⟨F.sig, F.op⟩) else none

end Upd
