import Verif.Model.Ownership
import Verif.Model.Category
import Verif.Model.Dispatcher

/-!
# Model of include/upd/detail/type_traits/signature.hpp and of the compile-time checks made with it

Which callbacks and which byte streams compile. `true` and `some` stand for well-formed, `false` and `none` for a program which does not compile.
-/

namespace Upd.Cpp

/-- The version of the language (`__cplusplus`). -/
inductive Standard where
  | cpp11
  | cpp14
  | cpp17
  deriving DecidableEq, Repr

/-- `noexcept` is part of the type of a function since C++17 ([dcl.fct]): `R (*)(Args...)` does not match `R (*)(Args...) noexcept`. -/
def Standard.noexceptInType : Standard → Bool
  | .cpp17 => true
  | _ => false

/-- The types which values have, left abstract: `byte_t` (include/upd/type.hpp:12), `void` and `std::is_convertible`, of which [meta.rel] says that nothing
but `void` is convertible to `void`. -/
structure Types where
  T : Type
  byte : T
  void : T
  conv : T → T → Bool
  conv_refl : ∀ t, conv t t = true
  conv_void : ∀ t, conv t void = true → t = void

/-- A function type `R(Args...)`. -/
structure Fn (T : Type) where
  ret : T
  params : List T
  deriving DecidableEq

/-- A member function `operator()`: its cv-qualifiers, its ref-qualifier, its exception specification, its signature. -/
structure Member (T : Type) where
  isConst : Bool
  isVolatile : Bool
  ref : RefQual
  isNoexcept : Bool
  sig : Fn T

/-- The types of the objects and functions given to the library. Simplifications: `operator()` templates (generic lambdas) and variadic functions (`...`) are not
modelled; objects are not volatile. -/
inductive CTy (T : Type) where
  /-- a function type -/
  | fn (isNoexcept : Bool) (sig : Fn T)
  /-- a class type, const or not, with all its `operator()` -/
  | cls (isConst : Bool) (calls : List (Member T))
  | ptr (t : CTy T)
  | lref (t : CTy T)
  | rref (t : CTy T)
  /-- any other type, e.g. `int` -/
  | other

variable {T : Type}

/-- `std::remove_reference`. -/
def CTy.removeRef : CTy T → CTy T
  | .lref t => t
  | .rref t => t
  | t => t

/-- `std::remove_pointer`. -/
def CTy.removePtr : CTy T → CTy T
  | .ptr t => t
  | t => t

/-- `std::decay`: removes the reference, turns a function into a pointer, removes `const`. -/
def CTy.decay (t : CTy T) : CTy T :=
  match t.removeRef with
  | .fn n g => .ptr (.fn n g)
  | .cls _ calls => .cls false calls
  | t => t

/-- The partial specialisations for pointers to member functions (include/upd/detail/type_traits/signature.hpp:48-71): their qualifiers, as
const, volatile and ref-qualifier. -/
def specialisations : List (Bool × Bool × RefQual) :=
  [(false, false, .unqualified), (true, false, .unqualified), (false, true, .unqualified), (true, true, .unqualified),
   (false, false, .lvalue), (true, false, .lvalue), (false, true, .lvalue), (true, true, .lvalue),
   (false, false, .rvalue), (true, false, .rvalue), (false, true, .rvalue), (true, true, .rvalue)]

/-- `examine_invocable<F>` (include/upd/detail/type_traits/signature.hpp:22-81): the signature, or `none` for `no_signature`. A pointer to a function matches
:47; a class with exactly one `operator()` is examined through `decltype(&F::operator())` (:39-45), which must match one of :48-71; otherwise
`try_get_call_member` gives `no_signature` (:41-42, :72-73). A type with `noexcept` in it matches none of the specialisations. -/
def examine (std : Standard) (F : CTy T) : Option (Fn T) :=
  match F.decay with
  | .ptr (.fn n g) => if std.noexceptInType && n then none else some g
  | .cls _ [m] =>
    if std.noexceptInType && m.isNoexcept then none
    else if (m.isConst, m.isVolatile, m.ref) ∈ specialisations then some m.sig else none
  | _ => none

/-- `is_invocable<F>` (include/upd/detail/type_traits/signature.hpp:91-98). -/
def isInvocable (std : Standard) (F : CTy T) : Bool := (examine std F).isSome

/-- A member function can be called on an object expression which is const or not, and of the given value category (C++14 [over.match.funcs]/4-5;
a `const &` member function is viable on an rvalue). -/
def Member.admits (m : Member T) (isConst : Bool) (c : Category) : Bool :=
  (!isConst || m.isConst) &&
  match m.ref with
  | .unqualified => true
  | .lvalue => c == .lvalue || (m.isConst && !m.isVolatile)
  | .rvalue => c == .rvalue

/-- The arguments are convertible to the parameters. -/
def argsOk (conv : T → T → Bool) : List T → List T → Bool
  | [], [] => true
  | a :: as, p :: ps => conv a p && argsOk conv as ps
  | _, _ => false

/-- The type of `obj(args...)`, where `obj` is an expression of a class type. Simplification: if several `operator()` are viable the call is ill-formed (conversion
sequences are not ranked). -/
def callObj (conv : T → T → Bool) (calls : List (Member T)) (isConst : Bool) (c : Category) (args : List T) : Option T :=
  match calls.filter fun m => m.admits isConst c && argsOk conv args m.sig.params with
  | [m] => some m.sig.ret
  | _ => none

/-- The type of `std::declval<F>()(args...)`; an expression of type `F` which is not an lvalue reference is an rvalue. -/
def callRet (conv : T → T → Bool) (F : CTy T) (args : List T) : Option T :=
  match F.removeRef with
  | .fn _ g => if argsOk conv args g.params then some g.ret else none
  | .ptr (.fn _ g) => if argsOk conv args g.params then some g.ret else none
  | .cls k calls =>
    match F with
    | .lref _ => callObj conv calls k .lvalue args
    | _ => callObj conv calls k .rvalue args
  | _ => none

/-- `has_signature<F, R(Args...)>` (include/upd/detail/type_traits/signature.hpp:130-143). -/
def hasSignature (conv : T → T → Bool) (F : CTy T) (g : Fn T) : Bool :=
  match callRet conv F g.params with
  | some r => conv r g.ret
  | none => false

/-! ## Byte streams -/

/-- `require_input_invocable` (include/upd/detail/type_traits/require.hpp:74-75). -/
def inputInvocable (Y : Types) (F : CTy Y.T) : Bool := hasSignature Y.conv F ⟨Y.byte, []⟩

/-- `require_output_invocable` (include/upd/detail/type_traits/require.hpp:78-79). -/
def outputInvocable (Y : Types) (F : CTy Y.T) : Bool := hasSignature Y.conv F ⟨Y.void, [Y.byte]⟩

/-- `key::read_from(src)` compiles, for a signature which does not return `void` (include/upd/key.hpp:121-128); `Src` is deduced as `F`. `UPD_FWD(src)()` is the expression which the requirement
examines. -/
def keyReads (Y : Types) (F : CTy Y.T) : Bool := inputInvocable Y F

/-- `key(args...).write_to(insert_byte)` compiles (include/upd/detail/serialized_message.hpp:32-36): `insert_byte` is called as an lvalue. -/
def messageWrites (Y : Types) (F : CTy Y.T) : Bool :=
  outputInvocable Y F && (callRet Y.conv (.lref F.removeRef) [Y.byte]).isSome

/-- `make_function_reference(ftor)` (include/upd/detail/function_reference.hpp:65-68) converts to `abstract_function<R(Args...)> &&`: `function_reference<F>` derives
from the `abstract_function` of the signature which has been deduced (:56-60, :40-49, :23-26), and calls `ftor` as an lvalue (:45). -/
def ErasesTo (std : Standard) (conv : T → T → Bool) (F : CTy T) (g : Fn T) : Prop :=
  examine std F = some g ∧ hasSignature conv (.lref F) g = true

/-- An `action`, a `no_storage_action` or a `dispatcher` invoked on a byte getter compiles (include/upd/action.hpp:175-179, :220-223, with `src_t`, :28;
include/upd/dispatcher.hpp:119-127 and :141-149, where `src` is first called as an lvalue); `Src` is deduced as `F`. -/
def ActionReads (Y : Types) (std : Standard) (F : CTy Y.T) : Prop :=
  inputInvocable Y F = true ∧ ErasesTo std Y.conv F.removeRef ⟨Y.byte, []⟩

/-- The same for a byte putter (`dest_t`, include/upd/action.hpp:31). -/
def ActionWrites (Y : Types) (std : Standard) (F : CTy Y.T) : Prop :=
  outputInvocable Y F = true ∧ ErasesTo std Y.conv F.removeRef ⟨Y.void, [Y.byte]⟩

/-! ## Callbacks. `F` is the type of a callback with static storage duration, of which the library gets the address: `unevaluated<F *, &Ftor>`
(`UPD_CTREF`, include/upd/unevaluated.hpp:7-8; `flist`, include/upd/typelist.hpp:44-45). -/

/-- The `static_assert` of `flist_t` (include/upd/typelist.hpp:30-33); `decltype(*Functions)` is always an lvalue reference. -/
def flistAccepts (std : Standard) (F : CTy T) : Bool := isInvocable std (.lref F)

/-- An element of `keyring::signatures_t` (include/upd/keyring.hpp:49): `signature_t<F *>`. -/
def ringSig (std : Standard) (F : CTy T) : Option (Fn T) := examine std (.ptr F)

/-- The signature of the key of the callback (`key_t`, include/upd/keyring.hpp:56-61): that of `remove_pointer<F *>`; a function type `R(Args...)` selects the specialisation
include/upd/key.hpp:67-70, anything else :21-24. -/
def keySig (std : Standard) (F : CTy T) : Option (Fn T) :=
  match (CTy.ptr F).removePtr with
  | .fn n g => if std.noexceptInType && n then examine std (.fn n g) else some g
  | F => examine std F

/-- A dispatcher can be built from a keyring with the callback (include/upd/dispatcher.hpp:30-48, :59-66). With `ANY`, `action{Ftor, ...}` deduces the type of the pointer
`Ftor` and requires it to be invocable (include/upd/action.hpp:158). With `WEAK_REFERENCE`, `no_storage_action` uses `parameters_size<F *>`, `return_type_size<F *>` and
`input_tuple<F *>` (include/upd/action.hpp:214-217, :122-141), which need the signature of the pointer type (include/upd/detail/type_traits/signature.hpp:104-107;
input_tuple.hpp:13-24). In both cases the pointer is called like a function. -/
def dispatcherAccepts (std : Standard) (f : Features) (F : CTy T) : Bool :=
  match f with
  | .any => isInvocable std (.ptr F)
  | .weakReference => (examine std (.ptr F)).isSome

/-- The object can be called as an lvalue, whatever the arguments (a function and a pointer to a function always can). -/
def lvalueCallable : CTy T → Bool
  | .fn _ _ => true
  | .ptr (.fn _ _) => true
  | .cls k calls => calls.any fun m => m.admits k .lvalue
  | _ => false

/-- `dispatcher::replace<Index, Ftor>()` compiles (include/upd/dispatcher.hpp:167-174, :154-161): `slot` is the signature of the slot, `decltype(Ftor) &` an lvalue
reference. The action is then built from the reference (`action{Ftor, ...}`, include/upd/action.hpp:158-160, or `no_storage_action`, :214-217) and calls `Ftor` as an lvalue. -/
def ReplaceAccepts (std : Standard) (slot : Option (Fn T)) (F : CTy T) : Prop :=
  slot = examine std (.lref F) ∧ isInvocable std (.lref F) = true ∧ lvalueCallable F = true

end Upd.Cpp
