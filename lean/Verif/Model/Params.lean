import Verif.Model.Category
import Verif.Model.Ownership
import Verif.Model.Dispatcher

/-!
# Which types of parameters and results compile

`write_as`, `read_as`, `tuple`, `key`, `action` and `no_storage_action` seen by the compiler: a proposition below holds if the template can be instantiated,
including the bodies of the functions which are used.
-/

namespace Upd.Cpp

/-- The types of objects. Simplifications: arrays have at least one element; volatile types, `std::array` of const elements, classes which cannot be copied or assigned are left out. -/
inductive VTy where
  /-- an arithmetic type (`std::is_unsigned` or `std::is_signed` holds: integers, `bool`, characters, `float`, `double`) -/
  | arith (id : Nat)
  /-- a class with a `upd_extension`: whether it has a default constructor, types of the parameters of `unserialize` (which are taken by value: the `static_assert` of
  `tuple_base` refuses references, include/upd/tuple.hpp:86-89) -/
  | user (id : Nat) (dflt : Bool) (fields : List VTy)
  /-- `T[N]` -/
  | carr (t : VTy) (n : Nat)
  /-- `std::array<T, N>` -/
  | sarr (t : VTy) (n : Nat)
  /-- any other type: pointers, enumerations, classes without extension (`tuple` among them) -/
  | other (id : Nat)

/-- The type is an array `T[N]`. -/
def VTy.IsCArr : VTy → Prop
  | .carr _ _ => True
  | _ => False

/-- `detail::is_serializable<T>` (include/upd/detail/serialization.hpp:182-190): an overload of `read_as` is declared for the type (:59-93); the bodies are not looked at. `write_as(x, nullptr)` is always
declared, by the overload for iterators (:150-157): `std::nullptr_t` is not a pointer type. -/
def VTy.Declared : VTy → Prop
  | .other _ => False
  | _ => True

/-- The type returned by `read_as<T>` (include/upd/detail/serialization.hpp:34-45, :59-93): `std::array<T, N>` for `T[N]`. -/
def VTy.readTy : VTy → VTy
  | .carr t n => .sarr t n
  | t => t

/-- The overload of `read_as` or `write_as` which accepts the type, numbered in the order of the declarations (include/upd/detail/serialization.hpp:59-86, :127-149): unsigned, signed, arrays, extended classes.
`none`: there is none. -/
def VTy.overload : VTy → Option Nat
  | .arith _ => some 1
  | .carr _ _ => some 2
  | .sarr _ _ => some 2
  | .user _ _ _ => some 3
  | .other _ => none

/-- The body of the `k`th overload finds the overload for the type: those declared up to it are found. Argument-dependent lookup does not look into `upd::detail`, as the arguments are bytes or objects of the user
(C++14 [temp.dep.candidate]). -/
def VTy.Found (t : VTy) (k : Nat) : Prop := ∃ i, t.overload = some i ∧ i ≤ k

mutual
/-- `write_as<E, S>(x, ptr)` compiles for an object of this type (include/upd/detail/serialization.hpp:127-149). The overload for arrays, the second one, looks for that of the elements (:137-143). For an extended class, the view over its fields has to be a valid type (:144-149; include/upd/tuple.hpp:86-93)
and `serialize`, which is written by the user, is taken to set all the fields. -/
def VTy.Writes : VTy → Prop
  | .arith _ => True
  | .user _ _ fs => VTy.WritesAll fs
  | .carr t _ => t.Writes ∧ t.Found 2
  | .sarr t _ => t.Writes ∧ t.Found 2
  | .other _ => False

/-- The same for each type of a list, which must be accepted by the `static_assert` of `tuple_base` (include/upd/tuple.hpp:91-93) as well. -/
def VTy.WritesAll : List VTy → Prop
  | [] => True
  | t :: ts => (t.Declared ∧ t.Writes) ∧ VTy.WritesAll ts
end

/-- `normalize<Target>(x)` compiles on an rvalue `x` of type `v`, and is an rvalue of type `r` (include/upd/tuple.hpp:38-48). -/
inductive Normalizes (target : VTy) : VTy → VTy → Prop where
  | array {t : VTy} {n : Nat} (h : target = .carr t n) : Normalizes target (.sarr t n) (.carr t n)
  | same {v : VTy} (h : v.readTy = target) : Normalizes target v v

mutual
/-- `read_as<T, E, S>(ptr)` compiles (include/upd/detail/serialization.hpp:59-86). The elements of an array are assigned one by one (:76-77), which is ill-formed if they are arrays `T[N]`; `unserialize` is called by `invoke`
(:81-86; include/upd/tuple.hpp:182-185). -/
def VTy.Reads : VTy → Prop
  | .arith _ => True
  | .user _ _ fs => VTy.ReadsAll fs
  | .carr t _ => t.Reads ∧ t.Found 2 ∧ ¬ t.IsCArr
  | .sarr t _ => t.Reads ∧ t.Found 2 ∧ ¬ t.IsCArr
  | .other _ => False

/-- `invoke` compiles on a function which takes its parameters by value. -/
def VTy.ReadsAll : List VTy → Prop
  | [] => True
  | t :: ts => (t.Declared ∧ t.Reads ∧ Normalizes t t.readTy t) ∧ VTy.ReadsAll ts
end

/-- `T{}` is well-formed. -/
def VTy.ValueInit : VTy → Prop
  | .arith _ => True
  | .user _ d _ => d = true
  | .carr t _ => t.ValueInit
  | .sarr t _ => t.ValueInit
  | .other _ => True

/-- The type of a parameter or of a result: an object type, const or not, or a reference to one. -/
structure QTy where
  base : VTy
  isConst : Bool := false
  ref : RefQual := .unqualified

/-- `R(Args...)`; `none` for `void`. -/
structure FnTy where
  ret : Option QTy
  params : List QTy

/-- C++ has no parameter and no result of type `T[N]` (a parameter written `T x[N]` is a pointer). -/
def FnTy.WF (f : FnTy) : Prop :=
  (∀ p ∈ f.params, p.base.IsCArr → p.ref ≠ .unqualified) ∧ ∀ r, f.ret = some r → r.base.IsCArr → r.ref ≠ .unqualified

/-- The class `tuple<E, S, Ts...>` can be instantiated (include/upd/tuple.hpp:86-93). -/
def TupleOk (ts : List QTy) : Prop := ∀ t ∈ ts, t.isConst = false ∧ t.ref = .unqualified ∧ t.base.Declared

/-- The type without reference and qualifiers. -/
def QTy.plain (t : QTy) : QTy := { base := t.base }

/-- `tuple<E, S, Ts...>{values...}` compiles (include/upd/tuple.hpp:317, :168-172, :144-151). -/
def Constructs (ts : List QTy) : Prop := TupleOk ts ∧ ∀ t ∈ ts, t.base.Writes

/-- `tuple<E, S, Ts...> t;` compiles (include/upd/tuple.hpp:313: `tuple(Ts{}...)`; :401-407 if there are no elements). -/
def DefaultConstructs (ts : List QTy) : Prop := Constructs ts ∧ ∀ t ∈ ts, t.base.ValueInit

/-- `t.get<I>()` compiles, for an element of type `t` (include/upd/tuple.hpp:131-138). -/
def Gets (t : QTy) : Prop := TupleOk [t] ∧ t.base.Reads

/-- A parameter binds to an rvalue of type `r`. -/
def QTy.BindsRvalue (p : QTy) (r : VTy) : Prop := p.base = r ∧ (p.ref = .lvalue → p.isConst = true)

/-- `tuple.invoke(ftor)` compiles, where the tuple is `input_tuple<E, S, F>` (include/upd/tuple.hpp:160-163, :182-185; include/upd/detail/type_traits/input_tuple.hpp:16-23): each element is read, normalized, and bound to
the parameter. -/
def Invokes (ps : List QTy) : Prop :=
  TupleOk (ps.map QTy.plain) ∧ ∀ p ∈ ps, p.base.Reads ∧ ∃ r, Normalizes p.base p.base.readTy r ∧ p.BindsRvalue r

/-- The bodies of `call` and of `static_storage_duration_callback_wrapper` which receive the arguments (include/upd/action.hpp:53-69, :122-141): the tuple is default-constructed, filled, and invoked. -/
def Receives (f : FnTy) : Prop := DefaultConstructs (f.params.map QTy.plain) ∧ Invokes f.params

/-- `make_tuple(endianess, signed_mode, value)` on a result (include/upd/action.hpp:34-41, :138; include/upd/tuple.hpp:414-418): the reference and the qualifiers are dropped by the deduction. -/
def Sends (r : QTy) : Prop := Constructs [r.plain]

/-- An `action` can be made from a callback of this signature and invoked (include/upd/action.hpp:102-117, :158-160): `flatten_tuple_t<E, S, R>::size` (:110; include/upd/detail/type_traits/flatten_tuple.hpp:21-38) instantiates
`tuple<E, S, R>` with the type of the result as it is. -/
def ActionOk (f : FnTy) : Prop := Receives f ∧ ∀ r, f.ret = some r → TupleOk [r] ∧ Sends r

/-- A `no_storage_action` can be made from a callback of this signature (include/upd/action.hpp:214-217, :122-141); `sizeof` accepts references. -/
def NoStorageOk (f : FnTy) : Prop := Receives f ∧ ∀ r, f.ret = some r → Sends r

/-- A dispatcher can be built from a keyring with a function of this signature, according to its features (include/upd/dispatcher.hpp:30-48). -/
def ServedBy : Features → FnTy → Prop
  | .any, f => ActionOk f
  | .weakReference, f => NoStorageOk f

/-- An argument given to a key, of the type of the parameter (conversions are the subject of C65): const or not, lvalue or rvalue. -/
structure ArgExpr where
  isConst : Bool
  cat : Category

/-- The parameter `const Arg &` of the `operator()` of a key (include/upd/key.hpp:109-112) binds to the argument. If `Arg` is a reference, `const` has no effect and the references collapse: `T &` and `T &&` both give `T &`. -/
def QTy.KeyBinds (p : QTy) (a : ArgExpr) : Prop :=
  let isConst := match p.ref with
    | .unqualified => true
    | _ => p.isConst
  isConst = true ∨ (a.cat = .lvalue ∧ a.isConst = false)

/-- There are as many arguments as parameters, and they bind. -/
def KeyBindsAll : List QTy → List ArgExpr → Prop
  | [], [] => True
  | p :: ps, a :: as => p.KeyBinds a ∧ KeyBindsAll ps as
  | _, _ => False

/-- The class `key<..., R(Args...), ...>` can be instantiated (include/upd/key.hpp:67-131; include/upd/detail/io/immediate_reader.hpp:14-50): `read_from` returns the type of the result without reference and qualifiers, which cannot be an array. -/
def KeyOk (f : FnTy) : Prop := ∀ r, f.ret = some r → ¬ r.base.IsCArr

/-- `key(args...)` compiles (include/upd/key.hpp:109-112; include/upd/detail/serialized_message.hpp:19-21). -/
def KeyCalls (f : FnTy) (args : List ArgExpr) : Prop :=
  KeyOk f ∧ Constructs (f.params.map QTy.plain) ∧ KeyBindsAll f.params args

/-- `key.read_from(src)` compiles (include/upd/key.hpp:121-131). -/
def KeyReads (f : FnTy) : Prop := KeyOk f ∧ ∀ r, f.ret = some r → DefaultConstructs [r.plain] ∧ Gets r.plain

end Upd.Cpp
