import Verif.Model.Replace

/-!
# Python objects given to keys and dispatchers (include/upd/python.hpp)

The conversions are those of pybind11, which is not part of the repository: `load` follows `pybind11::detail::type_caster` for integers, `bool` and
`std::array` (pybind11/cast.h, pybind11/stl.h), `Obj.ofVal` the conversions in the other direction. Not modelled: `char` and the like (pybind11 converts
them from strings), floating-point parameters, classes of the user exposed to Python, `str` and `bytes` given for arrays, objects whose methods
`__index__` and `__int__` do not agree or raise exceptions.
-/

namespace Upd.Py

variable {σ : Type}

/-- A Python object, as far as the conversions look at it.
* `int z`, `bool b`, `none`;
* `float zero`: a `float`, which is zero or not;
* `list l`: a list or a tuple;
* `inst int truth`: an instance of another class, whose method `__index__` or `__int__` returns `int`, and whose method `__bool__` returns `truth`,
  if it has them. -/
inductive Obj where
  | int (z : Int)
  | bool (b : Bool)
  | none
  | float (zero : Bool)
  | list (l : List Obj)
  | inst (int : Option Int) (truth : Option Bool)

/-- The integer that `PyLong_As...` or `PyNumber_Long` finds in an object. `float` objects have been rejected before (`PyFloat_Check`); a `bool` is an
`int`. -/
def Obj.toLong : Obj → Option Int
  | .int z => some z
  | .bool b => some (if b then 1 else 0)
  | .inst z _ => z
  | _ => .none

/-- `PyLong_AsLong`, `PyLong_AsLongLong`, `PyLong_AsUnsignedLong`, `PyLong_AsUnsignedLongLong` on an integer: `OverflowError` if it is not in the range
of the C type of `b` bytes. -/
def asLong (signed : Bool) (b : Nat) (z : Int) : Option Int :=
  if signed then if -(2 ^ (8 * b - 1) : Int) ≤ z ∧ z < 2 ^ (8 * b - 1) then some z else .none
  else if 0 ≤ z ∧ z < 2 ^ (8 * b) then some z else .none

/-- Conversion of an integer to an integer type of `b` bytes. -/
def castInt (signed : Bool) (b : Nat) (z : Int) : Int :=
  if signed then Int.bmod z (2 ^ (8 * b)) else z % 2 ^ (8 * b)

/-- `type_caster<T>::load` for an integer type of `n` bytes. `long` is `longBytes` bytes long, `long long` 8 bytes. The result of the C API, of the type
`long` or `long long`, is converted to `T`, and rejected if this conversion has changed it. If the C API fails, `PyNumber_Long` gives the same number
again, hence the same failure. -/
def loadInt (longBytes : Nat) (signed : Bool) (n : Nat) (o : Obj) : Option Int :=
  let b := if n ≤ longBytes then longBytes else 8
  match o.toLong with
  | .none => .none
  | some z =>
    match asLong signed b z with
    | .none => .none
    | some v => if b ≠ n ∧ v ≠ castInt signed b (castInt signed n v) then .none else some (castInt signed n v)

/-- `type_caster<bool>::load`, with conversions allowed: `True`, `False`, `None`, and the objects whose type has a slot `nb_bool`. -/
def loadBool : Obj → Option Bool
  | .bool b => some b
  | .none => some false
  | .int z => some (z != 0)
  | .float zero => some (!zero)
  | .inst _ t => t
  | .list _ => .none

/-- `type_caster<T>::load`. For `std::array`, a sequence of the right length, element by element. A class of the user is not known to Python. -/
def load (longBytes : Nat) : Ty → Obj → Option Val
  | .bool, o => (loadBool o).map .bool
  | .uint n, o => (loadInt longBytes false n o).map .int
  | .sint k, o => (loadInt longBytes true k o).map .int
  | .arr t n, .list l => if l.length = n then (l.mapM (load longBytes t)).map .arr else .none
  | _, _ => .none

/-- Conversion of the arguments of a call; a wrong number of them is an error. -/
def loads (longBytes : Nat) : List Ty → List Obj → Option (List Val)
  | [], [] => some []
  | t :: ts, o :: os => do
    let v ← load longBytes t o
    let vs ← loads longBytes ts os
    some (v :: vs)
  | _, _ => .none

mutual
/-- Conversion of a C++ value to an object; it raises an exception for a class which is not known to Python. -/
def Obj.ofVal : Val → Option Obj
  | .bool b => some (.bool b)
  | .int z => some (.int z)
  | .arr vs => (Obj.ofVals vs).map .list
  | .user _ => .none

/-- The same for several values. -/
def Obj.ofVals : List Val → Option (List Obj)
  | [] => some []
  | v :: vs => do
    let o ← Obj.ofVal v
    let os ← Obj.ofVals vs
    some (o :: os)
end

/-- An exception is raised if a conversion has failed. -/
def orRaise {α : Type} : Option α → Eff σ α
  | some a => pure a
  | .none => fun w => .threw w

/-- `key.encode(*objs)` (include/upd/python.hpp:77-83): the conversions of the arguments, then `PyKey.encode`. -/
def encode (P : Platform) (longBytes : Nat) (k : Key) (objs : List Obj) : Eff σ (List Byte) := do
  let args ← orRaise (loads longBytes k.sig.params objs)
  Eff.lift (PyKey.encode P k args)

/-- `cast<byte_t>()` of an object. -/
def loadByte (longBytes : Nat) (o : Obj) : Option Byte := (loadInt longBytes false 1 o).map fun z => BitVec.ofInt 8 z

/-- `[&]() { ++it; return it->cast<byte_t>(); }` (include/upd/python.hpp:87-90) on an iterable object, see `pySrc`. The state is the objects left. -/
def objSrc (longBytes : Nat) : Eff (List Obj) Byte
  | [] => .threw []
  | o :: l => orRaise (loadByte longBytes o) l

/-- `key.decode(iterable)` (include/upd/python.hpp:84-91); a function which returns `void` gives `None`. -/
def decode (P : Platform) (longBytes : Nat) (k : Key) (l : List Obj) : Eff σ Obj := fun w =>
  match k.readFrom P (objSrc longBytes) l with
  | .ret (some v) _ => orRaise (Obj.ofVal v) w
  | .ret .none _ => .ret .none w
  | .threw _ => .threw w
  | .fault f => .fault f

/-- The objects which the iteration over an object of type `bytes` gives. -/
def ofBytes (l : List Byte) : List Obj := l.map fun b => .int b.toNat

/-- The function wrapped by `key.__make_action(pyfunction)` (include/upd/python.hpp:93-103): converts the arguments to objects, calls the Python function,
and converts what it returns, which is ignored if the return type is `void`. -/
def makeAction (longBytes : Nat) (ret : Option Ty) (fn : List Obj → Eff σ Obj) (args : List Val) : Eff σ (Option Val) := do
  let objs ← orRaise (Obj.ofVals args)
  let o ← fn objs
  match ret with
  | .none => pure .none
  | some t => do
    let v ← orRaise (load longBytes t o)
    pure (some v)

/-- `Client.call(key, *objs)` (py/unpadded/client.py:5-11); `Response.other` is any object which is not of type `bytes`. -/
def call (P : Platform) (longBytes : Nat) (k : Key) (newRequest : List Byte → Eff σ (Response Obj)) (objs : List Obj) : Eff σ Obj := do
  let payload ← encode P longBytes k objs
  let response ← newRequest payload
  match response with
  | .bytes l => decode P longBytes k (ofBytes l)
  | .other o => pure o

/-- `dispatcher.put(x)` (include/upd/python.hpp:169). -/
def put (P : Platform) (longBytes : Nat) (x : Obj) : Eff (BState σ) Status := do
  let b ← orRaise (loadByte longBytes x)
  Buf.put P b

/-- `dispatcher.get()` (include/upd/python.hpp:170). -/
def get : Eff (BState σ) Obj := do
  let b ← Buf.get
  pure (.int b.toNat)

/-- A Python function given as a `std::function<byte_t()>` (include/upd/python.hpp:167). -/
def getter (longBytes : Nat) (fn : Eff σ Obj) : Eff σ Byte := do
  let o ← fn
  orRaise (loadByte longBytes o)

/-- A Python function given as a `std::function<void(byte_t)>` (include/upd/python.hpp:168): what it returns is ignored. -/
def putter (fn : Obj → Eff σ Obj) (b : Byte) : Eff σ Unit := do
  let _ ← fn (.int b.toNat)
  pure ()

/-- `dispatcher.read_from(fn)` (include/upd/python.hpp:167). -/
def readFrom (P : Platform) (longBytes : Nat) (fn : Eff σ Obj) : Eff (BState σ) Status := Buf.readFrom P (getter longBytes fn)

/-- `dispatcher.write_to(fn)` (include/upd/python.hpp:168). -/
def writeTo (fn : Obj → Eff σ Obj) : Eff (BState σ) Unit := Buf.writeTo (putter fn)

/-- `dispatcher.replace(key, fn)` (include/upd/python.hpp:172-174). -/
def replace (longBytes : Nat) (b : Buf σ) (k : Key) (fn : List Obj → Eff σ Obj) : M (Buf σ) :=
  b.pyReplace k (makeAction longBytes k.sig.ret fn)

end Upd.Py
