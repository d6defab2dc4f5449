import Verif.Model.Key

/-!
# Arguments which are not of the type expected

The functions of the library which take values to serialize have parameters of type `const T &`, where `T` is the serialized type: the compiler
converts the arguments. In the other modules of the model, the arguments have been converted already.
-/

namespace Upd
open TypeList

/-- Implicit conversion of an argument to `const T &` (language rule). `toSigned` is the modular conversion of `Verif.Model.Signed`. -/
def Ty.convert : Ty → Val → Val
  | .uint n, .int x => .int (x % 256 ^ n)
  | .sint k, .int x => .int (toSigned k x)
  | .uint _, .bool b => .int (if b then 1 else 0)
  | .sint _, .bool b => .int (if b then 1 else 0)
  | .bool, .int x => .bool (x != 0)
  | _, v => v

/-- Conversion of a list of arguments. -/
def Ty.convertAll : List Ty → List Val → List Val
  | t :: ts, v :: vs => t.convert v :: Ty.convertAll ts vs
  | _, vs => vs

/-- `set<I>(x)`, `x` being of any type convertible to the one of the element (`void set(const arg_t<I> &value)`, include/upd/tuple.hpp:144-151; also
`upd::set<I>(t, x)`, :213-216). -/
def View.setAny (P : Platform) (V : View) (i : Nat) (x : Val) (mem : Mem) : M Mem :=
  match at11 V.ts i with
  | some t => V.set P i (t.convert x) mem
  | none => .error .illTyped

/-- `lay(index_sequence<Is...>, const Args &...args)` (include/upd/tuple.hpp:168-172), `Args...` being any types: each argument is converted when it is
given to `set<Is>`. -/
def View.layAny (P : Platform) (V : View) : List Nat → List Val → Mem → M Mem
  | [], [], mem => .ok mem
  | i :: is, v :: vs, mem => do
    let mem ← V.setAny P i v mem
    V.layAny P is vs mem
  | _, _, _ => .error .illTyped

/-- `operator=(Tuple &&t)` (include/upd/tuple.hpp:118-122, :175-178), the types of the elements of `t` being different from those of the assigned object.
Nothing requires the numbers of elements to be the same: the first ones are taken. -/
def View.assignAny (P : Platform) (V W : View) (mem : Mem) : M Mem := do
  let vs ← W.gets P V.indices mem
  V.layAny P V.indices vs mem

/-- `tuple(const Ts &...args)` (include/upd/tuple.hpp:317). -/
def Tuple.makeAny (P : Platform) (e : Endian) (s : Mode) (ts : List Ty) (vs : List Val) : M Mem := Tuple.make P e s ts (Ty.convertAll ts vs)

/-- `key::operator()(const Args &...args)` (include/upd/key.hpp:108-111). -/
def Key.messageAny (P : Platform) (k : Key) (args : List Val) : M Mem := k.message P (Ty.convertAll k.sig.params args)

end Upd
