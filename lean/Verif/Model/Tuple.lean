import Verif.Model.Serial
import Verif.Model.TypeList

/-!
# Model of include/upd/tuple.hpp

A `tuple_view<byte_t *, Endianess, Signed_Mode, Ts...>` is a position in a memory object (`View`). A `tuple` is a memory object
of its own, accessed as the view at offset 0: both derive from `tuple_base`, whose `src()` is `begin()`.
-/

namespace Upd
open TypeList

/-- A tuple-like object bound to bytes: parameters of the class template `tuple_base`
(include/upd/tuple.hpp:81-82) and the position of `src()`. -/
structure View where
  e : Endian
  s : Mode
  ts : List Ty
  off : Nat
  deriving Repr

/-- `tuple_base::size` (include/upd/tuple.hpp:108), with `sizes_t` from :100. -/
def View.size (V : View) : Nat := sum11 0 (V.ts.map Ty.serSize)

/-- `sum<clip<sizes_t, 0, I>>::value` (include/upd/tuple.hpp:136 and :149). -/
def elemOffset (ts : List Ty) (i : Nat) : Option Nat := (clip11 0 i (ts.map Ty.serSize) []).map (sum11 0)

/-- `tuple_base::get<I>()` (include/upd/tuple.hpp:131-138) on an object bound through a pointer
(include/upd/detail/serialization.hpp:107-114). -/
def View.get (P : Platform) (V : View) (i : Nat) (mem : Mem) : M Val :=
  match at11 V.ts i, elemOffset V.ts i with
  | some t, some o => readAs P V.e V.s t mem (V.off + o)
  | _, _ => .error .illTyped

/-- `tuple_base::set<I>(value)` (include/upd/tuple.hpp:144-151) on an object bound through a pointer
(include/upd/detail/serialization.hpp:172-179). -/
def View.set (P : Platform) (V : View) (i : Nat) (v : Val) (mem : Mem) : M Mem :=
  match at11 V.ts i, elemOffset V.ts i with
  | some t, some o => writeAs P V.e V.s t v mem (V.off + o)
  | _, _ => .error .illTyped

/-- `tuple_base::lay(index_sequence<Is...>, args...)` (include/upd/tuple.hpp:168-172): `set<Is>(args)` in order. -/
def View.lay (P : Platform) (V : View) : List Nat → List Val → Mem → M Mem
  | [], [], mem => .ok mem
  | i :: is, v :: vs, mem => do
    let mem ← V.set P i v mem
    V.lay P is vs mem
  | _, _, _ => .error .illTyped

/-- `get<Is>()...` (include/upd/tuple.hpp:177 and :184). -/
def View.gets (P : Platform) (V : View) : List Nat → Mem → M (List Val)
  | [], _ => .ok []
  | i :: is, mem => do
    let v ← V.get P i mem
    let vs ← V.gets P is mem
    .ok (v :: vs)

/-- `make_index_sequence<sizeof...(Ts)>` (include/upd/tuple.hpp:120, :162, :317). -/
def View.indices (V : View) : List Nat := makeIndexSequence11 V.ts.length []

/-- `tuple_base::operator=(Tuple &&)` (include/upd/tuple.hpp:118-122, :175-178): the arguments of `lay` are all evaluated
before it is entered. `W` is the source. Both objects are in the same memory, where they may overlap. -/
def View.assign (P : Platform) (V W : View) (mem : Mem) : M Mem := do
  let vs ← W.gets P V.indices mem
  V.lay P V.indices vs mem

/-- `tuple_base::invoke(ftor)` (include/upd/tuple.hpp:160-163, :182-185). `normalize` (:38-48) does not change the values. -/
def View.invoke {β : Type} (P : Platform) (V : View) (ftor : List Val → β) (mem : Mem) : M β := do
  let vs ← V.gets P V.indices mem
  .ok (ftor vs)

/-- `tuple(const Ts &...args)` (include/upd/tuple.hpp:317, storage :398): the storage is not initialised before `lay`. -/
def Tuple.make (P : Platform) (e : Endian) (s : Mode) (ts : List Ty) (vs : List Val) : M Mem :=
  let V : View := ⟨e, s, ts, 0⟩
  V.lay P V.indices vs (P.junkBytes V.size)

/-- The view of a tuple on its own storage (`src()`, include/upd/tuple.hpp:353-357). -/
def Tuple.self (e : Endian) (s : Mode) (ts : List Ty) : View := ⟨e, s, ts, 0⟩

mutual
/-- `T{}` for integer types and arrays of them (used in include/upd/tuple.hpp:313). For a class with a `upd_extension`, `T{}` is
up to its author: the model takes the object whose fields are value-initialised. -/
def Val.zero : Ty → Val
  | .bool => .bool false
  | .uint _ => .int 0
  | .sint _ => .int 0
  | .arr t n => .arr (List.replicate n (Val.zero t))
  | .user _ fs => .user (Val.zeros fs)

/-- `Ts{}...`. -/
def Val.zeros : List Ty → List Val
  | [] => []
  | t :: ts => Val.zero t :: Val.zeros ts
end

/-- `tuple()` (include/upd/tuple.hpp:313). -/
def Tuple.default (P : Platform) (e : Endian) (s : Mode) (ts : List Ty) : M Mem := Tuple.make P e s ts (Val.zeros ts)

/-- `tuple::view<I, L>()` (include/upd/tuple.hpp:367-395) through `make_view_from_typelist` (:70-74). -/
def View.sub (V : View) (i l : Nat) : Option View :=
  match elemOffset V.ts i, clip11 i l V.ts [] with
  | some o, some ts => some ⟨V.e, V.s, ts, V.off + o⟩
  | _, _ => none

/-- Assignment operator selected by `v = w` for two `tuple_view` (include/upd/tuple.hpp:231 and :118-122): the template is
constrained by `is_tuple<Tuple>`, which is false for references (include/upd/detail/type_traits/is_tuple.hpp:21-28), and it
loses against the implicit copy / move assignment operator if the source has the same class. `rvalue` tells the
value category of `w`. -/
inductive AssignKind where
  | elementwise
  | rebind
  | illFormed
  deriving DecidableEq, Repr

/-- See `AssignKind`. `sameClass`: `v` and `w` are instances of the same class. -/
def assignKind (sameClass rvalue : Bool) : AssignKind :=
  if sameClass then .rebind else if rvalue then .elementwise else .illFormed

/-- `v = w` for two views on the same memory, as a whole: the views and the memory after the assignment. The class of a view is
determined by the iterator type (here always `byte_t *`), the format and the types. -/
def View.assignOp (P : Platform) (sameClass rvalue : Bool) (V W : View) (mem : Mem) : M (View × Mem) :=
  match assignKind sameClass rvalue with
  | .rebind => .ok ({ V with off := W.off }, mem)
  | .elementwise => do
    let mem ← V.assign P W mem
    .ok (V, mem)
  | .illFormed => .error .illTyped

/-- `tuple_base::get<I>()` on a view bound through an iterator which is not a pointer (include/upd/tuple.hpp:131-138,
include/upd/detail/serialization.hpp:107-114 and :87-93). -/
def View.getIt (P : Platform) (V : View) (i : Nat) (mem : Mem) : M Val :=
  match at11 V.ts i, elemOffset V.ts i with
  | some t, some o => readAsIt P V.e V.s t mem (V.off + o)
  | _, _ => .error .illTyped

/-- `tuple_base::set<I>(value)` on a view bound through an iterator which is not a pointer (include/upd/tuple.hpp:144-151,
include/upd/detail/serialization.hpp:172-179 and :150-157). -/
def View.setIt (P : Platform) (V : View) (i : Nat) (v : Val) (mem : Mem) : M Mem :=
  match at11 V.ts i, elemOffset V.ts i with
  | some t, some o => writeAsIt P V.e V.s t v mem (V.off + o)
  | _, _ => .error .illTyped

end Upd
