import Verif.Model.Custom

/-!
# Layout of the classes derived from `buffered_dispatcher`

The library goes from `buffered_dispatcher<D, Dispatcher>` to the class `D` written by the user with `reinterpret_cast` (include/upd/buffered_dispatcher.hpp:72-73), which does
not change the address, whereas the address of a base class subobject depends on the layout of `D`. The layout is that of the Itanium C++ ABI, 2.4 (GCC, Clang), for classes without virtual bases.
-/

namespace Upd

/-- A direct base class. `size` and `align` are those of a base class subobject (`nvsize`, `nvalign`); `dynamic`: it has virtual functions, of its own or inherited. -/
inductive Base where
  | empty
  | solid (size align : Nat) (dynamic : Bool)
  deriving DecidableEq, Repr

/-- The class has virtual functions. -/
def Base.isDynamic : Base → Bool
  | .solid _ _ d => d
  | .empty => false

/-- The bytes in use once the class is placed at offset 0. -/
def Base.size : Base → Nat
  | .solid n _ _ => n
  | .empty => 0

/-- The first multiple of `a` which is not below `n`. -/
def roundUp (n a : Nat) : Nat := (n + a - 1) / a * a

/-- Where a component is placed if `dsize` bytes are in use, and how many are in use then. Simplification: two components of the same type never compete for an address. -/
def Base.place (dsize : Nat) : Base → Nat × Nat
  | .empty => (0, dsize)
  | .solid n a _ => (roundUp dsize a, roundUp dsize a + n)

/-- The offsets of the base classes, in order of declaration; `primary` is the index of the one which has already been placed, at offset 0. -/
def placeBases (dsize : Nat) (primary : Option Nat) : List Base → List Nat
  | [] => []
  | b :: bs =>
    match primary with
    | some 0 => 0 :: placeBases dsize none bs
    | some (j + 1) => (b.place dsize).1 :: placeBases (b.place dsize).2 (some j) bs
    | none => (b.place dsize).1 :: placeBases (b.place dsize).2 none bs

/-- A class written by the user: the size of a pointer, whether it declares virtual functions, its base classes before and after `buffered_dispatcher`, which is not empty
(data members, include/upd/buffered_dispatcher.hpp:277-280) and has no virtual function. -/
structure UserClass where
  pointer : Nat
  hasVirtual : Bool
  before : List Base
  size : Nat
  align : Nat
  after : List Base

/-- All the base classes. -/
def UserClass.bases (C : UserClass) : List Base := C.before ++ .solid C.size C.align false :: C.after

/-- The offsets of the base classes: the first one with virtual functions is placed first; if there is none and the class has virtual functions, the pointer to its table comes first. -/
def UserClass.offsets (C : UserClass) : List Nat :=
  match C.bases.findIdx? Base.isDynamic with
  | some j => placeBases (C.bases[j]?.elim 0 Base.size) (some j) C.bases
  | none => placeBases (if C.hasVirtual then C.pointer else 0) none C.bases

/-- The offset of the subobject `buffered_dispatcher<D, Dispatcher>` in an object of class `D`. -/
def UserClass.offset (C : UserClass) : Nat := C.offsets[C.before.length]?.getD 0

variable {σ : Type}

/-- `derived()` (include/upd/buffered_dispatcher.hpp:72-73), to be used then: there is an object of class `D` at the address of the subobject if the offset is 0. -/
def UserClass.derived (C : UserClass) : Eff (BState σ) Unit := Eff.lift (if C.offset = 0 then .ok () else .error .badCast)

/-- `put(byte)` (include/upd/buffered_dispatcher.hpp:130-158): `derived()` is used at once (:131). -/
def UserClass.put (C : UserClass) (P : Platform) (x : Byte) : Eff (BState σ) Status := do
  C.derived
  Buf.put P x

/-- `get()` (include/upd/buffered_dispatcher.hpp:179): `derived()` is used if there is something to get. -/
def UserClass.get (C : UserClass) : Eff (BState σ) Byte := fun st =>
  if st.1.isLoaded then (do C.derived; Buf.get) st else Buf.get st

end Upd
