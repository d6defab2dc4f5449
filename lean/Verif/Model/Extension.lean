import Verif.Model.Tuple

/-!
# User extensions as programs

The rest of the model identifies an object of a user-extended type with the arguments of `unserialize` and takes `serialize` to set each field once, in
order. Here both functions are those of the user.
-/

namespace Upd

/-- `upd_extension<X>` (include/upd/upd.hpp:37-38, test/snippet/serialization2): the types of the parameters of `unserialize`, the calls `set<I>(view, v)`
which `serialize(x, view)` makes, in order, and `unserialize`. `serialize` is supposed to do nothing else with the view. -/
structure Ext (X : Type) where
  fields : List Ty
  serialize : X → List (Nat × Val)
  unserialize : List Val → X

/-- `set<I>(view, v)` for each `(I, v)` in order (include/upd/tuple.hpp:144-151, :207-216). -/
def View.sets (P : Platform) (V : View) : List (Nat × Val) → Mem → M Mem
  | [], mem => .ok mem
  | (i, v) :: ops, mem => do
    let mem ← V.set P i v mem
    V.sets P ops mem

/-- `write_as(x, sequence)` for a user-extended type (include/upd/detail/serialization.hpp:144-149). -/
def Ext.write {X : Type} (P : Platform) (e : Endian) (s : Mode) (E : Ext X) (x : X) (mem : Mem) (off : Nat) : M Mem :=
  View.sets P ⟨e, s, E.fields, off⟩ (E.serialize x) mem

/-- `read_as<X>(sequence)` for a user-extended type (include/upd/detail/serialization.hpp:81-86). -/
def Ext.read {X : Type} (P : Platform) (e : Endian) (s : Mode) (E : Ext X) (mem : Mem) (off : Nat) : M X :=
  View.invoke P ⟨e, s, E.fields, off⟩ E.unserialize mem

end Upd
