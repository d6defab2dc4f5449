import Verif.Model.Key

/-!
# Tuples and views invoked on keys
-/

namespace Upd

/-- `t.invoke(key)` (include/upd/tuple.hpp:160-163, :182-185, with `operator()` of the key: include/upd/key.hpp:108-111), where `t` is a tuple or a view whose
types are those of the parameters of the key (`key::tuple_t` is such a tuple, include/upd/key.hpp:84; its format may be another one), see test/key.cpp:48. The
content of the message is the result. Parameters which are references to arrays are not modelled (the elements of a tuple are given as `std::array`). -/
def View.message (P : Platform) (V : View) (k : Key) (mem : Mem) : M Mem := do
  let message ← V.invoke P (k.message P) mem
  message

/-- `t.invoke(key).write_to(dest)` (as `View.message`; include/upd/detail/serialized_message.hpp:32-36). -/
def View.forward {τ : Type} (P : Platform) (V : View) (k : Key) (mem : Mem) (dest : Byte → Eff τ Unit) : Eff τ Unit := do
  let content ← Eff.lift (V.message P k mem)
  outAll dest content

end Upd
