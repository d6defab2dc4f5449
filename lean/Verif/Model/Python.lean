import Verif.Model.Buffered

/-!
# Model of the keys exposed to Python (include/upd/python.hpp, py/unpadded/client.py)

The conversions of pybind11 between Python objects and C++ values are in Model/PyObjects.lean: a call of `encode` whose arguments cannot be converted to
the types of the parameters raises `TypeError` before the code modelled here is reached.
-/

namespace Upd

variable {σ ρ : Type}

/-- `encode(args...)` (include/upd/python.hpp:77-83): writes the packet through a pointer into an uninitialised buffer of `payload_length` bytes
(include/upd/detail/io/immediate_writer.hpp:32-35) and returns the whole buffer. -/
def PyKey.encode (P : Platform) (k : Key) (args : List Val) : M (List Byte) :=
  match k.writeTo P args bufIt (P.junkBytes k.payloadLength, 0) with
  | .ret _ (buf, _) => .ok buf
  | .threw _ => .error .illTyped
  | .fault f => .error f

/-- `[&]() { ++it; return it->cast<byte_t>(); }` (include/upd/python.hpp:87-90). A pybind11 iterator fetches nothing until it is first incremented or
dereferenced, hence the first call gives the first byte; at the end, it designates a null object, the cast of which is assumed to throw. The state is the bytes
left. -/
def pySrc : Eff (List Byte) Byte
  | [] => .threw []
  | b :: l => .ret b l

/-- `decode(pybytes)` (include/upd/python.hpp:84-91): the bytes left are ignored. -/
def PyKey.decode (P : Platform) (k : Key) (bytes : List Byte) : Res Unit (Option Val) :=
  match k.readFrom P pySrc bytes with
  | .ret v _ => .ret v ()
  | .threw _ => .threw ()
  | .fault f => .fault f

/-- What the coroutine `new_request` may return: an object of type `bytes`, or another one. -/
inductive Response (ρ : Type) where
  | bytes (l : List Byte)
  | other (o : ρ)

/-- What `Client.call` returns: a decoded value (`none` is `None`), or an object as it is. -/
inductive CallResult (ρ : Type) where
  | value (v : Option Val)
  | other (o : ρ)

/-- `Client.call(key, *args)` (py/unpadded/client.py:5-11). -/
def Client.call (P : Platform) (k : Key) (newRequest : List Byte → Eff σ (Response ρ)) (args : List Val) : Eff σ (CallResult ρ) := do
  let payload ← Eff.lift (PyKey.encode P k args)
  let response ← newRequest payload
  match response with
  | .bytes l => fun w =>
    match PyKey.decode P k l with
    | .ret v _ => .ret (.value v) w
    | .threw _ => .threw w
    | .fault f => .fault f
  | .other o => pure (.other o)

end Upd
