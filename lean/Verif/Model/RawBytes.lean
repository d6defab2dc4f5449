import Verif.Model.Tuple

/-!
# Raw access to the bytes of tuples and views
-/

namespace Upd

/-- `t[k]` on a tuple (include/upd/tuple.hpp:351) or `begin()[k]` on a tuple or a view (:238, :328-331), read. No bound is checked: the byte is the one of the memory. -/
def View.byte (V : View) (k : Nat) (mem : Mem) : M Byte := mem.rd (V.off + k)

/-- `t[k] = b` (include/upd/tuple.hpp:344), `begin()[k] = b`. -/
def View.setByte (V : View) (k : Nat) (b : Byte) (mem : Mem) : M Mem := mem.wr (V.off + k) b

/-- `std::copy(v.begin(), v.end(), ...)` and the like: the bytes from `begin()` to `end()` (include/upd/tuple.hpp:238-241, :328-337). -/
def View.bytes (V : View) (mem : Mem) : M (List Byte) := mem.rdN V.off V.size

/-- `for (auto &byte : t) byte = ...` with `bs` for the values given, which are as many as the bytes of the object. -/
def View.fill (V : View) (bs : List Byte) (mem : Mem) : M Mem := go bs 0 mem
where
  go : List Byte → Nat → Mem → M Mem
    | [], _, mem => .ok mem
    | b :: bs, k, mem => do
      let mem ← V.setByte k b mem
      go bs (k + 1) mem

/-- A statement which modifies a tuple or a view: `set<I>(v)` or `t[k] = b`. -/
inductive RawOp where
  | set (i : Nat) (v : Val)
  | byte (k : Nat) (b : Byte)

/-- Executes it. -/
def RawOp.run (P : Platform) (V : View) : RawOp → Mem → M Mem
  | .set i v, mem => V.set P i v mem
  | .byte k b, mem => V.setByte k b mem

end Upd
