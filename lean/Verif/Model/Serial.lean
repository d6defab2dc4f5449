import Verif.Model.Endian
import Verif.Model.Signed
import Verif.Model.Ty

/-!
# Model of include/upd/detail/serialization.hpp

The pointer `sequence` is a memory object `mem` and an offset `off`.
-/

namespace Upd

/-- `read_as<T>` for an unsigned integer type of `n` bytes (include/upd/detail/serialization.hpp:59-62). -/
def readUint (P : Platform) (e : Endian) (n : Nat) (mem : Mem) (off : Nat) : M Int := do
  let x ← fromEndianess P (8 * n) e mem off n
  .ok x.toNat

/-- `read_as<bool>` (include/upd/detail/serialization.hpp:59-62 with `T = bool`, `sizeof(bool) = 1`). The generic path
computes `bool(bool(0) | (bool(raw_data[0]) << 0))` (include/upd/detail/endianess.hpp:22-24, :33-34); the native path
copies the byte into a `bool` object, which is not a valid `bool` unless the byte is 0 or 1 (endianess.hpp:42-45). -/
def readBool (P : Platform) (e : Endian) (mem : Mem) (off : Nat) : M Bool := do
  let b ← mem.rd off
  if P.endianMacro = some e then
    if b = 0#8 then .ok false else if b = 1#8 then .ok true else .error .badBool
  else .ok (b ≠ 0#8)

/-- `read_as<T>` for a signed integer type of `k` bytes (include/upd/detail/serialization.hpp:63-68). -/
def readSint (P : Platform) (e : Endian) (s : Mode) (k : Nat) (mem : Mem) (off : Nat) : M Int := do
  let tmp ← fromEndianess P 64 e mem off k
  fromSignedMode P s k tmp

/-- The loop of `read_as<T[N]>` (include/upd/detail/serialization.hpp:76-77), `rem` iterations left, current position
`off = sequence + i * sizeof(element_t)`. -/
def readLoop (read : Mem → Nat → M Val) (stride : Nat) (mem : Mem) : (rem off : Nat) → M (List Val)
  | 0, _ => .ok []
  | rem + 1, off => do
    let v ← read mem off
    let vs ← readLoop read stride mem rem (off + stride)
    .ok (v :: vs)

mutual
/-- `read_as<T, Endianess, Signed_Mode>(const byte_t *sequence)` (include/upd/detail/serialization.hpp:59-86). For a
user-extended type (:81-86), a view over the parameters of `unserialize` is made and `unserialize` is invoked
on its elements. -/
def readAs (P : Platform) (e : Endian) (s : Mode) : Ty → Mem → Nat → M Val
  | .bool, mem, off => do
    let b ← readBool P e mem off
    .ok (.bool b)
  | .uint n, mem, off => do
    let z ← readUint P e n mem off
    .ok (.int z)
  | .sint k, mem, off => do
    let z ← readSint P e s k mem off
    .ok (.int z)
  | .arr t n, mem, off => do
    let vs ← readLoop (readAs P e s t) t.sizeof mem n off
    .ok (.arr vs)
  | .user _ fs, mem, off => do
    let vs ← readAll P e s fs mem off
    .ok (.user vs)

/-- `get<Is>()...` on a view at `off` (include/upd/tuple.hpp:184, :132-138): the position of each element is the sum of the
serialized sizes of the preceding ones. Simplification: the offset is accumulated instead of being recomputed
for each element; `Verif.Lemmas.Tuple` shows that it is the same as `sum<clip<sizes_t, 0, I>>`. -/
def readAll (P : Platform) (e : Endian) (s : Mode) : List Ty → Mem → Nat → M (List Val)
  | [], _, _ => .ok []
  | t :: ts, mem, off => do
    let v ← readAs P e s t mem off
    let vs ← readAll P e s ts mem (off + t.serSize)
    .ok (v :: vs)
end

/-- `write_as` for an unsigned integer type of `n` bytes (include/upd/detail/serialization.hpp:127-130). -/
def writeUint (P : Platform) (e : Endian) (n : Nat) (z : Int) (mem : Mem) (off : Nat) : M Mem :=
  toEndianess P e mem off (BitVec.ofInt (8 * n) z) n

/-- `write_as` for `bool` (include/upd/detail/serialization.hpp:127-130): both paths store the byte 0 or 1, one iteration
of include/upd/detail/endianess.hpp:55-56 or :60-61, or `memcpy` of a valid `bool` object. -/
def writeBool (b : Bool) (mem : Mem) (off : Nat) : M Mem :=
  mem.wr off (if b then 1#8 else 0#8)

/-- `write_as` for a signed integer type of `k` bytes (include/upd/detail/serialization.hpp:131-136). -/
def writeSint (P : Platform) (e : Endian) (s : Mode) (k : Nat) (z : Int) (mem : Mem) (off : Nat) : M Mem := do
  let tmp ← toSignedMode P s k z
  toEndianess P e mem off tmp k

/-- The loop of `write_as` on arrays (include/upd/detail/serialization.hpp:141-142), over the elements left, current
position `off = sequence + i * sizeof(element_t)`. -/
def writeLoop (write : Val → Mem → Nat → M Mem) (stride : Nat) : List Val → Mem → Nat → M Mem
  | [], mem, _ => .ok mem
  | v :: vs, mem, off => do
    let mem ← write v mem off
    writeLoop write stride vs mem (off + stride)

mutual
/-- `write_as<Endianess, Signed_Mode>(x, byte_t *sequence)` (include/upd/detail/serialization.hpp:127-149). For a
user-extended type (:144-149), `serialize` sets the elements of a view in order. -/
def writeAs (P : Platform) (e : Endian) (s : Mode) : Ty → Val → Mem → Nat → M Mem
  | .bool, .bool b, mem, off => writeBool b mem off
  | .uint n, .int z, mem, off => writeUint P e n z mem off
  | .sint k, .int z, mem, off => writeSint P e s k z mem off
  | .arr t n, .arr vs, mem, off =>
    if vs.length = n then writeLoop (writeAs P e s t) t.sizeof vs mem off else .error .illTyped
  | .user _ fs, .user vs, mem, off => writeAll P e s fs vs mem off
  | _, _, _, _ => .error .illTyped

/-- `set<Is>(args)...` on a view at `off` (include/upd/tuple.hpp:168-172, :145-151). Same simplification as for
`readAll`. -/
def writeAll (P : Platform) (e : Endian) (s : Mode) : List Ty → List Val → Mem → Nat → M Mem
  | [], [], mem, _ => .ok mem
  | t :: ts, v :: vs, mem, off => do
    let mem ← writeAs P e s t v mem off
    writeAll P e s ts vs mem (off + t.serSize)
  | _, _, _, _ => .error .illTyped
end

/-- `read_as<T>(It it)` for an iterator which is not a pointer (include/upd/detail/serialization.hpp:87-93): copies
`sizeof(T)` bytes into a local buffer, then reads from it. -/
def readAsIt (P : Platform) (e : Endian) (s : Mode) (t : Ty) (mem : Mem) (off : Nat) : M Val := do
  let buf ← mem.rdN off t.sizeof
  readAs P e s t buf 0

/-- `write_as(value, It it)` for an iterator which is not a pointer (include/upd/detail/serialization.hpp:150-157):
writes into an uninitialised local buffer of `sizeof(T)` bytes, then copies the whole buffer. -/
def writeAsIt (P : Platform) (e : Endian) (s : Mode) (t : Ty) (v : Val) (mem : Mem) (off : Nat) : M Mem := do
  let buf ← writeAs P e s t v (P.junkBytes t.sizeof) 0
  mem.wrN off buf

end Upd
