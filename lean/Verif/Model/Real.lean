import Verif.Model.Float
import Verif.Model.Dispatcher

/-!
# Floating-point numbers in arrays, classes, tuples, requests and responses

`Model/Float.lean` has a single floating-point number. Here, floating-point types are allowed wherever integer types are. The macro for the signed representation is the signed mode of the format: the
bytes of a floating-point object are copied (include/upd/detail/signed_representation.hpp:36-41, :68-74). A floating-point object is its object representation, taken as a number: infinities and NaN
are objects as the others.
-/

namespace Upd

/-- A serializable type, as in `Ty`, or a floating-point type of `k` bytes (`std::is_signed` holds of it, include/upd/detail/type_traits/require.hpp:101-103). -/
inductive RTy where
  | bool
  | uint (n : Nat)
  | sint (k : Nat)
  | real (k : Nat)
  | arr (t : RTy) (n : Nat)
  | user (size : Nat) (fs : List RTy)

/-- A value. -/
inductive RVal where
  | bool (b : Bool)
  | int (z : Int)
  | real (k : Nat) (bits : BitVec (8 * k))
  | arr (vs : List RVal)
  | user (vs : List RVal)

/-- `sizeof(T)`. -/
def RTy.sizeof : RTy → Nat
  | .bool => 1
  | .uint n => n
  | .sint k => k
  | .real k => k
  | .arr t n => n * t.sizeof
  | .user size _ => size

mutual
/-- `detail::serialization_size<T>::value` (include/upd/tuple.hpp:53-67). -/
def RTy.serSize : RTy → Nat
  | .bool => 1
  | .uint n => n
  | .sint k => k
  | .real k => k
  | .arr t n => n * t.sizeof
  | .user _ fs => RTy.serSizes fs

/-- `tuple_base<..., Ts...>::size` (include/upd/tuple.hpp:108). -/
def RTy.serSizes : List RTy → Nat
  | [] => 0
  | t :: ts => t.serSize + RTy.serSizes ts
end

/-- The loop of `read_as<T[N]>` (include/upd/detail/serialization.hpp:76-77). -/
def readLoopR (read : Mem → Nat → M RVal) (stride : Nat) (mem : Mem) : (rem off : Nat) → M (List RVal)
  | 0, _ => .ok []
  | rem + 1, off => do
    let v ← read mem off
    let vs ← readLoopR read stride mem rem (off + stride)
    .ok (v :: vs)

mutual
/-- `read_as<T, Endianess, Signed_Mode>(const byte_t *sequence)` (include/upd/detail/serialization.hpp:59-86); floating-point types take the overload of signed integers (:63-68). -/
def readR (P : Platform) (e : Endian) (s : Mode) : RTy → Mem → Nat → M RVal
  | .bool, mem, off => do
    let b ← readBool P e mem off
    .ok (.bool b)
  | .uint n, mem, off => do
    let z ← readUint P e n mem off
    .ok (.int z)
  | .sint k, mem, off => do
    let z ← readSint P e s k mem off
    .ok (.int z)
  | .real k, mem, off => do
    let bits ← readFloatNative P e k mem off
    .ok (.real k bits)
  | .arr t n, mem, off => do
    let vs ← readLoopR (readR P e s t) t.sizeof mem n off
    .ok (.arr vs)
  | .user _ fs, mem, off => do
    let vs ← readAllR P e s fs mem off
    .ok (.user vs)

/-- `get<Is>()...` on a view at `off` (include/upd/tuple.hpp:184, :132-138). Same simplification as for `readAll`. -/
def readAllR (P : Platform) (e : Endian) (s : Mode) : List RTy → Mem → Nat → M (List RVal)
  | [], _, _ => .ok []
  | t :: ts, mem, off => do
    let v ← readR P e s t mem off
    let vs ← readAllR P e s ts mem (off + t.serSize)
    .ok (v :: vs)
end

/-- The loop of `write_as` on arrays (include/upd/detail/serialization.hpp:141-142). -/
def writeLoopR (write : RVal → Mem → Nat → M Mem) (stride : Nat) : List RVal → Mem → Nat → M Mem
  | [], mem, _ => .ok mem
  | v :: vs, mem, off => do
    let mem ← write v mem off
    writeLoopR write stride vs mem (off + stride)

mutual
/-- `write_as<Endianess, Signed_Mode>(x, byte_t *sequence)` (include/upd/detail/serialization.hpp:127-149); floating-point types take the overload of signed integers (:131-136). -/
def writeR (P : Platform) (e : Endian) (s : Mode) : RTy → RVal → Mem → Nat → M Mem
  | .bool, .bool b, mem, off => writeBool b mem off
  | .uint n, .int z, mem, off => writeUint P e n z mem off
  | .sint k, .int z, mem, off => writeSint P e s k z mem off
  | .real k, .real k' bits, mem, off => if k' = k then writeFloatNative P e k' bits mem off else .error .illTyped
  | .arr t n, .arr vs, mem, off =>
    if vs.length = n then writeLoopR (writeR P e s t) t.sizeof vs mem off else .error .illTyped
  | .user _ fs, .user vs, mem, off => writeAllR P e s fs vs mem off
  | _, _, _, _ => .error .illTyped

/-- `set<Is>(args)...` on a view at `off` (include/upd/tuple.hpp:168-172, :145-151). Same simplification as for `readAll`. -/
def writeAllR (P : Platform) (e : Endian) (s : Mode) : List RTy → List RVal → Mem → Nat → M Mem
  | [], [], mem, _ => .ok mem
  | t :: ts, v :: vs, mem, off => do
    let mem ← writeR P e s t v mem off
    writeAllR P e s ts vs mem (off + t.serSize)
  | _, _, _, _ => .error .illTyped
end

/-- `tuple(const Ts &...args)` (include/upd/tuple.hpp:317, storage :398). -/
def makeR (P : Platform) (e : Endian) (s : Mode) (ts : List RTy) (vs : List RVal) : M Mem :=
  writeAllR P e s ts vs (P.junkBytes (RTy.serSizes ts)) 0

/-- `get<I>()` on a tuple (include/upd/tuple.hpp:131-138). -/
def getR (P : Platform) (e : Endian) (s : Mode) (ts : List RTy) (i : Nat) (mem : Mem) : M RVal :=
  match ts[i]? with
  | some t => readR P e s t mem (RTy.serSizes (ts.take i))
  | none => .error .illTyped

/-- `set<I>(value)` on a tuple (include/upd/tuple.hpp:144-151). -/
def setR (P : Platform) (e : Endian) (s : Mode) (ts : List RTy) (i : Nat) (v : RVal) (mem : Mem) : M Mem :=
  match ts[i]? with
  | some t => writeR P e s t v mem (RTy.serSizes (ts.take i))
  | none => .error .illTyped

mutual
/-- `T{}` (used in include/upd/tuple.hpp:313). The bytes of the floating-point number 0 are null (IEEE 754). -/
def RVal.zero : RTy → RVal
  | .bool => .bool false
  | .uint _ => .int 0
  | .sint _ => .int 0
  | .real k => .real k 0
  | .arr t n => .arr (List.replicate n (RVal.zero t))
  | .user _ fs => .user (RVal.zeros fs)

/-- `Ts{}...`. -/
def RVal.zeros : List RTy → List RVal
  | [] => []
  | t :: ts => RVal.zero t :: RVal.zeros ts
end

variable {σ τ : Type}

/-- A default-constructed tuple whose bytes are then all read from `src` (include/upd/action.hpp:47-48, :56-57, :65-66, :125-126, :136-137, include/upd/key.hpp:124-125). -/
def readFromR (P : Platform) (e : Endian) (s : Mode) (ts : List RTy) (src : Eff τ Byte) : Eff τ Mem := do
  let mem ← Eff.lift (makeR P e s ts (RVal.zeros ts))
  fillFrom src (RTy.serSizes ts) 0 mem

/-- A callback: the types of its parameters and of its result, and what it does. -/
structure RCallback (σ : Type) where
  params : List RTy
  ret : Option RTy
  fn : List RVal → Eff σ (Option RVal)

/-- `detail::call<Tuple>(src, dest, ftor)` (include/upd/action.hpp:53-69, :34-41), and `static_storage_duration_callback_wrapper` (:122-141), which does the same. -/
def callR (P : Platform) (e : Endian) (s : Mode) (cb : RCallback σ) (L : Lens τ σ) (src : Eff τ Byte) (dest : Byte → Eff τ Unit) : Eff τ Unit := do
  let inputArgs ← readFromR P e s cb.params src
  let args ← Eff.lift (readAllR P e s cb.params inputArgs 0)
  let r ← Eff.zoom L (cb.fn args)
  match cb.ret, r with
  | none, none => pure ()
  | some t, some v => do
    let output ← Eff.lift (makeR P e s [t] [v])
    outAll dest output
  | _, _ => Eff.lift (.error .illTyped)

/-- `dispatcher::operator()(src, dest)` (include/upd/dispatcher.hpp:119-127, :141-149, :193-196), for a keyring with these functions; `idxBytes` is `sizeof(index_t)`. -/
def runR (P : Platform) (e : Endian) (s : Mode) (idxBytes : Nat) (cbs : List (RCallback σ)) (L : Lens τ σ) (src : Eff τ Byte) (dest : Byte → Eff τ Unit) : Eff τ Nat := do
  let indexTuple ← readFromR P e s [.uint idxBytes] src
  let v ← Eff.lift (getR P e s [.uint idxBytes] 0 indexTuple)
  match v with
  | .int z =>
    if z.toNat < cbs.length then
      match cbs[z.toNat]? with
      | some cb => do
        callR P e s cb L src dest
        pure z.toNat
      | none => Eff.lift (.error .oobRead)
    else pure z.toNat
  | _ => Eff.lift (.error .illTyped)

/-- `key(args...).write_to(dest)` (include/upd/key.hpp:108-111, include/upd/detail/serialized_message.hpp:21-38). -/
def sendR (P : Platform) (e : Endian) (s : Mode) (idxBytes index : Nat) (params : List RTy) (args : List RVal) (dest : Byte → Eff τ Unit) : Eff τ Unit := do
  let content ← Eff.lift (makeR P e s (.uint idxBytes :: params) (.int index :: args))
  outAll dest content

/-- `key::read_from(src)` (include/upd/key.hpp:121-131). -/
def receiveR (P : Platform) (e : Endian) (s : Mode) (ret : Option RTy) (src : Eff τ Byte) : Eff τ (Option RVal) :=
  match ret with
  | none => pure none
  | some t => do
    let retval ← readFromR P e s [t] src
    let v ← Eff.lift (getR P e s [t] 0 retval)
    pure (some v)

end Upd
