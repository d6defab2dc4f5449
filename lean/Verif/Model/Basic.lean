/-!
# Basic notions of the model

Bytes, faults (undefined behaviour made explicit), bounds-checked memory, platforms.
-/

namespace Upd

/-- `upd::byte_t` = `unsigned char` (include/upd/type.hpp), with 8 bits (assumption). -/
abbrev Byte := BitVec 8

/-- Ways for a modelled C++ execution to go wrong. Each one is undefined behaviour in C++, except `illTyped`
(the C++ program would not compile) and `starved` (an artefact of the model: a loop bound was too low, proved unreachable).
`ibufOverrun` and `obufOverrun` are out-of-bounds accesses to the input and output buffers of a buffered dispatcher, told
apart from the other ones; `dangling` is an access to an object whose lifetime has ended; `badCast` is the conversion of
a floating-point number to an integer type which cannot represent its integral part, or the use of an object through a reference
obtained by `reinterpret_cast` from another object which is not at its address. -/
inductive Fault where
  | signedOverflow
  | badShift
  | oobRead
  | oobWrite
  | nullDeref
  | badBool
  | illTyped
  | starved
  | ibufOverrun
  | obufOverrun
  | dangling
  | badCast
  deriving DecidableEq, Repr

/-- Outcome of a modelled C++ expression: a value, or a fault. -/
abbrev M (α : Type) := Except Fault α

instance {α : Type} [DecidableEq α] : DecidableEq (M α) := fun x y =>
  match x, y with
  | .ok a, .ok b => if h : a = b then isTrue (by rw [h]) else isFalse (fun h' => h (by injection h'))
  | .error a, .error b => if h : a = b then isTrue (by rw [h]) else isFalse (fun h' => h (by injection h'))
  | .ok _, .error _ => isFalse (fun h => by cases h)
  | .error _, .ok _ => isFalse (fun h => by cases h)

/-- `upd::endianess` (include/upd/format.hpp:10). -/
inductive Endian where
  | little
  | big
  deriving DecidableEq, Repr

/-- `upd::signed_mode` (include/upd/format.hpp:13). -/
inductive Mode where
  | signMagnitude
  | onesComplement
  | twosComplement
  | offsetBinary
  deriving DecidableEq, Repr

/-- What the C++ code depends on besides its source: the byte order of the host, `sizeof(int)`, the two configuration
macros (include/upd/upd.hpp:15-33, `platform_info`; `none` when the macro is not defined, in which case the comparison
with any enumerator is false), and the content of uninitialised storage (`junk`). -/
structure Platform where
  host : Endian
  intBytes : Nat
  endianMacro : Option Endian
  signedMacro : Option Mode
  junk : Nat → Byte

/-- Assumptions on the platform: `int` has 2 to 8 bytes, and the macros, when defined, describe the host (whose signed
integers are in two's complement, the only representation in use and the only one allowed since C++20). -/
structure Platform.Valid (P : Platform) : Prop where
  int_ge : 2 ≤ P.intBytes
  int_le : P.intBytes ≤ 8
  endian : ∀ e, P.endianMacro = some e → e = P.host
  signed : ∀ s, P.signedMacro = some s → s = Mode.twosComplement

/-- An object or a buffer, as its sequence of bytes. -/
abbrev Mem := List Byte

/-- `p[i]` as an rvalue, where `p` points to the start of the object `m`. -/
def Mem.rd (m : Mem) (i : Nat) : M Byte :=
  match m[i]? with
  | some b => .ok b
  | none => .error .oobRead

/-- `p[i] = b`, where `p` points to the start of the object `m`. -/
def Mem.wr (m : Mem) (i : Nat) (b : Byte) : M Mem :=
  if i < m.length then .ok (m.set i b) else .error .oobWrite

/-- Source of a `memcpy`: the `n` bytes starting at `off`. -/
def Mem.rdN (m : Mem) (off : Nat) : Nat → M (List Byte)
  | 0 => .ok []
  | n + 1 => do
    let b ← m.rd off
    let bs ← m.rdN (off + 1) n
    .ok (b :: bs)

/-- Destination of a `memcpy`: store `bs` starting at `off`. -/
def Mem.wrN (m : Mem) (off : Nat) : List Byte → M Mem
  | [] => .ok m
  | b :: bs => do
    let m ← m.wr off b
    m.wrN (off + 1) bs

/-- `n` bytes of uninitialised automatic storage on platform `P`. -/
def Platform.junkBytes (P : Platform) (n : Nat) : Mem := (List.range n).map P.junk

/-- Object representation on a host with byte order `h` of an unsigned integer of `k` bytes and of value `x`: what
`memcpy` from it reads. -/
def objBytes (h : Endian) (k : Nat) (x : Nat) : List Byte :=
  let le := (List.range k).map fun i => BitVec.ofNat 8 (x / 256 ^ i)
  match h with
  | .little => le
  | .big => le.reverse

/-- Value of an unsigned integer object whose representation on a host with byte order `h` is `bs`: what is read after a
`memcpy` into it. -/
def ofObjBytes (h : Endian) (bs : List Byte) : Nat :=
  let value (l : List Byte) := l.foldr (fun b acc => b.toNat + 256 * acc) 0
  match h with
  | .little => value bs
  | .big => value bs.reverse

end Upd
