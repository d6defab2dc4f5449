import Verif.Model.Effect

/-!
# Model of include/upd/key.hpp, include/upd/keyring.hpp and include/upd/detail/serialized_message.hpp
-/

namespace Upd
open TypeList

/-- Signature of a callback, without reference and cv-qualifiers (`remove_cv_ref_t`, include/upd/key.hpp:81, :83; `sizeof` of a
reference is the size of the referred type). `ret = none` for `void`. -/
structure Sig where
  params : List Ty
  ret : Option Ty

/-- `parameters_size<R(Args...)>` (include/upd/detail/type_traits/signature.hpp:104-107): sum of the `sizeof`. -/
def Sig.parametersSize (g : Sig) : Nat := sum11 0 (g.params.map Ty.sizeof)

/-- `return_type_size<R(Args...)>` (include/upd/detail/type_traits/signature.hpp:123-128). -/
def Sig.returnTypeSize (g : Sig) : Nat :=
  match g.ret with
  | none => 0
  | some t => t.sizeof

/-- `key<Index_T, Index, R(Args...), Endianess, Signed_Mode>` (include/upd/key.hpp:67-162): its template parameters. -/
structure Key where
  e : Endian
  s : Mode
  /-- `sizeof(Index_T)` -/
  idxBytes : Nat
  index : Nat
  sig : Sig

/-- `key::payload_length` (include/upd/key.hpp:96). -/
def Key.payloadLength (k : Key) : Nat := k.idxBytes + k.sig.parametersSize

/-- `key::operator()(args...)` (include/upd/key.hpp:108-111): the content of the `serialized_message`
(include/upd/detail/serialized_message.hpp:21, :38). -/
def Key.message (P : Platform) (k : Key) (args : List Val) : M Mem :=
  Tuple.make P k.e k.s (.uint k.idxBytes :: k.sig.params) (.int k.index :: args)

/-- `key(args...).write_to(dest)` (include/upd/detail/serialized_message.hpp:32-36). -/
def Key.writeTo {τ : Type} (P : Platform) (k : Key) (args : List Val) (dest : Byte → Eff τ Unit) : Eff τ Unit := do
  let content ← Eff.lift (k.message P args)
  outAll dest content

/-- `key::read_from(src)` (include/upd/key.hpp:121-131). -/
def Key.readFrom {τ : Type} (P : Platform) (k : Key) (src : Eff τ Byte) : Eff τ (Option Val) :=
  match k.sig.ret with
  | none => pure none
  | some t => do
    let retval ← Tuple.readFrom P k.e k.s [t] src
    let v ← Eff.lift ((Tuple.self k.e k.s [t]).get P 0 retval)
    pure (some v)

/-- A callback known to a keyring, `unevaluated<F, Function>` (include/upd/unevaluated.hpp:18-21): the function it refers to
(`name`; the equality of two such types is the identity of the functions) and its signature. -/
structure Decl where
  name : Nat
  sig : Sig

/-- `keyring<Endianess, Signed_Mode, unevaluated<Fs, Functions>...>` (include/upd/keyring.hpp:40-98): its template parameters. -/
structure Keyring where
  e : Endian
  s : Mode
  decls : List Decl

/-- `sizeof(keyring::index_t)` (include/upd/keyring.hpp:52). -/
def Keyring.idxBytes (K : Keyring) : Nat := smallestUnsigned K.decls.length

/-- `keyring::size` (include/upd/keyring.hpp:64), of type `index_t`. -/
def Keyring.size (K : Keyring) : Nat := K.decls.length % 256 ^ K.idxBytes

/-- `keyring::get(H)` (include/upd/keyring.hpp:56-61, :85-88), with the index found by `find`; the function called `name`. The
index is a template parameter of type `index_t`. -/
def Keyring.keyAt (K : Keyring) (index : Option Nat) : Option Key :=
  match index with
  | none => none
  | some i =>
    match at11 K.decls i with
    | none => none
    | some d => some ⟨K.e, K.s, K.idxBytes, i % 256 ^ K.idxBytes, d.sig⟩

/-- `keyring::get(H)` before C++17: see `Keyring.keyAt`. -/
def Keyring.get11 (K : Keyring) (name : Nat) : Option Key := K.keyAt (find11 name 0 (K.decls.map (·.name)))

/-- `keyring::get(H)` in C++17: see `Keyring.keyAt`. -/
def Keyring.get17 (K : Keyring) (name : Nat) : Option Key := K.keyAt (find17 (K.decls.map (·.name)) name)

end Upd
