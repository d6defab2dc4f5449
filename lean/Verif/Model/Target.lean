import Verif.Model.Key

/-!
# Headers

The keyring is meant to be declared in a header which the programs of all the devices include (test/snippet/motion_keyring.hpp, doc/shared.rst.in). The
types of its functions are names, whose meaning depends on the compiler.
-/

namespace Upd

/-- The standard integer types, without their sign. -/
inductive NInt where
  | char
  | short
  | int
  | long
  | longLong

/-- A type, as it is written in a header. `bool` has one byte everywhere, as on all known compilers. -/
inductive NTy where
  | bool
  /-- `char`, which is neither `signed char` nor `unsigned char` -/
  | char
  | wchar
  /-- a standard integer type, with its sign (`signed char`, `unsigned long`...) -/
  | std (i : NInt) (signed : Bool)
  /-- `std::intN_t` and `std::uintN_t`, with their size in bytes -/
  | fixed (n : Nat) (signed : Bool)
  /-- `std::size_t`, `std::ptrdiff_t` -/
  | size (signed : Bool)
  | arr (t : NTy) (n : Nat)
  /-- the class number `id`, with a `upd_extension`; types of the parameters of `unserialize` -/
  | cls (id : Nat) (fs : List NTy)

/-- A compiler and what it compiles for: what the library depends on (`Platform`), and what C++ leaves open about the integer types ([basic.fundamental],
[support.types.layout]) and the sizes of classes. -/
structure Target where
  plat : Platform
  charSigned : Bool
  wchar : Nat
  wcharSigned : Bool
  short : Nat
  long : Nat
  size : Nat
  cls : Nat → Nat

/-- What C++ says of the sizes, bytes having eight bits (`std::uint8_t` exists, since the library uses it: include/upd/detail/type_traits/smallest.hpp:32). `long long` has eight bytes,
as on all known compilers. -/
structure Target.Valid (T : Target) : Prop where
  plat : T.plat.Valid
  short_ge : 2 ≤ T.short
  short_le : T.short ≤ T.plat.intBytes
  long_ge : 4 ≤ T.long ∧ T.plat.intBytes ≤ T.long
  long_le : T.long ≤ 8
  wchar : 1 ≤ T.wchar ∧ T.wchar ≤ 8
  size : 2 ≤ T.size ∧ T.size ≤ 8
  cls : ∀ id, 1 ≤ T.cls id

/-- An integer type of `n` bytes. -/
def intTy (signed : Bool) (n : Nat) : Ty := if signed then .sint n else .uint n

/-- Sizes of the standard integer types. -/
def Target.sizeOf (T : Target) : NInt → Nat
  | .char => 1
  | .short => T.short
  | .int => T.plat.intBytes
  | .long => T.long
  | .longLong => 8

mutual
/-- What a type is for the compiler. The library only looks at `std::is_signed`, `std::is_unsigned` and `sizeof`
(include/upd/detail/type_traits/require.hpp:97-103, include/upd/detail/serialization.hpp:59-110). -/
def Target.ty (T : Target) : NTy → Ty
  | .bool => .bool
  | .char => intTy T.charSigned 1
  | .wchar => intTy T.wcharSigned T.wchar
  | .std i signed => intTy signed (T.sizeOf i)
  | .fixed n signed => intTy signed n
  | .size signed => intTy signed T.size
  | .arr t n => .arr (T.ty t) n
  | .cls id fs => .user (T.cls id) (T.tys fs)

/-- `ty`, element-wise. -/
def Target.tys (T : Target) : List NTy → List Ty
  | [] => []
  | t :: ts => T.ty t :: T.tys ts
end

/-- A function declared in a header. -/
structure NDecl where
  name : Nat
  params : List NTy
  ret : Option NTy

/-- A header: `make_keyring(flist, endianess, signed_mode)` and the declarations of the functions (test/snippet/motion_keyring.hpp, include/upd/keyring.hpp:40-98). -/
structure Header where
  e : Endian
  s : Mode
  decls : List NDecl

/-- A function, for a compiler. -/
def NDecl.on (d : NDecl) (T : Target) : Decl := ⟨d.name, ⟨T.tys d.params, d.ret.map T.ty⟩⟩

/-- The keyring, for a compiler. -/
def Header.on (H : Header) (T : Target) : Keyring := ⟨H.e, H.s, H.decls.map (·.on T)⟩

end Upd
