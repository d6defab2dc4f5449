import Verif.Model.Params

/-! Notions used in the statements about the types of parameters and results (C84). -/

namespace Upd.Spec
open Upd.Cpp

/-- The types which the library announces as serializable (message of the `static_assert` of include/upd/tuple.hpp:91-93): "integer types, types with user-defined extension and array types of any of these". -/
inductive Announced : VTy → Prop where
  | arith (i : Nat) : Announced (.arith i)
  | user (i : Nat) (d : Bool) {fs : List VTy} (h : ∀ f ∈ fs, Announced f) : Announced (.user i d fs)
  | carr {t : VTy} (n : Nat) (h : Announced t) : Announced (.carr t n)
  | sarr {t : VTy} (n : Nat) (h : Announced t) : Announced (.sarr t n)

/-- The elements of an array can be of this type: it is not an extended class. -/
def NotUser (t : VTy) : Prop := ∀ i d fs, t ≠ .user i d fs

/-- The type is made of arithmetic types, extended classes and arrays of any kind, except arrays of extended classes. -/
inductive Encodable : VTy → Prop where
  | arith (i : Nat) : Encodable (.arith i)
  | user (i : Nat) (d : Bool) {fs : List VTy} (h : ∀ f ∈ fs, Encodable f) : Encodable (.user i d fs)
  | carr {t : VTy} (n : Nat) (h : Encodable t) (hu : NotUser t) : Encodable (.carr t n)
  | sarr {t : VTy} (n : Nat) (h : Encodable t) (hu : NotUser t) : Encodable (.sarr t n)

/-- The same, where no array has arrays `T[N]` as elements (they may be `std::array`). -/
inductive Decodable : VTy → Prop where
  | arith (i : Nat) : Decodable (.arith i)
  | user (i : Nat) (d : Bool) {fs : List VTy} (h : ∀ f ∈ fs, Decodable f) : Decodable (.user i d fs)
  | carr {t : VTy} (n : Nat) (h : Decodable t) (hu : NotUser t) (hn : ∀ u m, t ≠ .carr u m) : Decodable (.carr t n)
  | sarr {t : VTy} (n : Nat) (h : Decodable t) (hu : NotUser t) (hn : ∀ u m, t ≠ .carr u m) : Decodable (.sarr t n)

/-- The extended classes at the bottom of the arrays have a default constructor. -/
inductive HasDefault : VTy → Prop where
  | arith (i : Nat) : HasDefault (.arith i)
  | user (i : Nat) (fs : List VTy) : HasDefault (.user i true fs)
  | carr {t : VTy} (n : Nat) (h : HasDefault t) : HasDefault (.carr t n)
  | sarr {t : VTy} (n : Nat) (h : HasDefault t) : HasDefault (.sarr t n)

/-- `T &`. -/
def QTy.MutableRef (p : QTy) : Prop := p.ref = .lvalue ∧ p.isConst = false

end Upd.Spec
