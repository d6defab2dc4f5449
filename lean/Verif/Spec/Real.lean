import Verif.Model.Real
import Verif.Spec.Stream
import Verif.Spec.Encode

/-!
# Spec: floating-point objects seen as integers
-/

namespace Upd.Spec

mutual
/-- The type in which floating-point numbers are replaced by signed integers of the same size. -/
def RTy.ints : RTy → Ty
  | .bool => .bool
  | .uint n => .uint n
  | .sint k => .sint k
  | .real k => .sint k
  | .arr t n => .arr (RTy.ints t) n
  | .user size fs => .user size (RTy.intss fs)

/-- The same, element-wise. -/
def RTy.intss : List RTy → List Ty
  | [] => []
  | t :: ts => RTy.ints t :: RTy.intss ts
end

mutual
/-- The value in which floating-point objects are replaced by the integers which have the same object representation (two's complement). -/
def RVal.ints : RVal → Val
  | .bool b => .bool b
  | .int z => .int z
  | .real _ bits => .int bits.toInt
  | .arr vs => .arr (RVal.intss vs)
  | .user vs => .user (RVal.intss vs)

/-- The same, element-wise. -/
def RVal.intss : List RVal → List Val
  | [] => []
  | v :: vs => RVal.ints v :: RVal.intss vs
end

mutual
/-- The other way round: the object of the type which has the same object representation. -/
def RVal.of : RTy → Val → RVal
  | .real k, .int z => .real k (BitVec.ofInt (8 * k) z)
  | .real k, _ => .real k 0
  | .arr t _, .arr vs => .arr (RVal.ofAll t vs)
  | .user _ fs, .user vs => .user (RVal.ofs fs vs)
  | _, .bool b => .bool b
  | _, .int z => .int z
  | _, .arr _ => .arr []
  | _, .user _ => .user []

/-- Elements of an array. -/
def RVal.ofAll : RTy → List Val → List RVal
  | _, [] => []
  | t, v :: vs => RVal.of t v :: RVal.ofAll t vs

/-- Elements of a tuple. -/
def RVal.ofs : List RTy → List Val → List RVal
  | t :: ts, v :: vs => RVal.of t v :: RVal.ofs ts vs
  | _, _ => []
end

mutual
/-- The value has the shape of the type. -/
def RVal.Shaped : RTy → RVal → Prop
  | .bool, .bool _ => True
  | .uint _, .int _ => True
  | .sint _, .int _ => True
  | .real k, .real k' _ => k' = k
  | .arr t n, .arr vs => vs.length = n ∧ ∀ v ∈ vs, RVal.Shaped t v
  | .user _ fs, .user vs => RVal.ShapedAll fs vs
  | _, _ => False

/-- The same, element-wise. -/
def RVal.ShapedAll : List RTy → List RVal → Prop
  | [], [] => True
  | t :: ts, v :: vs => RVal.Shaped t v ∧ RVal.ShapedAll ts vs
  | _, _ => False
end

mutual
/-- The bytes which stand for a value, when the signed mode is the representation of the host (two's complement): those of a floating-point number are its object representation, taken as a number. -/
def rwire (e : Endian) : RTy → RVal → List Byte
  | .bool, .bool b => [if b then 1#8 else 0#8]
  | .uint n, .int z => wireBytes e n z.toNat
  | .sint k, .int z => wireBytes e k (signedCode .twosComplement k z)
  | .real k, .real _ bits => wireBytes e k bits.toNat
  | .arr t _, .arr vs => vs.flatMap (rwire e t)
  | .user _ fs, .user vs => rwires e fs vs
  | _, _ => []

/-- The same, for a list of values. -/
def rwires (e : Endian) : List RTy → List RVal → List Byte
  | t :: ts, v :: vs => rwire e t v ++ rwires e ts vs
  | _, _ => []
end

mutual
/-- The value is one of the type. All the objects of a floating-point type are: infinities, NaN, negative zero. -/
def RVal.Fits : RTy → RVal → Prop
  | .bool, .bool _ => True
  | .uint n, .int z => 0 ≤ z ∧ z < 256 ^ n
  | .sint k, .int z => InRange k z
  | .real k, .real k' _ => k' = k
  | .arr t n, .arr vs => vs.length = n ∧ ∀ v ∈ vs, RVal.Fits t v
  | .user _ fs, .user vs => RVal.FitsAll fs vs
  | _, _ => False

/-- The same, element-wise. -/
def RVal.FitsAll : List RTy → List RVal → Prop
  | [], [] => True
  | t :: ts, v :: vs => RVal.Fits t v ∧ RVal.FitsAll ts vs
  | _, _ => False
end

/-- The bytes of a response. -/
def rresponse (e : Endian) : Option RTy → Option RVal → List Byte
  | some t, some v => rwire e t v
  | _, _ => []

/-- What a function returned is of its return type. -/
def RetFits : Option RTy → Option RVal → Prop
  | none, none => True
  | some t, some v => RVal.Fits t v
  | _, _ => False

/-- Whenever the function returns, on arguments of the right types, it returns a value of its return type. -/
def RTyped {σ : Type} (cb : RCallback σ) : Prop :=
  ∀ args w r w', RVal.FitsAll cb.params args → cb.fn args w = .ret r w' → RetFits cb.ret r

/-- The signature in which floating-point types are replaced by integer types of the same size. -/
def RCallback.sig {σ : Type} (cb : RCallback σ) : Sig := ⟨RTy.intss cb.params, cb.ret.map RTy.ints⟩

/-- The callback which takes and returns integers with the same object representations. -/
def RCallback.ints {σ : Type} (cb : RCallback σ) : Callback σ :=
  ⟨RCallback.sig cb, fun vs => do
    let r ← cb.fn (RVal.ofs cb.params vs)
    pure (r.map RVal.ints)⟩

/-- The keyring of these functions, whose names are their positions. -/
def realRing {σ : Type} (e : Endian) (s : Mode) (cbs : List (RCallback σ)) : Keyring :=
  ⟨e, s, cbs.zipIdx.map fun p => ⟨p.2, RCallback.sig p.1⟩⟩

/-- Their definitions. -/
def realDefs {σ : Type} (cbs : List (RCallback σ)) (name : Nat) (args : List Val) : Eff σ (Option Val) :=
  match cbs[name]? with
  | some cb => (RCallback.ints cb).fn args
  | none => pure none

end Upd.Spec
