import Verif.Spec.Stream
import Verif.Model.PyObjects

/-!
# What Python objects stand for
-/

namespace Upd.Spec
open Py

/-- `IsNumber o z`: the object is the integer `z`: an `int`, a `bool` (0 or 1), or an object with a method which converts it to an integer. A `float` is
not. -/
inductive IsNumber : Obj → Int → Prop
  | int (z : Int) : IsNumber (.int z) z
  | no : IsNumber (.bool false) 0
  | yes : IsNumber (.bool true) 1
  | inst (z : Int) (t : Option Bool) : IsNumber (.inst (some z) t) z

/-- `IsTruth o b`: the object is `b` as a condition. Strings and lists have no truth value here, although they have one in Python. -/
inductive IsTruth : Obj → Bool → Prop
  | bool (b : Bool) : IsTruth (.bool b) b
  | none : IsTruth .none false
  | zero : IsTruth (.int 0) false
  | int {z : Int} : z ≠ 0 → IsTruth (.int z) true
  | zeroFloat : IsTruth (.float true) false
  | float : IsTruth (.float false) true
  | inst (z : Option Int) (b : Bool) : IsTruth (.inst z (some b)) b

mutual
/-- `Denotes t o v`: as a parameter of type `t`, the object `o` is the value `v`. Integers have to be in the range of their type, lists of the right
length. -/
inductive Denotes : Ty → Obj → Val → Prop
  | bool {o : Obj} {b : Bool} : IsTruth o b → Denotes .bool o (.bool b)
  | uint {n : Nat} {o : Obj} {z : Int} : IsNumber o z → 0 ≤ z → z < 256 ^ n → Denotes (.uint n) o (.int z)
  | sint {k : Nat} {o : Obj} {z : Int} : IsNumber o z → InRange k z → Denotes (.sint k) o (.int z)
  | arr {t : Ty} {n : Nat} {l : List Obj} {vs : List Val} : DenotesAll (List.replicate n t) l vs → Denotes (.arr t n) (.list l) (.arr vs)

/-- The same for several objects, one for each type. -/
inductive DenotesAll : List Ty → List Obj → List Val → Prop
  | nil : DenotesAll [] [] []
  | cons {t : Ty} {o : Obj} {v : Val} {ts : List Ty} {os : List Obj} {vs : List Val} : Denotes t o v → DenotesAll ts os vs →
      DenotesAll (t :: ts) (o :: os) (v :: vs)
end

mutual
/-- `Shows v o`: the object `o` that a Python program receives for the value `v`. -/
inductive Shows : Val → Obj → Prop
  | bool (b : Bool) : Shows (.bool b) (.bool b)
  | int (z : Int) : Shows (.int z) (.int z)
  | arr {vs : List Val} {os : List Obj} : ShowsAll vs os → Shows (.arr vs) (.list os)

/-- The same for several values. -/
inductive ShowsAll : List Val → List Obj → Prop
  | nil : ShowsAll [] []
  | cons {v : Val} {o : Obj} {vs : List Val} {os : List Obj} : Shows v o → ShowsAll vs os → ShowsAll (v :: vs) (o :: os)
end

/-- What a Python program receives when a function has returned: `None` for `void`. -/
inductive ShowsRet : Option Val → Obj → Prop
  | void : ShowsRet none .none
  | value {v : Val} {o : Obj} : Shows v o → ShowsRet (some v) o

/-- What a Python function returned, as a value of the return type; for `void`, anything will do. -/
inductive DenotesRet : Option Ty → Obj → Option Val → Prop
  | void (o : Obj) : DenotesRet none o none
  | value {t : Ty} {o : Obj} {v : Val} : Denotes t o v → DenotesRet (some t) o (some v)

/-- Types that a Python program may use: integers of at most 8 bytes, `bool` and arrays of them. -/
def Bindable : Ty → Prop
  | .bool => True
  | .uint n => 1 ≤ n ∧ n ≤ 8
  | .sint k => 1 ≤ k ∧ k ≤ 8
  | .arr t _ => Bindable t
  | .user _ _ => False

/-- Every value of the type can be encoded in mode `s` by the platform (which is not the case of the least integers, see C02 and C11). -/
def Sends (P : Platform) (s : Mode) (t : Ty) : Prop := ∀ v : Val, v.Fits InRange t → v.Fits (Safe P s) t

/-- From the world `w`, the Python function `fn`, called without argument again and again, returns the objects `os`. -/
inductive Returns {τ : Type} (fn : Eff τ Obj) : τ → List Obj → τ → Prop
  | nil (w : τ) : Returns fn w [] w
  | cons {w w1 w2 : τ} {o : Obj} {os : List Obj} : fn w = .ret o w1 → Returns fn w1 os w2 → Returns fn w (o :: os) w2

/-- The objects are the bytes: integers from 0 to 255. -/
inductive AreBytes : List Obj → List Byte → Prop
  | nil : AreBytes [] []
  | cons {o : Obj} {b : Byte} {os : List Obj} {bs : List Byte} : IsNumber o b.toNat → AreBytes os bs → AreBytes (o :: os) (b :: bs)

/-- The object is no byte. -/
def NoByte (o : Obj) : Prop := ∀ b : Byte, ¬ IsNumber o b.toNat

/-- From the world `w`, the Python function `fn`, called on each of the bytes as an `int`, returns each time. -/
inductive Hears {τ : Type} (fn : Obj → Eff τ Obj) : τ → List Byte → τ → Prop
  | nil (w : τ) : Hears fn w [] w
  | cons {w w1 w2 : τ} {o : Obj} {b : Byte} {bs : List Byte} : fn (.int b.toNat) w = .ret o w1 → Hears fn w1 bs w2 → Hears fn w (b :: bs) w2

end Upd.Spec
