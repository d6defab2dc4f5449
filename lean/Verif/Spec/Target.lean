import Verif.Spec.Session
import Verif.Model.Target

/-!
# Types which are the same for two compilers
-/

namespace Upd.Spec

mutual
/-- The type has the same values and takes the same number of bytes on both targets (the sizes of classes as objects do not matter). -/
def Agree (T U : Target) : NTy → Prop
  | .bool => True
  | .char => T.charSigned = U.charSigned
  | .wchar => T.wcharSigned = U.wcharSigned ∧ T.wchar = U.wchar
  | .std i _ => T.sizeOf i = U.sizeOf i
  | .fixed _ _ => True
  | .size _ => T.size = U.size
  | .arr t _ => Agree T U t
  | .cls _ fs => AgreeAll T U fs

/-- `Agree`, element-wise. -/
def AgreeAll (T U : Target) : List NTy → Prop
  | [] => True
  | t :: ts => Agree T U t ∧ AgreeAll T U ts
end

mutual
/-- The type is made of `bool`, `std::intN_t`, `std::uintN_t`, `signed char`, `unsigned char`, `long long` and `unsigned long long` only. -/
def Portable : NTy → Prop
  | .bool | .fixed _ _ | .std .char _ | .std .longLong _ => True
  | .char | .wchar | .std _ _ | .size _ => False
  | .arr t _ => Portable t
  | .cls _ fs => PortableAll fs

/-- `Portable`, element-wise. -/
def PortableAll : List NTy → Prop
  | [] => True
  | t :: ts => Portable t ∧ PortableAll ts
end

/-- The types of the parameters and of the results of the functions are the same on both targets. -/
def HeaderAgree (T U : Target) (H : Header) : Prop :=
  ∀ d ∈ H.decls, AgreeAll T U d.params ∧ ∀ t, d.ret = some t → Agree T U t

/-- The functions called are in the header, and the arguments can be sent by the caller and received by the callee: they are values of the types of the
parameters on both targets. -/
def PeersOk (T U : Target) (H : Header) (calls : List (Nat × List Val)) : Prop :=
  CallsOk T.plat T.plat (H.on T) calls ∧ CallsOk U.plat U.plat (H.on U) calls

end Upd.Spec
