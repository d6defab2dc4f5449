import Verif.Spec.Session

/-!
# Versions of a keyring
-/

namespace Upd.Spec

/-- `K'` is a later version of `K`: functions have been added at the end, the format is the same, and the number of functions has not passed 255,
65535 or 4294967295. -/
structure Extends (K K' : Keyring) : Prop where
  e : K'.e = K.e
  s : K'.s = K.s
  decls : K.decls <+: K'.decls
  range : ∀ m ∈ [1, 2, 4], K.decls.length < 256 ^ m → K'.decls.length < 256 ^ m

end Upd.Spec
