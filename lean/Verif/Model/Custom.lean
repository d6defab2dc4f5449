import Verif.Model.Replace

/-!
# Buffered dispatchers with buffers provided by the user
-/

namespace Upd

variable {σ : Type}

/-- An object of a class written by the user, which derives from `buffered_dispatcher` (include/upd/buffered_dispatcher.hpp:67-73; "You can implement
your owm kind of buffered dispatcher", doc/callee.rst.in:47): `ibuf_begin()` and `obuf_begin()` return pointers to arrays whose contents are `ibuf` and
`obuf`, or twice a pointer to `ibuf` (`shared`). Arrays which overlap in another way are in Verif/Model/Arena.lean. -/
def Buf.custom (K : Keyring) (f : Features) (defs : Nat → List Val → Eff σ (Option Val)) (sizeMax : Nat) (shared : Bool) (ibuf obuf : Mem) : Buf σ :=
  Buf.init (Dispatcher.make K f defs) shared sizeMax ibuf obuf

end Upd
