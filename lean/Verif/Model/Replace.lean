import Verif.Model.Python

/-!
# Replacing the callbacks of a buffered dispatcher
-/

namespace Upd

variable {σ : Type}

/-- `buffered_dispatcher::replace<Index>(F &&)` (include/upd/buffered_dispatcher.hpp:214-217): only for `action_features::ANY`. -/
def Buf.replace (b : Buf σ) (index : Nat) (cb : Callback σ) : Buf σ := { b with disp := b.disp.replace index cb }

/-- `buffered_dispatcher::replace<Index>(unevaluated<F, Ftor>)` and `replace<Index, Ftor>()` (include/upd/buffered_dispatcher.hpp:182-185,
:207-210). -/
def Buf.replaceStatic (b : Buf σ) (index : Nat) (cb : Callback σ) : Buf σ := { b with disp := b.disp.replaceStatic index cb }

/-- `self[index] = action` (include/upd/buffered_dispatcher.hpp:252, include/upd/dispatcher.hpp:193): no bound check in C++. -/
def Buf.assign (b : Buf σ) (index : Nat) (a : Action σ) : M (Buf σ) :=
  if index < b.disp.acts.length then .ok { b with disp := { b.disp with acts := b.disp.acts.set index a } } else .error .oobWrite

/-- `replace(pykey, pyfunction)` of the Python class (include/upd/python.hpp:172-174), with `index` and `__make_action` of the key (:92-103). The
index, given as a Python integer, is converted to `index_t`. `cb` is the Python function along with the conversions of its arguments and of what it
returns; an exception raised by the function, or by the conversion of what it returns, is thrown. -/
def Buf.pyReplace (b : Buf σ) (k : Key) (fn : List Val → Eff σ (Option Val)) : M (Buf σ) :=
  b.assign (k.index % 256 ^ b.disp.idxBytes) (.stored k.e k.s ⟨k.sig, fn⟩)

end Upd
