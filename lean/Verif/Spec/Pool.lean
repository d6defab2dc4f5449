import Verif.Model.Pool
import Verif.Spec.Arena
import Verif.Spec.Interchange

/-!
# Several buffered dispatchers on one array: what is expected
-/

namespace Upd.Spec

variable {σ : Type}

/-- One of the dispatchers: its keyring, its functions, the kinds of its actions (when it is buffered, and when it is not), and where its buffers are: `n` bytes at `i`
for the requests, `m` bytes at `o` for the responses. -/
structure PoolSlot (σ : Type) where
  K : Keyring
  f : Features
  f' : Features
  defs : Nat → List Val → Eff σ (Option Val)
  sizeMax : Nat
  i : Nat
  n : Nat
  o : Nat
  m : Nat

/-- The buffers are in the array of `len` bytes, and large enough. Nothing is asked about the buffers of the other dispatchers. -/
structure PoolSlot.Ok (P : Platform) (len : Nat) (S : PoolSlot σ) : Prop where
  setting : Setting P S.K S.f S.defs
  safe : AllDecodeSafe P S.K
  iroom : S.i + S.n ≤ len
  oroom : S.o + S.m ≤ len
  index : S.K.idxBytes ≤ S.n
  requests : RequestsWithin S.K S.n
  responses : ResponsesWithin S.K S.m

/-- The dispatchers exist, the bytes are stored in the array, the new callbacks have the signature of those which they replace, and `replace` with an object is only used
with `ANY`. -/
def PoolOk (P : Platform) (len : Nat) (slots : List (PoolSlot σ)) : PoolProg σ → Prop
  | .done _ => True
  | .act _ next => ∀ r, PoolOk P len slots (next r)
  | .store pos _ next => pos < len ∧ PoolOk P len slots next
  | .serve d _ _ next => d < slots.length ∧ ∀ ok, PoolOk P len slots (next ok)
  | .replace d i cb next => (∃ S, slots[d]? = some S ∧ S.f = .any ∧ S.f' = .any ∧ Suits P S.K i cb) ∧ PoolOk P len slots next
  | .replaceStatic d i cb next => (∃ S, slots[d]? = some S ∧ Suits P S.K i cb) ∧ PoolOk P len slots next

/-- The program itself does not store anything at `k`. -/
def PoolSpares (k : Nat) : PoolProg σ → Prop
  | .done _ => True
  | .act _ next => ∀ r, PoolSpares k (next r)
  | .store pos _ next => pos ≠ k ∧ PoolSpares k next
  | .serve _ _ _ next => ∀ ok, PoolSpares k (next ok)
  | .replace _ _ _ next => PoolSpares k next
  | .replaceStatic _ _ _ next => PoolSpares k next

/-- The element `k` of the array belongs to no buffer, and the program does not store anything there. -/
def PoolUntouched (slots : List (PoolSlot σ)) (prog : PoolProg σ) (k : Nat) : Prop :=
  (∀ S ∈ slots, ¬(S.i ≤ k ∧ k < S.i + S.n) ∧ ¬(S.o ≤ k ∧ k < S.o + S.m)) ∧ PoolSpares k prog

end Upd.Spec
