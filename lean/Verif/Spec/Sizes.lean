import Verif.Spec.Replace
import Verif.Model.Custom

/-!
# Sizes of the buffers which a keyring needs
-/

namespace Upd.Spec

/-- Buffers of `n` bytes (input) and `m` bytes (output) will do for the keyring (one buffer of `n` bytes if `shared`): whatever the functions do, provided that
they have no undefined behaviour of their own, whatever the buffers contain at the beginning, no sequence of `put`, `get` and `is_loaded` accesses a buffer out of
its bounds. If there is only one buffer, a byte is put only once the response has been drained. -/
def Enough (P : Platform) (K : Keyring) (f : Features) (shared : Bool) (n m : Nat) : Prop :=
  ∀ (σ : Type) (defs : Nat → List Val → Eff σ (Option Val)), Setup P K f defs → (∀ d ∈ K.decls, ∀ args w flt, defs d.name args w ≠ .fault flt) →
    ∀ (ibuf obuf : Mem), ibuf.length = n → obuf.length = m → ∀ (sizeMax : Nat) (w : σ) (ops : List Io),
      (shared = true → Drained P ops (Buf.custom K f defs sizeMax shared ibuf obuf, w)) →
      runAll (Io.run P) ops (Buf.custom K f defs sizeMax shared ibuf obuf, w) ≠ .fault .ibufOverrun ∧
      runAll (Io.run P) ops (Buf.custom K f defs sizeMax shared ibuf obuf, w) ≠ .fault .obufOverrun

/-- The greatest element, 0 if there is none. -/
def greatest : List Nat → Nat
  | [] => 0
  | x :: xs => max x (greatest xs)

/-- Length of the longest request. -/
def longestRequest (K : Keyring) : Nat := greatest (K.decls.map fun d => K.idxBytes + wireSizes d.sig.params)

/-- Length of the longest response. -/
def longestResponse (K : Keyring) : Nat := greatest (K.decls.map fun d => retSize d.sig.ret)

/-- What a keyring has to satisfy for dispatchers with these features to be usable: supported types, at least one function, one signature by function, and for
`WEAK_REFERENCE` no user-defined type whose serialized size is not its size in memory. -/
structure Usable (P : Platform) (K : Keyring) (f : Features) : Prop where
  valid : P.Valid
  ring : KeyringOk K
  sup : Supported P K.e K.s
  nonempty : K.decls ≠ []
  one : ∀ d ∈ K.decls, ∀ d' ∈ K.decls, d.name = d'.name → d.sig = d'.sig
  sizes : f = .weakReference → ∀ d ∈ K.decls, ∀ t ∈ d.sig.params, t.sizeof = wireSize t

/-- `n` is the smallest size of the buffer of a single buffered dispatcher. -/
def LeastOne (P : Platform) (K : Keyring) (f : Features) (n : Nat) : Prop :=
  Enough P K f true n 0 ∧ ∀ n' m', Enough P K f true n' m' → n ≤ n'

/-- `n` and `m` are the smallest sizes of the buffers of a double buffered dispatcher. -/
def LeastTwo (P : Platform) (K : Keyring) (f : Features) (n m : Nat) : Prop :=
  Enough P K f false n m ∧ ∀ n' m', Enough P K f false n' m' → n ≤ n' ∧ m ≤ m'

end Upd.Spec
