import Verif.Spec.History

/-!
# Spec: what the library does to its surroundings, in order

Everything the library does to the rest of the world is getting bytes from the source, calling functions, and giving bytes to the destination. These are recorded, as soon as they are attempted.
-/

namespace Upd.Spec

variable {σ α : Type}

/-- What is recorded. -/
inductive Deed where
  | got
  | called (name : Nat)
  | gave
  deriving DecidableEq

/-- The rest of the world, and the record. -/
abbrev Watched (σ : Type) := σ × List Deed

/-- Does `x`, which may do anything but see the record, and records `d`. -/
def watch (d : Deed) (x : Eff σ α) : Eff (Watched σ) α := fun st =>
  match x st.1 with
  | .ret a w => .ret a (w, st.2 ++ [d])
  | .threw w => .threw (w, st.2 ++ [d])
  | .fault f => .fault f

/-- Functions whose calls are recorded. -/
def watched (defs : Nat → List Val → Eff σ (Option Val)) : Nat → List Val → Eff (Watched σ) (Option Val) := fun name args => watch (.called name) (defs name args)

/-- What is done for a request of the function `d`, once `m` of its bytes have been received: the other bytes are got, the function is called, the bytes of the response are given. -/
def servedCourse (K : Keyring) (d : Decl) (m : Nat) : List Deed :=
  List.replicate (K.idxBytes + wireSizes d.sig.params - m) .got ++ .called d.name :: List.replicate (retSize d.sig.ret) .gave

/-- What is done for an unknown index, once `m` of its bytes have been received. -/
def droppedCourse (K : Keyring) (m : Nat) : List Deed := List.replicate (K.idxBytes - m) .got

/-- The first things which are done for a packet, and no other. -/
def Begun (K : Keyring) (m : Nat) (l : List Deed) : Prop := l <+: droppedCourse K m ∨ ∃ d ∈ K.decls, l <+: servedCourse K d m

end Upd.Spec
