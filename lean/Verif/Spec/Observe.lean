import Verif.Spec.History

/-!
# What the peer of a callee may observe
-/

namespace Upd.Spec

variable {σ σ' τ τ' α β : Type}

/-- Two outcomes are of the same kind (value, exception or same fault), with values related by `V` and states related by `R`. -/
def Related (R : τ → τ' → Prop) (V : α → β → Prop) : Res τ α → Res τ' β → Prop
  | .ret a t, .ret a' t' => V a a' ∧ R t t'
  | .threw t, .threw t' => R t t'
  | .fault f, .fault f' => f = f'
  | _, _ => False

/-- From states related by `R`, the same outcome, and states related by `R`. -/
def SameRun (R : τ → τ' → Prop) (x : Eff τ α) (y : Eff τ' α) : Prop := ∀ t t', R t t' → Related R (· = ·) (x t) (y t')

/-- Two families of definitions of the functions of a keyring, which may have different states: from related states and on the same arguments, they have the
same outcomes, and leave related states. -/
def Indistinct (P : Platform) (K : Keyring) (R : σ → σ' → Prop) (defs : Nat → List Val → Eff σ (Option Val))
    (defs' : Nat → List Val → Eff σ' (Option Val)) : Prop :=
  ∀ d ∈ K.decls, ∀ args, Val.FitsAll (Safe P K.s) d.sig.params args → SameRun R (defs d.name args) (defs' d.name args)

/-- A program which uses a buffered dispatcher, each of its calls depending on what the previous ones have returned (`none`: an exception, which has been
caught), and has a result in the end. -/
inductive Observer (α : Type) where
  | done (a : α)
  | io (op : Io) (next : Option Obs → Observer α)

/-- Runs the program. -/
def Observer.run (P : Platform) : Observer α → Eff (BState σ) α
  | .done a => pure a
  | .io op next => fun st =>
    match op.run P st with
    | .ret o st => (next (some o)).run P st
    | .threw st => (next none).run P st
    | .fault f => .fault f

/-- What the program which holds a buffered dispatcher may do with it. `L` is the state of the program (the lines to the peer…), on which its getters and putters
act, as opposed to the state of the functions. `act`: anything on the former. -/
inductive HolderOp (L : Type) where
  | io (op : Io)
  | readFrom (src : Eff L Byte)
  | writeTo (dest : Byte → Eff L Unit)
  | process (src : Eff L Byte) (dest : Byte → Eff L Unit)
  | reply (k : Key) (n : Nat) (output : Byte → Eff L Unit)
  | act (x : Eff L Unit)

/-- The state of the program, beside the one of the functions. -/
def holderSide (L S : Type) : Lens (L × S) L := ⟨Prod.fst, fun l t => (l, t.2)⟩

/-- Does it. -/
def HolderOp.run {L S : Type} (P : Platform) : HolderOp L → Eff (BState (L × S)) Obs
  | .io op => op.run P
  | .readFrom src => Buf.readFrom P (Eff.zoom (holderSide L S) src) >>= fun st => pure (.status st)
  | .writeTo dest => Buf.writeTo (fun x => Eff.zoom (holderSide L S) (dest x)) >>= fun _ => pure .unit
  | .process src dest => Buf.process P (Eff.zoom (holderSide L S) src) (fun x => Eff.zoom (holderSide L S) (dest x)) >>= fun st => pure (.status st)
  | .reply k n output => Buf.reply P k n (fun x => Eff.zoom (holderSide L S) (output x)) >>= fun _ => pure .unit
  | .act x => Eff.zoom ⟨fun st => st.2.1, fun l st => (st.1, l, st.2.2)⟩ x >>= fun _ => pure .unit

/-- A program which holds a buffered dispatcher: what it does may depend on what the previous calls have returned (`none`: an exception, which has been caught)
and on its own state. It has a result in the end. -/
inductive Holder (L α : Type) where
  | done (a : α)
  | step (op : HolderOp L) (next : Option Obs → L → Holder L α)

/-- Runs the program. -/
def Holder.run {L S : Type} (P : Platform) : Holder L α → Eff (BState (L × S)) α
  | .done a => pure a
  | .step op next => fun st =>
    match op.run P st with
    | .ret o st => (next (some o) st.2.1).run P st
    | .threw st => (next none st.2.1).run P st
    | .fault f => .fault f

/-- Same state of the program, and states of the functions related by `R`. -/
def Beside {L S S' : Type} (R : S → S' → Prop) (t : L × S) (t' : L × S') : Prop := t.1 = t'.1 ∧ R t.2 t'.2

/-- An outcome without the state. -/
def forget : Res τ α → Res Unit α
  | .ret a _ => .ret a ()
  | .threw _ => .threw ()
  | .fault f => .fault f

/-- Calls the functions of a keyring one after the other, and gives the results. -/
def asked (K : Keyring) (defs : Nat → List Val → Eff σ (Option Val)) : List (Nat × List Val) → Eff σ (List (Option Val))
  | [] => pure []
  | (i, args) :: calls =>
    match K.decls[i]? with
    | none => asked K defs calls
    | some d => do
      let r ← defs d.name args
      let rs ← asked K defs calls
      pure (r :: rs)

/-- The calls are those of functions of the keyring, on suitable arguments. -/
def CallsFit (P : Platform) (K : Keyring) (calls : List (Nat × List Val)) : Prop :=
  ∀ c ∈ calls, ∃ d, K.decls[c.1]? = some d ∧ Val.FitsAll (Safe P K.s) d.sig.params c.2

end Upd.Spec
