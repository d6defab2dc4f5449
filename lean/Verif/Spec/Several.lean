import Verif.Model.Several
import Verif.Model.Replace
import Verif.Spec.Caught

/-!
# Programs with several dispatchers
-/

namespace Upd.Spec

variable {σ : Type}

/-- What a program does with one dispatcher. `replace` replaces the function at `index` by the function number `name`, of signature `sig`. -/
inductive OwnOp where
  | io (op : Io)
  | replace (index : Nat) (sig : Sig) (name : Nat)

/-- Effect of an operation on a dispatcher. The definitions of the functions are given by their numbers. -/
def OwnOp.run (P : Platform) (defs : Nat → List Val → Eff σ (Option Val)) : OwnOp → Eff (BState σ) Obs
  | .io op => op.run P
  | .replace index sig name => fun st => .ret .unit (st.1.replaceStatic index ⟨sig, defs name⟩, st.2)

/-- What a program does with several dispatchers, numbered in the order of their creations. -/
inductive SevOp where
  | new (K : Keyring) (f : Features) (shared : Bool)
  | copy (n : Nat)
  | on (n : Nat) (op : OwnOp)

/-- Effect of an operation: only the dispatcher it is about and the world may change. -/
def SevOp.run (P : Platform) (defs : Nat → List Val → Eff σ (Option Val)) (sizeMax : Nat) : SevOp → Eff (List (Buf σ) × σ) Obs
  | .new K f shared => fun st => .ret .unit (st.1 ++ [fresh P K f defs sizeMax shared], st.2)
  | .copy n => fun st =>
    match st.1[n]? with
    | none => .fault .illTyped
    | some b =>
      match b.copy with
      | .error f => .fault f
      | .ok b => .ret .unit (st.1 ++ [b], st.2)
  | .on n op => fun st =>
    match st.1[n]? with
    | none => .fault .illTyped
    | some b =>
      match op.run P defs (b, st.2) with
      | .ret o st' => .ret o (st.1.set n st'.1, st'.2)
      | .threw st' => .threw (st.1.set n st'.1, st'.2)
      | .fault f => .fault f

/-- The life of a dispatcher: how it was made, what has been done with it, and the answers (`none` for an exception). -/
structure Life where
  K : Keyring
  f : Features
  shared : Bool
  items : List (OwnOp × Option Obs)

/-- The lives of the dispatchers of a program. The life of a copy begins with the life of the original. -/
def addLife (lives : List Life) : SevOp × Option Obs → List Life
  | (.new K f shared, _) => lives ++ [⟨K, f, shared, []⟩]
  | (.copy n, _) =>
    match lives[n]? with
    | none => lives
    | some l => lives ++ [l]
  | (.on n op, o) => lives.modify n fun l => { l with items := l.items ++ [(op, o)] }

/-- What the dispatcher whose life is `l` would have answered, and its final state, if it had been alone: a new dispatcher, and the operations of its life. -/
def Life.alone (P : Platform) (defs : Nat → List Val → Eff σ (Option Val)) (sizeMax : Nat) (l : Life) (w : σ) : Res (BState σ) (List (Option Obs)) :=
  runCaught (OwnOp.run P defs) (l.items.map (·.1)) (fresh P l.K l.f defs sizeMax l.shared, w)

/-- Same results and same exceptions, in worlds which `R` relates. -/
def Alike {τ α : Type} (R : τ → τ → Prop) : Res τ α → Res τ α → Prop
  | .ret a w, .ret a' w' => a = a' ∧ R w w'
  | .threw w, .threw w' => R w w'
  | .fault f, .fault f' => f = f'
  | _, _ => False

/-- The function only uses what `R` distinguishes. -/
def Blind (R : σ → σ → Prop) (fn : List Val → Eff σ (Option Val)) : Prop := ∀ args w w', R w w' → Alike R (fn args w) (fn args w')

/-- The function does not change what `R` distinguishes. -/
def Keeps (R : σ → σ → Prop) (fn : List Val → Eff σ (Option Val)) : Prop :=
  ∀ args w, match fn args w with
    | .ret _ w' => R w w'
    | .threw w' => R w w'
    | .fault _ => True

/-- The dispatchers do not communicate through their functions: each of them uses a part of the world, given as the equivalence "same part of the world"; the functions of a
dispatcher (`serves n name` if the function number `name` may be served by the dispatcher number `n`) use the part of the dispatcher only, and do not change the part of another one.
If the results of the functions depend on their arguments only, all the parts may be empty. -/
structure Separate (defs : Nat → List Val → Eff σ (Option Val)) (serves : Nat → Nat → Prop) (sees : Nat → σ → σ → Prop) : Prop where
  refl : ∀ n w, sees n w w
  symm : ∀ {n w w'}, sees n w w' → sees n w' w
  trans : ∀ {n w w' w''}, sees n w w' → sees n w' w'' → sees n w w''
  own : ∀ {n name}, serves n name → Blind (sees n) (defs name)
  others : ∀ {n m name}, n ≠ m → serves m name → Keeps (sees n) (defs name)

/-- The functions which the operation gives to the dispatcher number `n` are among those which it may serve. -/
def OwnOp.Serves (serves : Nat → Nat → Prop) (n : Nat) : OwnOp → Prop
  | .io _ => True
  | .replace _ _ name => serves n name

/-- The dispatchers serve functions which they may serve. `c` is the number of the next dispatcher. -/
def Respects (serves : Nat → Nat → Prop) : (c : Nat) → List SevOp → Prop
  | _, [] => True
  | c, .new K _ _ :: ops => (∀ d ∈ K.decls, serves c d.name) ∧ Respects serves (c + 1) ops
  | c, .copy n :: ops => (∀ name, serves n name → serves c name) ∧ Respects serves (c + 1) ops
  | c, .on n op :: ops => op.Serves serves n ∧ Respects serves c ops

/-- The answer of an operation: what it returns, an exception, or a fault. -/
def answerOf {τ α : Type} : Res τ α → M (Option α)
  | .ret a _ => .ok (some a)
  | .threw _ => .ok none
  | .fault f => .error f

end Upd.Spec
