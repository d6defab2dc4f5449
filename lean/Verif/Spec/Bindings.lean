import Verif.Model.Bindings
import Verif.Spec.Types

/-!
# Programs with tuples, as if tuples were lists of values
-/

namespace Upd.Spec

/-- A tuple: a list of values, until it is destroyed. -/
structure ATuple where
  e : Endian
  s : Mode
  ts : List Ty
  vals : Option (List Val)

/-- A view: some consecutive elements of a tuple. -/
structure AView where
  obj : Nat
  first : Nat
  length : Nat

/-- The objects of a program and what it has read. -/
structure AStore where
  tuples : List ATuple
  views : List AView
  names : List Val
  out : List Val

/-- The values of a tuple, which has to be alive. -/
def AStore.vals (a : AStore) (i : Nat) : M (ATuple × List Val) :=
  match a.tuples[i]? with
  | none => .error .illTyped
  | some t =>
    match t.vals with
    | none => .error .dangling
    | some vs => .ok (t, vs)

/-- A view of the program. -/
def AStore.viewAt (a : AStore) (n : Nat) : M AView :=
  match a.views[n]? with
  | none => .error .illTyped
  | some v => .ok v

/-- Changes the values of a tuple. -/
def AStore.put (a : AStore) (i : Nat) (t : ATuple) (vs : List Val) : AStore := { a with tuples := a.tuples.set i { t with vals := some vs } }

/-- The names of a structured binding are copies. -/
def AStore.addNames (a : AStore) (vs : List Val) : M AStore :=
  if vs.isEmpty then .error .illTyped else .ok { a with names := a.names ++ vs }

/-- Reads a value of a list. -/
def AStore.read (a : AStore) (vs : List Val) (k : Nat) : M AStore :=
  match vs[k]? with
  | none => .error .illTyped
  | some v => .ok { a with out := a.out ++ [v] }

/-- Executes a statement: tuples are lists of values, views are parts of the lists of their tuples, names are copies. -/
def runValues : Stmt → AStore → M AStore
  | .make e s ts vs, a => .ok { a with tuples := a.tuples ++ [⟨e, s, ts, some vs⟩] }
  | .copy i, a => do
    let (t, vs) ← a.vals i
    .ok { a with tuples := a.tuples ++ [{ t with vals := some vs }] }
  | .assign i j, a => do
    let (t, _) ← a.vals i
    let (u, vs) ← a.vals j
    if t.ts = u.ts then .ok (a.put i t vs) else .error .illTyped
  | .destroy i, a => do
    let (t, _) ← a.vals i
    .ok { a with tuples := a.tuples.set i { t with vals := none } }
  | .set i k v, a => do
    let (t, vs) ← a.vals i
    if k < vs.length then .ok (a.put i t (vs.set k v)) else .error .illTyped
  | .view i first length, a => do
    let (_, vs) ← a.vals i
    if first + length ≤ vs.length then .ok { a with views := a.views ++ [⟨i, first, length⟩] } else .error .illTyped
  | .setView n k v, a => do
    let w ← a.viewAt n
    let (t, vs) ← a.vals w.obj
    if k < w.length then .ok (a.put w.obj t (vs.set (w.first + k) v)) else .error .illTyped
  | .bind i, a => do
    let (_, vs) ← a.vals i
    a.addNames vs
  | .bindCopy i, a => do
    let (t, vs) ← a.vals i
    let a ← a.addNames vs
    .ok { a with tuples := a.tuples ++ [{ t with vals := some vs }] }
  | .bindView n, a => do
    let w ← a.viewAt n
    let (_, vs) ← a.vals w.obj
    a.addNames ((vs.drop w.first).take w.length)
  | .assignName n v, a => if n < a.names.length then .ok { a with names := a.names.set n v } else .error .illTyped
  | .readName n, a => a.read a.names n
  | .get i k, a => do
    let (_, vs) ← a.vals i
    a.read vs k
  | .getView n k, a => do
    let w ← a.viewAt n
    let (_, vs) ← a.vals w.obj
    a.read ((vs.drop w.first).take w.length) k

/-- Executes statements. -/
def execValues : List Stmt → AStore → M AStore
  | [], a => .ok a
  | st :: sts, a => do
    let a ← runValues st a
    execValues sts a

/-- No object. -/
def AStore.empty : AStore := ⟨[], [], [], []⟩

/-- The tuple `t` can hold the value as its `k`-th element. -/
def CanHold (P : Platform) (t : ATuple) (k : Nat) (v : Val) : Prop := ∀ ty, t.ts[k]? = some ty → v.Fits (Safe P t.s) ty

/-- The values given to tuples are in the supported domain. -/
def StmtOk (P : Platform) (a : AStore) : Stmt → Prop
  | .make e s ts vs => Supported P e s ∧ Ty.WFs ts ∧ LooseAll ts ∧ Val.FitsAll (Safe P s) ts vs
  | .assign i j => ∀ t u vs, a.tuples[i]? = some t → a.tuples[j]? = some u → u.vals = some vs → t.ts = u.ts → Val.FitsAll (Safe P t.s) t.ts vs
  | .set i k v => ∀ t, a.tuples[i]? = some t → CanHold P t k v
  | .setView n k v => ∀ w t, a.views[n]? = some w → a.tuples[w.obj]? = some t → CanHold P t (w.first + k) v
  | _ => True

/-- So are they all along. -/
def ProgramOk (P : Platform) : List Stmt → AStore → Prop
  | [], _ => True
  | st :: sts, a => StmtOk P a st ∧ ∀ a', runValues st a = .ok a' → ProgramOk P sts a'

/-- A statement which assigns the name `n`. -/
def Assigns (n : Nat) : Stmt → Prop
  | .assignName m _ => m = n
  | _ => False

end Upd.Spec
