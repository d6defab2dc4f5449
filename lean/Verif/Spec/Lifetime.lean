import Verif.Model.Lifetime

/-!
# Actions as values

The steps of the programs of `Verif.Model.Lifetime`, where an action is a value: no pointer and no heap. What remains is the order in which the callback objects of the user are constructed and
destroyed.
-/

namespace Upd.Spec

variable {σ : Type}

/-- Objects of the program: each action holds a callback object, or nothing. -/
inductive Vals (σ : Type) where
  | any (vals : List (Option (Stored σ)))
  | weak (acts : List (Stored σ))

/-- Number of callback objects. -/
def Vals.count : Option (Vals σ) → Nat
  | some (.any vals) => (vals.filter (·.isSome)).length
  | _ => 0

/-- The objects (`none` once destroyed), whether the next allocations succeed, and the rest of the world. -/
abbrev ValState (σ : Type) := (List (Option (Vals σ)) × List Bool) × σ

/-- A callback object is constructed, if there is enough memory. -/
def construct (c : Stored σ) : Eff (List Bool × σ) Unit := fun st =>
  if st.1.headD true = false then .threw (st.1.tail, st.2)
  else
    match c.init st.2 with
    | .ret _ w => .ret () (st.1.tail, w)
    | .threw w => .threw (st.1.tail, w)
    | .fault f => .fault f

/-- Callback objects are destroyed, in this order. -/
def destroyed (l : List (Option (Stored σ))) (w : σ) : σ :=
  l.foldl (fun w c => match c with | some c => c.fini w | none => w) w

/-- Callback objects are constructed one after the other; if one of them cannot be, those which have been are destroyed in reverse order. -/
def constructAll : List (Stored σ) → Eff (List Bool × σ) Unit
  | [] => pure ()
  | c :: cs => fun st =>
    match construct c st with
    | .ret _ st =>
      match constructAll cs st with
      | .ret _ st => .ret () st
      | .threw st => .threw (st.1, c.fini st.2)
      | .fault f => .fault f
    | .threw st => .threw st
    | .fault f => .fault f

/-- The state of an effect on the memory and the world, in a program. -/
def within (objs : List (Option (Vals σ))) : Res (List Bool × σ) Unit → (List (Option (Vals σ))) → Res (ValState σ) Unit
  | .ret _ st, objs' => .ret () ((objs', st.1), st.2)
  | .threw st, _ => .threw ((objs, st.1), st.2)
  | .fault f, _ => .fault f

/-- What an invocation does. -/
def invoked (st : ValState σ) : Res σ Unit → Res (ValState σ) Unit
  | .ret _ w => .ret () (st.1, w)
  | .threw w => .threw (st.1, w)
  | .fault f => .fault f

/-- The steps of a program, on values. An exception leaves the objects as they were. -/
def stepVals (P : Platform) (op : ActOp σ) (st : ValState σ) : Res (ValState σ) Unit :=
  match op with
  | .make .any cs => within st.1.1 (constructAll cs (st.1.2, st.2)) (st.1.1 ++ [some (.any (cs.map some))])
  | .make .weakReference cs => .ret () ((st.1.1 ++ [some (.weak cs)], st.1.2), st.2)
  | .empty => .ret () ((st.1.1 ++ [some (.any [none])], st.1.2), st.2)
  | .moveFrom o =>
    match st.1.1[o]? with
    | some (some (.any vs)) => .ret () ((st.1.1.set o (some (.any (vs.map fun _ => none))) ++ [some (.any vs)], st.1.2), st.2)
    | some (some (.weak cs)) => .ret () ((st.1.1 ++ [some (.weak cs)], st.1.2), st.2)
    | _ => .fault .illTyped
  | .moveAssign o o' =>
    match st.1.1[o]?, st.1.1[o']? with
    | some (some (.any vs)), some (some (.any us)) =>
      if o = o' then .ret () st
      else if vs.length ≠ us.length then .fault .illTyped
      else .ret () (((st.1.1.set o (some (.any us))).set o' (some (.any (us.map fun _ => none))), st.1.2), destroyed vs st.2)
    | some (some (.weak cs)), some (some (.weak ds)) =>
      if cs.length ≠ ds.length then .fault .illTyped else .ret () ((st.1.1.set o (some (.weak ds)), st.1.2), st.2)
    | _, _ => .fault .illTyped
  | .replace o i c =>
    match st.1.1[o]? with
    | some (some (.any vs)) =>
      match vs[i]? with
      | some old =>
        match construct c (st.1.2, st.2) with
        | .ret _ (m, w) => .ret () ((st.1.1.set o (some (.any (vs.set i (some c)))), m), destroyed [old] w)
        | .threw (m, w) => .threw ((st.1.1, m), w)
        | .fault f => .fault f
      | none => .fault .illTyped
    | some (some (.weak cs)) => if i < cs.length then .ret () ((st.1.1.set o (some (.weak (cs.set i c))), st.1.2), st.2) else .fault .illTyped
    | _ => .fault .illTyped
  | .destroy o =>
    match st.1.1[o]? with
    | some (some (.any vs)) => .ret () ((st.1.1.set o none, st.1.2), destroyed vs.reverse st.2)
    | some (some (.weak _)) => .ret () ((st.1.1.set o none, st.1.2), st.2)
    | _ => .fault .illTyped
  | .call o i src dest =>
    match st.1.1[o]? with
    | some (some (.any vs)) =>
      match vs[i]? with
      | some (some c) => invoked st ((Action.stored c.e c.s c.cb).invoke P (Lens.whole σ) src dest st.2)
      | some none => .ret () st
      | none => .fault .illTyped
    | some (some (.weak cs)) =>
      match cs[i]? with
      | some c => invoked st ((Action.weak c.e c.s c.cb).invoke P (Lens.whole σ) src dest st.2)
      | none => .fault .illTyped
    | _ => .fault .illTyped

/-- A program, on values. -/
def runVals (P : Platform) : List (ActOp σ) → Eff (ValState σ) (List Bool)
  | [] => pure []
  | op :: ops => fun st =>
    match stepVals P op st with
    | .ret _ st => (runVals P ops >>= fun l => pure (false :: l)) st
    | .threw st => (runVals P ops >>= fun l => pure (true :: l)) st
    | .fault f => .fault f

end Upd.Spec
