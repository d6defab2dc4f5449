import Verif.Model.Dispatcher

/-!
# Dynamic memory and lifetimes of the actions

`action` holds a `std::unique_ptr` to an object made by `new` (include/upd/action.hpp:160, :199). In the other modules an action is a value; here it is a pointer to a heap. Programs make, move,
replace, call and destroy actions and dispatchers.
-/

namespace Upd

variable {σ : Type}

/-- What `new detail::action_model<F, Endianess, Signed_Mode>{UPD_FWD(ftor)}` makes (include/upd/action.hpp:75-117): the callback, and what the construction (`init`) and the destruction (`fini`) of the data
member `F ftor` (:79, :81) do: they run the move constructor and the destructor of a class of the user, or nothing if `F` is a reference type. Destructors do not throw. -/
structure Stored (σ : Type) where
  e : Endian
  s : Mode
  cb : Callback σ
  init : Eff σ Unit
  fini : σ → σ

/-- The heap: the objects made so far (`none` once deleted; addresses are not reused, so that a use after a deletion is always noticed), and whether the next allocations succeed (they do,
beyond the list). -/
structure Heap (σ : Type) where
  cells : List (Option (Stored σ))
  memory : List Bool

/-- `new detail::action_model<...>{...}` (include/upd/action.hpp:160): the allocation may throw `std::bad_alloc`; if the constructor throws, the memory is given back. -/
def Heap.new (c : Stored σ) : Eff (Heap σ × σ) Nat := fun st =>
  if st.1.memory.headD true = false then .threw (⟨st.1.cells, st.1.memory.tail⟩, st.2)
  else
    match c.init st.2 with
    | .ret _ w => .ret st.1.cells.length (⟨st.1.cells ++ [some c], st.1.memory.tail⟩, w)
    | .threw w => .threw (⟨st.1.cells, st.1.memory.tail⟩, w)
    | .fault f => .fault f

/-- `delete p` through the virtual destructor (include/upd/action.hpp:86). Deleting an object twice is undefined. -/
def Heap.delete (p : Nat) : Eff (Heap σ × σ) Unit := fun st =>
  match st.1.cells[p]? with
  | some (some c) => .ret () (⟨st.1.cells.set p none, st.1.memory⟩, c.fini st.2)
  | _ => .fault .dangling

/-- Destructor of `std::unique_ptr` (`m_concept_uptr`, include/upd/action.hpp:199). -/
def Heap.release (p : Option Nat) : Eff (Heap σ × σ) Unit :=
  match p with
  | none => pure ()
  | some p => Heap.delete p

/-- Objects of the program: arrays of `action` (an action on its own is an array of one; `content` of a dispatcher, include/upd/dispatcher.hpp:65, with `ANY`), or of `no_storage_action`, which are
copied as values. -/
inductive Actions (σ : Type) where
  | any (ptrs : List (Option Nat))
  | weak (acts : List (Stored σ))

/-- `content{make_action<...>()...}` (include/upd/dispatcher.hpp:63) with `ANY` (:41-48): the actions are made one after the other; if one of them cannot be made, those which have been made are
destroyed, the last one first. -/
def Heap.newAll : List (Stored σ) → Eff (Heap σ × σ) (List (Option Nat))
  | [] => pure []
  | c :: cs => fun st =>
    match Heap.new c st with
    | .ret p st =>
      match Heap.newAll cs st with
      | .ret ps st => .ret (some p :: ps) st
      | .threw st =>
        match Heap.delete p st with
        | .ret _ st => .threw st
        | .threw st => .threw st
        | .fault f => .fault f
      | .fault f => .fault f
    | .threw st => .threw st
    | .fault f => .fault f

/-- Destructor of an array of actions: the last one first. -/
def Heap.deleteAll : List (Option Nat) → Eff (Heap σ × σ) Unit
  | [] => pure ()
  | p :: ps => do
    Heap.deleteAll ps
    Heap.release p

/-- Implicit move assignment of an array of actions, which is the one of each `std::unique_ptr`, in order: `reset(u.release())`, which deletes the object held so far. -/
def Heap.assignAll : List (Option Nat) → Eff (Heap σ × σ) Unit
  | [] => pure ()
  | p :: ps => do
    Heap.release p
    Heap.assignAll ps

/-- Steps of a program. Objects are numbered in the order of their declarations. -/
inductive ActOp (σ : Type) where
  /-- A dispatcher, or an action. -/
  | make (f : Features) (cs : List (Stored σ))
  /-- `upd::action a;` -/
  | empty
  /-- `auto b = std::move(a);` -/
  | moveFrom (o : Nat)
  /-- `b = std::move(a);` -/
  | moveAssign (o o' : Nat)
  /-- `dispatcher.replace<i>(...)`, or `a = upd::action{...};` with `i` null. -/
  | replace (o i : Nat) (c : Stored σ)
  /-- End of the lifetime of an object. -/
  | destroy (o : Nat)
  /-- The action `i` is invoked (include/upd/action.hpp:175-179, :220-223). -/
  | call (o i : Nat) (src : Eff σ Byte) (dest : Byte → Eff σ Unit)

/-- State of a program: its objects (`none` once destroyed), the heap, and the rest of the world. -/
abbrev LifeState (σ : Type) := (List (Option (Actions σ)) × Heap σ) × σ

/-- The heap and the rest of the world. -/
def LifeState.heap : Lens (LifeState σ) (Heap σ × σ) := ⟨fun st => (st.1.2, st.2), fun h st => ((st.1.1, h.1), h.2)⟩

/-- The object held by an action is called. `*m_concept_uptr` is valid only if the object exists (include/upd/action.hpp:177-178). -/
def Heap.call (P : Platform) (p : Option Nat) (src : Eff σ Byte) (dest : Byte → Eff σ Unit) : Eff (Heap σ × σ) Unit := fun st =>
  match p with
  | none => .ret () st
  | some p =>
    match st.1.cells[p]? with
    | some (some c) =>
      match (Action.stored c.e c.s c.cb).invoke P (Lens.whole σ) src dest st.2 with
      | .ret _ w => .ret () (st.1, w)
      | .threw w => .threw (st.1, w)
      | .fault f => .fault f
    | _ => .fault .dangling

/-- The steps of a program. In `moveAssign`, an object may be assigned to itself: `release` then empties the pointer which is about to be reset, and nothing happens. In `replace`, the new action is made first; it is
then assigned (include/upd/dispatcher.hpp:186), which deletes the previous object. Uses of objects which do not exist, or of another type, do not compile (`illTyped`). -/
def ActOp.run (P : Platform) : ActOp σ → Eff (LifeState σ) Unit
  | .make .any cs => do
    let ps ← Eff.zoom LifeState.heap (Heap.newAll cs)
    fun st => .ret () ((st.1.1 ++ [some (.any ps)], st.1.2), st.2)
  | .make .weakReference cs => fun st => .ret () ((st.1.1 ++ [some (.weak cs)], st.1.2), st.2)
  | .empty => fun st => .ret () ((st.1.1 ++ [some (.any [none])], st.1.2), st.2)
  | .moveFrom o => fun st =>
    match st.1.1[o]? with
    | some (some (.any ps)) => .ret () ((st.1.1.set o (some (.any (ps.map fun _ => none))) ++ [some (.any ps)], st.1.2), st.2)
    | some (some (.weak cs)) => .ret () ((st.1.1 ++ [some (.weak cs)], st.1.2), st.2)
    | _ => .fault .illTyped
  | .moveAssign o o' => fun st =>
    match st.1.1[o]?, st.1.1[o']? with
    | some (some (.any ps)), some (some (.any qs)) =>
      if o = o' then .ret () st
      else if ps.length ≠ qs.length then .fault .illTyped
      else Eff.zoom LifeState.heap (Heap.assignAll ps) (((st.1.1.set o (some (.any qs))).set o' (some (.any (qs.map fun _ => none))), st.1.2), st.2)
    | some (some (.weak cs)), some (some (.weak ds)) =>
      if cs.length ≠ ds.length then .fault .illTyped else .ret () ((st.1.1.set o (some (.weak ds)), st.1.2), st.2)
    | _, _ => .fault .illTyped
  | .replace o i c => fun st =>
    match st.1.1[o]? with
    | some (some (.any ps)) =>
      match ps[i]? with
      | some old =>
        (Eff.zoom LifeState.heap (Heap.new c) >>= fun p =>
          (fun st => Eff.zoom LifeState.heap (Heap.release old) ((st.1.1.set o (some (.any (ps.set i (some p)))), st.1.2), st.2))) st
      | none => .fault .illTyped
    | some (some (.weak cs)) => if i < cs.length then .ret () ((st.1.1.set o (some (.weak (cs.set i c))), st.1.2), st.2) else .fault .illTyped
    | _ => .fault .illTyped
  | .destroy o => fun st =>
    match st.1.1[o]? with
    | some (some (.any ps)) => Eff.zoom LifeState.heap (Heap.deleteAll ps) ((st.1.1.set o none, st.1.2), st.2)
    | some (some (.weak _)) => .ret () ((st.1.1.set o none, st.1.2), st.2)
    | _ => .fault .illTyped
  | .call o i src dest => fun st =>
    match st.1.1[o]? with
    | some (some (.any ps)) =>
      match ps[i]? with
      | some p => Eff.zoom LifeState.heap (Heap.call P p src dest) st
      | none => .fault .illTyped
    | some (some (.weak cs)) =>
      match cs[i]? with
      | some c =>
        match (Action.weak c.e c.s c.cb).invoke P (Lens.whole σ) src dest st.2 with
        | .ret _ w => .ret () (st.1, w)
        | .threw w => .threw (st.1, w)
        | .fault f => .fault f
      | none => .fault .illTyped
    | _ => .fault .illTyped

/-- A program; it catches the exceptions. The result says which steps have thrown. -/
def ActOp.runAll (P : Platform) : List (ActOp σ) → Eff (LifeState σ) (List Bool)
  | [] => pure []
  | op :: ops => fun st =>
    match op.run P st with
    | .ret _ st => (ActOp.runAll P ops >>= fun l => pure (false :: l)) st
    | .threw st => (ActOp.runAll P ops >>= fun l => pure (true :: l)) st
    | .fault f => .fault f

end Upd
