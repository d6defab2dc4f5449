import Verif.Model.Async
import Verif.Spec.Line
import Verif.Spec.Retry

/-!
# Spec: coroutines which call functions at the same time
-/

namespace Upd.Spec

variable {σ α : Type}

/-- A coroutine which calls functions: ready to run, or waiting for the result of its call, or finished, or cancelled. -/
inductive Caller (σ α : Type) where
  | ready (p : Talk σ α)
  | waiting (k : Option Val → Talk σ α)
  | finished (a : α)
  | cancelled

/-- Coroutines, the calls which have not been executed (who called, which function, on which arguments), the results which have not been handed over (to whom), and the world. There is neither device
nor byte. -/
structure Office (σ α : Type) where
  callers : List (Caller σ α)
  calls : List (Nat × Nat × List Val)
  results : List (Nat × Option Val)
  world : σ

/-- One event: a caller does something, or the oldest call is executed, or the oldest result is handed over to the one who made the call, unless the latter was cancelled, or a
caller which has not finished is cancelled. -/
def Office.next (K : Keyring) (defs : Nat → List Val → Eff σ (Option Val)) (h : Happening) : Eff (Office σ α) Unit := fun s =>
  match h with
  | .step c =>
    match s.callers[c]? with
    | some (.ready (.done a)) => .ret () { s with callers := s.callers.set c (.finished a) }
    | some (.ready (.look k)) => .ret () { s with callers := s.callers.set c (.ready (k s.world)) }
    | some (.ready (.act x k)) =>
      match x s.world with
      | .ret _ w => .ret () { s with callers := s.callers.set c (.ready k), world := w }
      | .threw w => .threw { s with world := w }
      | .fault f => .fault f
    | some (.ready (.call i args k)) => .ret () { s with callers := s.callers.set c (.waiting k), calls := s.calls ++ [(c, i, args)] }
    | _ => .ret () s
  | .serve =>
    match s.calls with
    | [] => .ret () s
    | (c, i, args) :: calls =>
      match K.decls[i]? with
      | none => .fault .illTyped
      | some d =>
        match defs d.name args s.world with
        | .ret r w => .ret () { s with calls := calls, results := s.results ++ [(c, r)], world := w }
        | .threw w => .threw { s with world := w }
        | .fault f => .fault f
  | .deliver =>
    match s.results with
    | [] => .ret () s
    | (c, r) :: results =>
      match s.callers[c]? with
      | some (.waiting k) => .ret () { s with callers := s.callers.set c (.ready (k r)), results := results }
      | _ => .ret () { s with results := results }
  | .cancel c =>
    match s.callers[c]? with
    | some (.ready _) | some (.waiting _) => .ret () { s with callers := s.callers.set c .cancelled }
    | _ => .ret () s

/-- All the events, in order. -/
def Office.run (K : Keyring) (defs : Nat → List Val → Eff σ (Option Val)) : List Happening → Eff (Office σ α) Unit
  | [] => pure ()
  | h :: hs => do
    Office.next K defs h
    Office.run K defs hs

/-- What the coroutine is, leaving aside how the response is to be decoded. -/
def Coro.caller : Coro σ α → Caller σ α
  | .ready p => .ready p
  | .awaiting _ k => .waiting k
  | .finished a => .finished a
  | .cancelled => .cancelled

/-- The event loop leads to what the functions, called by coroutines without device, lead to: same progress and results of the coroutines, same effects; same exception, same undefined behaviour. -/
def LoopOutcome {τ : Type} (L : Lens τ (Link σ)) (r : Res (Office σ α) Unit) (R : Res (EventLoop σ α τ) Unit) : Prop :=
  match r with
  | .ret _ o => ∃ s, R = .ret () s ∧ s.coros.map Coro.caller = o.callers ∧ (L.get s.rest).world = o.world
  | .threw o => ∃ s, R = .threw s ∧ (L.get s.rest).world = o.world
  | .fault f => R = .fault f

/-- Programs which run at the same time, and whose calls are executed at once: the program `c` does its next operation. -/
def atomicStep (K : Keyring) (defs : Nat → List Val → Eff σ (Option Val)) (c : Nat) : Eff (List (Talk σ α) × σ) Unit := fun (ps, w) =>
  match ps[c]? with
  | some (.look k) => .ret () (ps.set c (k w), w)
  | some (.act x k) =>
    match x w with
    | .ret _ w' => .ret () (ps.set c k, w')
    | .threw w' => .threw (ps, w')
    | .fault f => .fault f
  | some (.call i args k) =>
    match K.decls[i]? with
    | none => .fault .illTyped
    | some d =>
      match defs d.name args w with
      | .ret r w' => .ret () (ps.set c (k r), w')
      | .threw w' => .threw (ps, w')
      | .fault f => .fault f
  | _ => .ret () (ps, w)

/-- Programs which take turns. -/
def interleaved (K : Keyring) (defs : Nat → List Val → Eff σ (Option Val)) : List Nat → Eff (List (Talk σ α) × σ) Unit
  | [] => pure ()
  | c :: order => do
    atomicStep K defs c
    interleaved K defs order

end Upd.Spec
