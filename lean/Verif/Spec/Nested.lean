import Verif.Model.Nested
import Verif.Spec.Session

/-!
# Callbacks which process further calls, without bytes
-/

namespace Upd.Spec

variable {σ : Type}

/-- The calls which have not been processed (positions in the keyring and arguments), the results of those which have been, in the order of their completion, and the rest of the world. -/
structure Queue (σ : Type) where
  calls : List (Nat × List Val)
  results : List (Nat × Option Val)
  world : σ

/-- A body, where `next` processes the next call. -/
def evalBody (next : Eff (Queue σ) Nat) : Body σ → Eff (Queue σ) (Option Val)
  | .done r => pure r
  | .act x k => fun q =>
    match x q.world with
    | .ret r w => evalBody next (k r) { q with world := w }
    | .threw w => .threw { q with world := w }
    | .fault f => .fault f
  | .serve k => next >>= fun i => evalBody next (k i)
  | .attempt k => fun q =>
    match next q with
    | .ret i q => evalBody next (k (some i)) q
    | .threw q => evalBody next (k none) q
    | .fault f => .fault f

/-- Processes the next call, with at most `n` calls nested. A call which throws has no result. -/
def nextCall (K : Keyring) (bodies : Nat → List Val → Body σ) : Nat → Eff (Queue σ) Nat
  | 0 => fun _ => .fault .starved
  | n + 1 => fun q =>
    match q.calls with
    | [] => .fault .starved
    | (i, args) :: calls =>
      match K.decls[i]? with
      | none => .fault .illTyped
      | some d =>
        match evalBody (nextCall K bodies n) (bodies d.name args) { q with calls := calls } with
        | .ret r q => .ret i { q with results := q.results ++ [(i, r)] }
        | .threw q => .threw q
        | .fault f => .fault f

/-- The bytes of calls: their requests. -/
def callBytes (K : Keyring) : List (Nat × List Val) → List Byte
  | [] => []
  | (i, args) :: calls => (match K.decls[i]? with
    | some d => request K.e K.s K.idxBytes i d.sig.params args
    | none => []) ++ callBytes K calls

/-- The bytes of results: their responses. -/
def resultBytes (K : Keyring) : List (Nat × Option Val) → List Byte
  | [] => []
  | (i, r) :: results => (match K.decls[i]? with
    | some d => response K.e K.s d.sig.ret r
    | none => []) ++ resultBytes K results

/-- The streams which correspond to calls and results. -/
def Queue.link (K : Keyring) (q : Queue σ) : Link σ := ⟨callBytes K q.calls, resultBytes K q.results, q.world⟩

/-- The positions are in the keyring and the arguments in the domain of the platform. -/
def QueueOk (Q : Platform) (K : Keyring) (q : Queue σ) : Prop :=
  ∀ c ∈ q.calls, ∃ d, K.decls[c.1]? = some d ∧ Val.FitsAll (Safe Q K.s) d.sig.params c.2

/-- Whatever is found by the body, its result satisfies `p`. -/
def BodyReturns (p : Option Val → Prop) : Body σ → Prop
  | .done r => p r
  | .act x k => ∀ w r w', x w = .ret r w' → BodyReturns p (k r)
  | .serve k => ∀ i, BodyReturns p (k i)
  | .attempt k => ∀ i, BodyReturns p (k i)

/-- The same outcome, seen through the streams. -/
def Res.link {α : Type} (K : Keyring) : Res (Queue σ) α → Res (Link σ) α
  | .ret a q => .ret a (q.link K)
  | .threw q => .threw (q.link K)
  | .fault f => .fault f

/-- The results are those of functions of the keyring, and the caller, whose platform is `P`, can represent them. -/
def ResultsOk (P : Platform) (K : Keyring) (results : List (Nat × Option Val)) : Prop :=
  ∀ c ∈ results, ∃ d, K.decls[c.1]? = some d ∧ RetOk P K.s d.sig.ret c.2

end Upd.Spec
