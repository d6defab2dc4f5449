import Verif.Model.Session

/-!
# Lines which alter bytes

Two devices linked as in `Model/Session.lean`, but what each one sends goes through a line which may alter it.
-/

namespace Upd

variable {σ τ α : Type}

/-- A line, which is not part of the library (README.md:21: interfacing with a protocol is left to the user). What arrives of what has been sent may depend on anything, and the line may do
anything to the rest of the world. -/
structure Line (σ : Type) where
  up : List Byte → Eff σ (List Byte)
  down : List Byte → Eff σ (List Byte)

/-- The bytes of the caller reach the callee. -/
def Line.carryUp (line : Line σ) : Eff (Link σ) Unit := fun l =>
  match line.up l.up l.world with
  | .ret bs w => .ret () { l with up := bs, world := w }
  | .threw w => .threw { l with world := w }
  | .fault f => .fault f

/-- The bytes of the callee reach the caller. -/
def Line.carryDown (line : Line σ) : Eff (Link σ) Unit := fun l =>
  match line.down l.down l.world with
  | .ret bs w => .ret () { l with down := bs, world := w }
  | .threw w => .threw { l with world := w }
  | .fault f => .fault f

/-- A call in blocking mode (test/snippet/caller4:7-14) through a line: the request is sent, what arrives is served, what arrives of the response is read. -/
def noisyCall (P : Platform) (L : Lens τ (Link σ)) (serve : Eff τ Unit) (line : Line σ) (k : Key) (args : List Val) : Eff τ (Option Val) := do
  Eff.zoom L (k.writeTo P args Link.writeToSlave)
  Eff.zoom L line.carryUp
  serve
  Eff.zoom L line.carryDown
  Eff.zoom L (k.readFrom P Link.readFromSlave)

/-- A program which calls functions of another device; what it does next may depend on the results and on the rest of the world. -/
inductive Talk (σ α : Type) where
  | done (a : α)
  /-- reads the rest of the world -/
  | look (k : σ → Talk σ α)
  /-- acts on the rest of the world -/
  | act (x : Eff σ Unit) (k : Talk σ α)
  /-- calls the function of index `i` -/
  | call (i : Nat) (args : List Val) (k : Option Val → Talk σ α)

/-- The program, the functions being called with keys of the keyring. -/
def Talk.remote (P : Platform) (K : Keyring) (L : Lens τ (Link σ)) (serve : Eff τ Unit) (line : Line σ) : Talk σ α → Eff τ α
  | .done a => pure a
  | .look k => fun t => Talk.remote P K L serve line (k (L.get t).world) t
  | .act x k => do
    Eff.zoom L (Eff.zoom Link.rest x)
    Talk.remote P K L serve line k
  | .call i args k =>
    match K.keyAt (some i) with
    | none => Eff.lift (.error .illTyped)
    | some key => do
      let r ← noisyCall P L serve line key args
      Talk.remote P K L serve line (k r)

end Upd
