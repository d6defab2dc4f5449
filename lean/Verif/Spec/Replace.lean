import Verif.Spec.History
import Verif.Model.Replace

/-!
# Histories with replacements of callbacks
-/

namespace Upd.Spec

variable {σ : Type}

/-- As `Setting`, without the hypothesis that the serialized size of the parameters is not greater than their object size. -/
structure Setup (P : Platform) (K : Keyring) (f : Features) (defs : Nat → List Val → Eff σ (Option Val)) : Prop where
  valid : P.Valid
  ring : KeyringOk K
  sup : Supported P K.e K.s
  sizes : f = .weakReference → ∀ d ∈ K.decls, ∀ t ∈ d.sig.params, t.sizeof = wireSize t
  typed : ∀ d ∈ K.decls, WellTyped P K.s ⟨d.sig, defs d.name⟩

/-- A call of a member function. -/
inductive Call (σ : Type) where
  | io (op : Io)
  | replace (i : Nat) (cb : Callback σ)
  | replaceStatic (i : Nat) (cb : Callback σ)
  | pyReplace (k : Key) (fn : List Val → Eff σ (Option Val))

/-- A call on a buffered dispatcher. -/
def Call.run (P : Platform) : Call σ → Eff (BState σ) Obs
  | .io op => op.run P
  | .replace i cb => fun st => .ret .unit (st.1.replace i cb, st.2)
  | .replaceStatic i cb => fun st => .ret .unit (st.1.replaceStatic i cb, st.2)
  | .pyReplace k fn => fun st =>
    match st.1.pyReplace k fn with
    | .ok b => .ret .unit (b, st.2)
    | .error f => .fault f

/-- The callback of index `i` is changed. -/
def Proto.replace (p : Proto σ) (i : Nat) (cb : Callback σ) : Proto σ := { p with cbs := p.cbs.set i cb }

/-- A call on the abstract machine: `replace` changes the callback and nothing else. -/
def Call.runM : Call σ → Eff ((Proto σ × Machine) × σ) Obs
  | .io op => fun st =>
    match op.runM st.1.1 (st.1.2, st.2) with
    | .ret o (m, w) => .ret o ((st.1.1, m), w)
    | .threw (m, w) => .threw ((st.1.1, m), w)
    | .fault f => .fault f
  | .replace i cb => fun st => .ret .unit ((st.1.1.replace i cb, st.1.2), st.2)
  | .replaceStatic i cb => fun st => .ret .unit ((st.1.1.replace i cb, st.1.2), st.2)
  | .pyReplace k fn => fun st => .ret .unit ((st.1.1.replace k.index ⟨k.sig, fn⟩, st.1.2), st.2)

/-- The new callback has the signature of the function of index `i`, and returns values of the right type when it returns. -/
def Suits (P : Platform) (K : Keyring) (i : Nat) (cb : Callback σ) : Prop :=
  (∃ d, K.decls[i]? = some d ∧ cb.sig = d.sig) ∧ WellTyped P K.s cb

/-- What compiles (`replace` with any callback object is not available for `WEAK_REFERENCE`; signatures are checked), and for Python, keys of the
same keyring. -/
def Call.Ok (P : Platform) (K : Keyring) (f : Features) : Call σ → Prop
  | .io _ => True
  | .replace i cb => f = .any ∧ Suits P K i cb
  | .replaceStatic i cb => Suits P K i cb
  | .pyReplace k fn => f = .any ∧ (∃ name, K.get11 name = some k) ∧ WellTyped P K.s ⟨k.sig, fn⟩

/-- Each byte is put once the response has been drained. -/
def DrainedCalls (P : Platform) : List (Call σ) → BState σ → Prop
  | [], _ => True
  | c :: cs, st => ((∃ x, c = .io (.put x)) → st.1.isLoaded = false) ∧ ∀ o st', c.run P st = .ret o st' → DrainedCalls P cs st'

/-- Each request of the keyring is at most `n` bytes long. -/
def RequestsWithin (K : Keyring) (n : Nat) : Prop := ∀ d ∈ K.decls, K.idxBytes + wireSizes d.sig.params ≤ n

/-- Each response of the keyring is at most `n` bytes long. -/
def ResponsesWithin (K : Keyring) (n : Nat) : Prop := ∀ d ∈ K.decls, retSize d.sig.ret ≤ n

end Upd.Spec
