import Verif.Model.Message
import Verif.Spec.Request
import Verif.Spec.Stream

/-!
# Spec: messages as requests

Without bytes: a message is the index of a function and a list of arguments.
-/

namespace Upd.Spec

variable {σ α : Type}

/-- What a message stands for. -/
structure Letter where
  c : MsgClass
  index : Nat
  args : List Val

/-- The request for it. -/
def Letter.request (l : Letter) : List Byte := Upd.Spec.request l.c.e l.c.s l.c.idxBytes l.index l.c.params l.args

/-- Its elements: the index, then the arguments. -/
def Letter.peek (l : Letter) : Nat → Val
  | 0 => .int l.index
  | j + 1 => l.args[j]?.getD default

/-- A new value for an element. -/
def Letter.edit (l : Letter) : Nat → Val → Letter
  | 0, .int z => { l with index := z.toNat }
  | 0, _ => l
  | j + 1, v => { l with args := l.args.set j v }

/-- The rest of the world. -/
def lettersRest : Lens (List Letter × σ) σ := ⟨Prod.snd, fun w d => (d.1, w)⟩

/-- The letter `m`. -/
def letterAt (m : Nat) : Eff (List Letter × σ) Letter := fun d =>
  match d.1[m]? with
  | some l => .ret l d
  | none => .fault .illTyped

/-- The program, with letters instead of messages. -/
def meaning : Mail σ α → Eff (List Letter × σ) α
  | .done a => pure a
  | .look next => fun d => meaning (next d.2) d
  | .act x next => do
    Eff.zoom lettersRest x
    meaning next
  | .make k args next => fun d => meaning next (d.1 ++ [⟨k.msgClass, k.index, args⟩], d.2)
  | .take m' next => do
    let l ← letterAt m'
    fun d => meaning next (d.1 ++ [l], d.2)
  | .move m m' next => do
    let l ← letterAt m'
    fun d => meaning next (d.1.set m l, d.2)
  | .edit m j v next => do
    let l ← letterAt m
    fun d => meaning next (d.1.set m (l.edit j v), d.2)
  | .peek m j next => do
    let l ← letterAt m
    meaning (next (l.peek j))
  | .send m dest next => do
    let l ← letterAt m
    Eff.zoom lettersRest (putAll dest l.request)
    meaning next

/-- The platform can serialize messages of the class. -/
def MsgClass.Ok (P : Platform) (c : MsgClass) : Prop := Supported P c.e c.s ∧ 1 ≤ c.idxBytes ∧ Ty.WFs c.params ∧ PackedAll c.params

/-- The program is well-typed, and its values can be encoded. -/
def MailOk (P : Platform) : List MsgClass → Mail σ α → Prop
  | _, .done _ => True
  | Γ, .look next => ∀ w, MailOk P Γ (next w)
  | Γ, .act _ next => MailOk P Γ next
  | Γ, .make k args next =>
    Supported P k.e k.s ∧ 1 ≤ k.idxBytes ∧ k.index < 256 ^ k.idxBytes ∧ SigOk k.sig ∧ Val.FitsAll (Safe P k.s) k.sig.params args ∧ MailOk P (Γ ++ [k.msgClass]) next
  | Γ, .take m' next => ∃ c, Γ[m']? = some c ∧ MailOk P (Γ ++ [c]) next
  | Γ, .move m m' next => (∃ c, Γ[m]? = some c ∧ Γ[m']? = some c) ∧ MailOk P Γ next
  | Γ, .edit m j v next => (∃ c t, Γ[m]? = some c ∧ c.types[j]? = some t ∧ v.Fits (Safe P c.s) t) ∧ MailOk P Γ next
  | Γ, .peek m j next => (∃ c, Γ[m]? = some c ∧ j < c.types.length) ∧ ∀ v, MailOk P Γ (next v)
  | Γ, .send m _ next => (∃ c, Γ[m]? = some c) ∧ MailOk P Γ next

end Upd.Spec
