import Verif.Spec.Machine
import Verif.Spec.Request

/-!
# Buffered dispatchers: hypotheses, histories
-/

namespace Upd.Spec

variable {σ : Type}

/-- The protocol of a keyring whose functions have the definitions `defs`. -/
def protoOf (K : Keyring) (defs : Nat → List Val → Eff σ (Option Val)) : Proto σ :=
  ⟨K.e, K.s, K.idxBytes, K.decls.map fun d => ⟨d.sig, defs d.name⟩⟩

/-- Hypotheses on a buffered dispatcher: platform and format supported; supported signatures; the serialized size of the parameters is
not greater than their object size (always the case of built-in types), and equal to it when the actions are `no_storage_action`;
callbacks which return values of the right types when they return. -/
structure Setting (P : Platform) (K : Keyring) (f : Features) (defs : Nat → List Val → Eff σ (Option Val)) : Prop where
  valid : P.Valid
  ring : KeyringOk K
  sup : Supported P K.e K.s
  sizes : ∀ d ∈ K.decls, ∀ t ∈ d.sig.params, wireSize t ≤ t.sizeof ∧ (f = .weakReference → t.sizeof = wireSize t)
  typed : ∀ d ∈ K.decls, WellTyped P K.s ⟨d.sig, defs d.name⟩

/-- A new buffered dispatcher: single buffered if `shared`, double buffered otherwise. -/
def fresh (P : Platform) (K : Keyring) (f : Features) (defs : Nat → List Val → Eff σ (Option Val)) (sizeMax : Nat)
    (shared : Bool) : Buf σ :=
  if shared then Buf.single P K sizeMax (Dispatcher.make K f defs) else Buf.double P K sizeMax (Dispatcher.make K f defs)

/-- The output buffer is large enough for the responses of all the callbacks. -/
def ResponsesFit (K : Keyring) (shared : Bool) : Prop :=
  ∀ d ∈ K.decls, retSize d.sig.ret ≤ if shared then neededInput K else neededOutput K

/-- The parameters can be decoded from any bytes. -/
def AllDecodeSafe (P : Platform) (K : Keyring) : Prop := ∀ d ∈ K.decls, DecodeSafeAll P K.e K.s d.sig.params

/-- The functions of the keyring do not throw. -/
def NeverThrow (K : Keyring) (defs : Nat → List Val → Eff σ (Option Val)) : Prop :=
  ∀ d ∈ K.decls, ∀ args w w', defs d.name args w ≠ .threw w'

/-- A key usable with `reply`: its only parameter is an array of `n` bytes. -/
structure ReplyKey (P : Platform) (k : Key) (n : Nat) : Prop where
  sup : Supported P k.e k.s
  pos : 1 ≤ k.idxBytes
  index : k.index < 256 ^ k.idxBytes
  params : k.sig.params = [.arr (.uint 1) n]
  size : 1 ≤ n

/-- The member functions which act on the buffers. -/
inductive Op (σ : Type) where
  | put (x : Byte)
  | get
  | readFrom (src : Eff σ Byte)
  | writeTo (dest : Byte → Eff σ Unit)
  | process (src : Eff σ Byte) (dest : Byte → Eff σ Unit)
  | reply (k : Key) (n : Nat) (output : Byte → Eff σ Unit)

/-- Effect of a member function, leaving aside what it returns. -/
def Op.run (P : Platform) : Op σ → Eff (BState σ) Unit
  | .put x => Buf.put P x >>= fun _ => pure ()
  | .get => Buf.get >>= fun _ => pure ()
  | .readFrom src => Buf.readFrom P src >>= fun _ => pure ()
  | .writeTo dest => Buf.writeTo dest
  | .process src dest => Buf.process P src dest >>= fun _ => pure ()
  | .reply k n output => Buf.reply P k n output >>= fun _ => pure ()

/-- The member function may call a callback. -/
def Op.Input : Op σ → Prop
  | .put _ | .readFrom _ | .process _ _ => True
  | _ => False

/-- The key given to `reply` is suitable. -/
def Op.Ok (P : Platform) : Op σ → Prop
  | .reply k n _ => ReplyKey P k n
  | _ => True

/-- A getter or putter given to the member function may lead to the fault `f`. -/
def Op.UserFault (f : Fault) : Op σ → Prop
  | .put _ | .get => False
  | .readFrom src => ∃ w, src w = .fault f
  | .writeTo dest => ∃ x w, dest x w = .fault f
  | .process src dest => (∃ w, src w = .fault f) ∨ ∃ x w, dest x w = .fault f
  | .reply _ _ output => ∃ x w, output x w = .fault f

/-- States reached from `st0` by any calls of member functions, with any change of the rest of the world in between. Exceptions thrown by
the byte getters and putters may be caught; those thrown by callbacks may not (see C51). -/
inductive Reach (P : Platform) (K : Keyring) (defs : Nat → List Val → Eff σ (Option Val)) (st0 : BState σ) : BState σ → Prop
  | start : Reach P K defs st0 st0
  | world {b : Buf σ} {w : σ} (w' : σ) : Reach P K defs st0 (b, w) → Reach P K defs st0 (b, w')
  | ret {st st' : BState σ} (op : Op σ) : Reach P K defs st0 st → op.Ok P → op.run P st = .ret () st' → Reach P K defs st0 st'
  | threw {st st' : BState σ} (op : Op σ) : Reach P K defs st0 st → op.Ok P → (op.Input → NeverThrow K defs) →
      op.run P st = .threw st' → Reach P K defs st0 st'

/-- States reached from `st0` by any calls of member functions, with any change of the rest of the world in between, any exception being
caught. -/
inductive ReachAny (P : Platform) (st0 : BState σ) : BState σ → Prop
  | start : ReachAny P st0 st0
  | world {b : Buf σ} {w : σ} (w' : σ) : ReachAny P st0 (b, w) → ReachAny P st0 (b, w')
  | ret {st st' : BState σ} (op : Op σ) : ReachAny P st0 st → op.Ok P → op.run P st = .ret () st' → ReachAny P st0 st'
  | threw {st st' : BState σ} (op : Op σ) : ReachAny P st0 st → op.Ok P → op.run P st = .threw st' → ReachAny P st0 st'

/-- States reached by a buffered dispatcher since its construction. -/
def Reachable (P : Platform) (K : Keyring) (f : Features) (defs : Nat → List Val → Eff σ (Option Val)) (shared : Bool)
    (st : BState σ) : Prop :=
  ∃ sizeMax w0, Reach P K defs (fresh P K f defs sizeMax shared, w0) st

/-- Puts bytes one by one, and gives the statuses. -/
def puts (P : Platform) : List Byte → Eff (BState σ) (List Status)
  | [] => pure []
  | x :: xs => do
    let st ← Buf.put P x
    let sts ← puts P xs
    pure (st :: sts)

/-- The bytes received since the end of the last packet are `bs`. In particular, `Pending b []`: between two packets. -/
structure Pending (b : Buf σ) (bs : List Byte) : Prop where
  next : b.ibufNext = bs.length
  bytes : slice b.ibuf 0 bs.length = bs

/-- Whatever they are, or because they are the encoding of values in the supported domain, the bytes `bs` can be decoded as the
arguments of `cb`. -/
def Readable (P : Platform) (p : Proto σ) (cb : Callback σ) (bs : List Byte) : Prop :=
  DecodeSafeAll P p.e p.s cb.sig.params ∨
    ∃ args, Val.FitsAll (Safe P p.s) cb.sig.params args ∧ bs = wires p.e p.s cb.sig.params args

/-! ## Cutting a stream into packets -/

/-- A packet: the bytes of an invalid index, or the bytes of the index of `cb` and those of its arguments. -/
inductive Packet (σ : Type) where
  | invalid (index : List Byte)
  | call (cb : Callback σ) (index args : List Byte)

/-- The beginning of a packet, not complete yet. -/
def Incomplete (p : Proto σ) (bs : List Byte) : Prop :=
  bs.length < p.idxBytes ∨
    ∃ cb, p.cbs[wireValue p.e (bs.take p.idxBytes)]? = some cb ∧ bs.length < p.idxBytes + wireSizes cb.sig.params

/-- `Cuts p bs ps rest`: the stream `bs` is made of the packets `ps`, then `rest` is the beginning of a packet. -/
inductive Cuts (p : Proto σ) : List Byte → List (Packet σ) → List Byte → Prop
  | rest {bs : List Byte} : Incomplete p bs → Cuts p bs [] bs
  | invalid {index bs rest : List Byte} {ps : List (Packet σ)} : index.length = p.idxBytes →
      p.cbs[wireValue p.e index]? = none → Cuts p bs ps rest → Cuts p (index ++ bs) (.invalid index :: ps) rest
  | call {cb : Callback σ} {index args bs rest : List Byte} {ps : List (Packet σ)} : index.length = p.idxBytes →
      p.cbs[wireValue p.e index]? = some cb → args.length = wireSizes cb.sig.params → Cuts p bs ps rest →
      Cuts p (index ++ args ++ bs) (.call cb index args :: ps) rest

/-- What processing packets does: each callback is called in order on the values that the bytes stand for. Gives the statuses, one by
byte. -/
def serveAll (p : Proto σ) (rest : List Byte) : List (Packet σ) → Eff σ (List Status)
  | [] => pure (List.replicate rest.length .loading)
  | .invalid index :: ps => do
    let sts ← serveAll p rest ps
    pure (List.replicate (index.length - 1) .loading ++ .dropped :: sts)
  | .call cb index args :: ps => do
    let _ ← cb.fn (unwires p.e p.s cb.sig.params args)
    let sts ← serveAll p rest ps
    pure (List.replicate (index.length + args.length - 1) .loading ++ .resolved :: sts)

/-! ## Interleavings of `put`, `get` and `is_loaded` -/

/-- An elementary call. -/
inductive Io where
  | put (x : Byte)
  | get
  | isLoaded

/-- What an elementary call returns. -/
inductive Obs where
  | status (st : Status)
  | byte (x : Byte)
  | bool (b : Bool)
  | unit
  deriving DecidableEq

/-- An elementary call on a buffered dispatcher. -/
def Io.run (P : Platform) : Io → Eff (BState σ) Obs
  | .put x => Buf.put P x >>= fun st => pure (.status st)
  | .get => Buf.get >>= fun x => pure (.byte x)
  | .isLoaded => fun st => .ret (.bool st.1.isLoaded) st

/-- An elementary call on the abstract machine. -/
def Io.runM (p : Proto σ) : Io → Eff (Machine × σ) Obs
  | .put x => Machine.put p x >>= fun st => pure (.status st)
  | .get => Machine.get >>= fun x => pure (.byte x)
  | .isLoaded => fun st => .ret (.bool st.1.isLoaded) st

/-- Successive calls, and what they return. -/
def runAll {ι τ : Type} (step : ι → Eff τ Obs) : List ι → Eff τ (List Obs)
  | [] => pure []
  | op :: ops => do
    let o ← step op
    let os ← runAll step ops
    pure (o :: os)

/-- Successive calls, the dispatcher being moved to a new object (with which the calls go on) at each `none`. -/
def runMoving (P : Platform) : List (Option Io) → Eff (BState σ) (List Obs)
  | [] => pure []
  | none :: ops => fun st => runMoving P ops (st.1.move.1, st.2)
  | some op :: ops => do
    let o ← op.run P
    let os ← runMoving P ops
    pure (o :: os)

/-- Same outcome: same values, exceptions and faults, and same final state of the world. -/
def SameOutcome {α β γ : Type} : Res (α × σ) γ → Res (β × σ) γ → Prop
  | .ret a (_, w), .ret a' (_, w') => a = a' ∧ w = w'
  | .threw (_, w), .threw (_, w') => w = w'
  | .fault f, .fault f' => f = f'
  | _, _ => False

/-- Each byte is put once the response has been drained. -/
def Drained (P : Platform) : List Io → BState σ → Prop
  | [], _ => True
  | op :: ops, st =>
    ((∃ x, op = .put x) → st.1.isLoaded = false) ∧ ∀ o st', op.run P st = .ret o st' → Drained P ops st'

/-! ## The output side as a queue -/

/-- The member functions which act on the output side only. -/
inductive OutOp (σ : Type) where
  | get
  | isLoaded
  | writeTo (dest : Byte → Eff σ Unit)

/-- Effect on a buffered dispatcher. -/
def OutOp.run : OutOp σ → Eff (BState σ) Obs
  | .get => Buf.get >>= fun x => pure (.byte x)
  | .isLoaded => fun st => .ret (.bool st.1.isLoaded) st
  | .writeTo dest => Buf.writeTo dest >>= fun _ => pure .unit

/-- Takes the bytes of the queue and gives them to `dest`, one by one. -/
def drain (dest : Byte → Eff σ Unit) : List Byte → σ → Res (List Byte × σ) Unit
  | [], w => .ret () ([], w)
  | x :: q, w =>
    match dest x w with
    | .ret _ w => drain dest q w
    | .threw w => .threw (q, w)
    | .fault f => .fault f

/-- `drain` as an effect. -/
def drainAll (dest : Byte → Eff σ Unit) : Eff (List Byte × σ) Unit := fun st => drain dest st.1 st.2

/-- Effect on a queue. -/
def OutOp.runQ : OutOp σ → Eff (List Byte × σ) Obs
  | .get => fun st =>
    match st.1 with
    | [] => .ret (.byte 0#8) ([], st.2)
    | x :: q => .ret (.byte x) (q, st.2)
  | .isLoaded => fun st => .ret (.bool (st.1 ≠ [])) st
  | .writeTo dest => drainAll dest >>= fun _ => pure .unit

/-- The results are the same and the final states are related. -/
def Simulates {α β γ : Type} (R : α → β → Prop) : Res (α × σ) γ → Res (β × σ) γ → Prop
  | .ret c (a, w), .ret c' (b, w') => c = c' ∧ w = w' ∧ R a b
  | .threw (a, w), .threw (b, w') => w = w' ∧ R a b
  | .fault f, .fault f' => f = f'
  | _, _ => False

end Upd.Spec
