import Verif.Model.Key

/-!
# Messages kept by the program

Model of include/upd/detail/serialized_message.hpp:19-39 when the message which a key makes is not sent at once (`key(args...).write_to(dest)`) but kept in a variable.
-/

namespace Upd

variable {σ α : Type}

/-- `serialized_message<Endianess, Signed_Mode, Index_T, Args...>` (include/upd/detail/serialized_message.hpp:18-19): its template parameters. Keys of functions which have the same parameters make
messages of the same class (include/upd/key.hpp:108). -/
structure MsgClass where
  e : Endian
  s : Mode
  idxBytes : Nat
  params : List Ty

/-- The return type of `key::operator()` (include/upd/key.hpp:108). -/
def Key.msgClass (k : Key) : MsgClass := ⟨k.e, k.s, k.idxBytes, k.sig.params⟩

/-- The types of the elements of `content` (include/upd/detail/serialized_message.hpp:38). -/
def MsgClass.types (c : MsgClass) : List Ty := .uint c.idxBytes :: c.params

/-- The storage of the messages, in the order of their declarations, and the rest of the world. -/
abbrev Desk (σ : Type) : Type := List Mem × σ

/-- The rest of the world. -/
def Desk.rest : Lens (Desk σ) σ := ⟨Prod.snd, fun w d => (d.1, w)⟩

/-- The bytes of the message `m`. -/
def Desk.content (m : Nat) : Eff (Desk σ) Mem := fun d =>
  match d.1[m]? with
  | some bs => .ret bs d
  | none => .fault .illTyped

/-- Declaration of a message. -/
def Desk.declare (bs : Mem) : Eff (Desk σ) Unit := fun d => .ret () (d.1 ++ [bs], d.2)

/-- New bytes in the message `m`. -/
def Desk.replace (m : Nat) (bs : Mem) : Eff (Desk σ) Unit := fun d => .ret () (d.1.set m bs, d.2)

/-- `for (auto byte : content) insert_byte(byte);` (include/upd/detail/serialized_message.hpp:34-35), from the byte `k` and for `n` bytes. Each byte is read when its turn comes: `insert_byte` may
modify the messages. -/
def sendLive (m : Nat) (dest : Byte → Eff (Desk σ) Unit) : (n k : Nat) → Eff (Desk σ) Unit
  | 0, _ => pure ()
  | n + 1, k => do
    let bs ← Desk.content m
    match bs[k]? with
    | none => Eff.lift (.error .oobRead)
    | some b => do
      dest b
      sendLive m dest n (k + 1)

/-- `m.write_to(dest)` (include/upd/detail/serialized_message.hpp:32-36). -/
def writeMessage (m : Nat) (dest : Byte → Eff (Desk σ) Unit) : Eff (Desk σ) Unit := do
  let bs ← Desk.content m
  sendLive m dest bs.length 0

/-- A program with messages. Messages are numbered in the order of their declarations. -/
inductive Mail (σ α : Type) where
  | done (a : α)
  /-- reads the rest of the world -/
  | look (next : σ → Mail σ α)
  /-- acts on the rest of the world -/
  | act (x : Eff σ Unit) (next : Mail σ α)
  /-- `auto m = key(args...);` -/
  | make (k : Key) (args : List Val) (next : Mail σ α)
  /-- `auto m = std::move(m');` (include/upd/detail/serialized_message.hpp:24) -/
  | take (m' : Nat) (next : Mail σ α)
  /-- `m = std::move(m');` (include/upd/detail/serialized_message.hpp:27) -/
  | move (m m' : Nat) (next : Mail σ α)
  /-- `m.content.set<J>(v);` -/
  | edit (m j : Nat) (v : Val) (next : Mail σ α)
  /-- `m.content.get<J>()` -/
  | peek (m j : Nat) (next : Val → Mail σ α)
  /-- `m.write_to(dest);` -/
  | send (m : Nat) (dest : Byte → Eff σ Unit) (next : Mail σ α)

/-- Execution of the program; `Γ` has the classes of the messages which have been declared. The storage of a tuple is an array of bytes (include/upd/tuple.hpp:398): moving a message copies the bytes,
and the message which has been moved keeps its own. `m = std::move(m')` is only for messages of the same class (see `MailOk`). -/
def Mail.run (P : Platform) : List MsgClass → Mail σ α → Eff (Desk σ) α
  | _, .done a => pure a
  | Γ, .look next => fun d => Mail.run P Γ (next d.2) d
  | Γ, .act x next => do
    Eff.zoom Desk.rest x
    Mail.run P Γ next
  | Γ, .make k args next => do
    let bs ← Eff.lift (k.message P args)
    Desk.declare bs
    Mail.run P (Γ ++ [k.msgClass]) next
  | Γ, .take m' next =>
    match Γ[m']? with
    | none => Eff.lift (.error .illTyped)
    | some c => do
      let bs ← Desk.content m'
      Desk.declare bs
      Mail.run P (Γ ++ [c]) next
  | Γ, .move m m' next => do
    let bs ← Desk.content m'
    Desk.replace m bs
    Mail.run P Γ next
  | Γ, .edit m j v next =>
    match Γ[m]? with
    | none => Eff.lift (.error .illTyped)
    | some c => do
      let bs ← Desk.content m
      let bs' ← Eff.lift ((Tuple.self c.e c.s c.types).set P j v bs)
      Desk.replace m bs'
      Mail.run P Γ next
  | Γ, .peek m j next =>
    match Γ[m]? with
    | none => Eff.lift (.error .illTyped)
    | some c => do
      let bs ← Desk.content m
      let v ← Eff.lift ((Tuple.self c.e c.s c.types).get P j bs)
      Mail.run P Γ (next v)
  | Γ, .send m dest next => do
    writeMessage m fun b => Eff.zoom Desk.rest (dest b)
    Mail.run P Γ next

end Upd
