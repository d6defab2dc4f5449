import Verif.Model.Dispatcher

/-!
# Model of include/upd/buffered_dispatcher.hpp

The callbacks act on the world only: a callback that calls member functions of the very dispatcher which is running it is the
subject of `Verif.Model.Reentrant`.
-/

namespace Upd
open TypeList

variable {σ : Type}

/-- `needed_input_buffer_size` (include/upd/buffered_dispatcher.hpp:28-32). -/
def neededInput (K : Keyring) : Nat := (max11 (K.decls.map (·.sig.parametersSize))).getD 0 + K.idxBytes

/-- `needed_output_buffer_size` (include/upd/buffered_dispatcher.hpp:35-36). It really uses the sizes of the parameters. -/
def neededOutput (K : Keyring) : Nat := (max11 (K.decls.map (·.sig.parametersSize))).getD 0

/-- `packet_status` (include/upd/buffered_dispatcher.hpp:46). -/
inductive Status where
  | loading
  | dropped
  | resolved
  deriving DecidableEq, Repr

/-- State of a buffered dispatcher (include/upd/buffered_dispatcher.hpp:280-282). A single buffered dispatcher (`shared`) uses `ibuf`
as `m_buf` (:299-300, :320), a double buffered one has `ibuf` = `m_ibuf` and `obuf` = `m_obuf` (:357-358, :380). `sizeMax` is the
greatest `std::size_t`. -/
structure Buf (σ : Type) where
  disp : Dispatcher σ
  shared : Bool
  sizeMax : Nat
  ibuf : Mem
  obuf : Mem
  indexLoaded : Bool
  loadCount : Nat
  ibufNext : Nat
  obufNext : Nat
  obufBottom : Nat

/-- `buffered_dispatcher()` (include/upd/buffered_dispatcher.hpp:92-93). -/
def Buf.init (D : Dispatcher σ) (shared : Bool) (sizeMax : Nat) (ibuf obuf : Mem) : Buf σ :=
  ⟨D, shared, sizeMax, ibuf, obuf, false, D.idxBytes, 0, 0, 0⟩

/-- `double_buffered_dispatcher()` (include/upd/buffered_dispatcher.hpp:364, :367, :377, :380): uninitialised buffers. -/
def Buf.double (P : Platform) (K : Keyring) (sizeMax : Nat) (D : Dispatcher σ) : Buf σ :=
  Buf.init D false sizeMax (P.junkBytes (neededInput K)) (P.junkBytes (neededOutput K))

/-- `single_buffered_dispatcher()` (include/upd/buffered_dispatcher.hpp:306-307, :317, :320): uninitialised buffer. -/
def Buf.single (P : Platform) (K : Keyring) (sizeMax : Nat) (D : Dispatcher σ) : Buf σ :=
  Buf.init D true sizeMax (P.junkBytes ((max11 [neededInput K, neededOutput K]).getD 0)) []

/-- A buffered dispatcher and the rest of the world. -/
abbrev BState (σ : Type) := Buf σ × σ

/-- `obuf_begin()` (include/upd/buffered_dispatcher.hpp:300, :358). -/
def Buf.out (b : Buf σ) : Mem := if b.shared then b.ibuf else b.obuf

/-- `obuf_begin()[m_obuf_bottom++] = byte` (include/upd/buffered_dispatcher.hpp:267). -/
def Buf.pushOut (b : Buf σ) (byte : Byte) : M (Buf σ) :=
  if b.obufBottom < b.out.length then
    if b.shared then .ok { b with ibuf := b.ibuf.set b.obufBottom byte, obufBottom := b.obufBottom + 1 }
    else .ok { b with obuf := b.obuf.set b.obufBottom byte, obufBottom := b.obufBottom + 1 }
  else .error .obufOverrun

/-- `obuf_begin()[m_obuf_next++]` (include/upd/buffered_dispatcher.hpp:179). -/
def Buf.popOut (b : Buf σ) : M (Byte × Buf σ) :=
  match b.out[b.obufNext]? with
  | some x => .ok (x, { b with obufNext := b.obufNext + 1 })
  | none => .error .obufOverrun

/-- `ibuf_begin()[m_ibuf_next++] = byte` (include/upd/buffered_dispatcher.hpp:131). -/
def Buf.pushIn (b : Buf σ) (byte : Byte) : M (Buf σ) :=
  if b.ibufNext < b.ibuf.length then .ok { b with ibuf := b.ibuf.set b.ibufNext byte, ibufNext := b.ibufNext + 1 }
  else .error .ibufOverrun

/-- `is_loaded()` (include/upd/buffered_dispatcher.hpp:97). -/
def Buf.isLoaded (b : Buf σ) : Bool := b.obufNext != b.obufBottom

/-- Applies a pure update to the dispatcher. -/
def modifyBuf (f : Buf σ → Buf σ) : Eff (BState σ) Unit := fun st => .ret () (f st.1, st.2)

/-- Runs a block with a local variable `auto *ibuf_ptr = derived().ibuf_begin()` (include/upd/buffered_dispatcher.hpp:140,
:264), the position of the pointer in the buffer. -/
def withPtr {τ α : Type} (x : Eff (Nat × τ) α) : Eff τ α := fun t =>
  match x (0, t) with
  | .ret a (_, t) => .ret a t
  | .threw (_, t) => .threw t
  | .fault f => .fault f

/-- `[&]() { return *ibuf_ptr++; }` (include/upd/buffered_dispatcher.hpp:141, :265, :266). -/
def ibufSrc : Eff (Nat × BState σ) Byte := fun st =>
  match st.2.1.ibuf[st.1]? with
  | some x => .ret x (st.1 + 1, st.2)
  | none => .fault .ibufOverrun

/-- `[&](byte_t byte) { derived().obuf_begin()[m_obuf_bottom++] = byte; }` (include/upd/buffered_dispatcher.hpp:267). -/
def obufDest (x : Byte) : Eff (Nat × BState σ) Unit := fun st =>
  match st.2.1.pushOut x with
  | .ok b => .ret () (st.1, b, st.2.2)
  | .error f => .fault f

/-- The world in which the callbacks run. -/
def worldLens : Lens (Nat × BState σ) σ := ⟨fun st => st.2.2, fun w st => (st.1, st.2.1, w)⟩

/-- `call()` (include/upd/buffered_dispatcher.hpp:260-272). -/
def Buf.call (P : Platform) : Eff (BState σ) Unit := do
  modifyBuf fun b => { b with obufBottom := 0, obufNext := 0 }
  let st ← Eff.get
  let D := st.1.disp
  withPtr do
    let index ← D.getIndex P ibufSrc
    let a ← Eff.lift (D.at index)
    a.invoke P worldLens ibufSrc obufDest
  modifyBuf fun b => { b with indexLoaded := false, loadCount := D.idxBytes, ibufNext := 0 }

/-- `--m_load_count` on a `std::size_t` (include/upd/buffered_dispatcher.hpp:133). -/
def decSize (sizeMax n : Nat) : Nat := if n = 0 then sizeMax else n - 1

/-- `put(byte)` (include/upd/buffered_dispatcher.hpp:130-158). The parameter `call` stands for `call()`: see `Buf.put`, and `Buf.putInt` in
`Verif.Model.Interrupt`. -/
def Buf.putWith (P : Platform) (call : Eff (BState σ) Unit) (byte : Byte) : Eff (BState σ) Status := do
  let st ← Eff.get
  let b ← Eff.lift (st.1.pushIn byte)
  let b := { b with loadCount := decSize b.sizeMax b.loadCount }
  modifyBuf fun _ => b
  if b.loadCount > 0 then pure .loading
  else if b.indexLoaded then do
    call
    pure .resolved
  else do
    let index ← withPtr (b.disp.getIndex P ibufSrc)
    if index < b.disp.size then do
      let a ← Eff.lift (b.disp.at index)
      let n ← Eff.lift a.inputSize
      modifyBuf fun b => { b with loadCount := n, indexLoaded := true }
      if n = 0 then do
        call
        pure .resolved
      else pure .loading
    else do
      modifyBuf fun b => { b with loadCount := b.disp.idxBytes, ibufNext := 0 }
      pure .dropped

/-- `put(byte)` (include/upd/buffered_dispatcher.hpp:130-158). -/
def Buf.put (P : Platform) (byte : Byte) : Eff (BState σ) Status := Buf.putWith P (Buf.call P) byte

/-- `get()` (include/upd/buffered_dispatcher.hpp:179). -/
def Buf.get {ω : Type} : Eff (Buf σ × ω) Byte := fun st =>
  if st.1.isLoaded then
    match st.1.popOut with
    | .ok (x, b) => .ret x (b, st.2)
    | .error f => .fault f
  else .ret 0#8 st

/-- A byte getter or putter given by the user acts on the world. -/
def onWorld {α ω : Type} (x : Eff ω α) : Eff (Buf σ × ω) α := Eff.zoom ⟨fun st => st.2, fun w st => (st.1, w)⟩ x

/-- First loop of `read_from` (include/upd/buffered_dispatcher.hpp:112-113). `fuel` bounds the number of iterations:
`Buf.readFrom` gives enough of it (`readFrom_never_starved` in `Verif.Props`), so that it has no effect. -/
def Buf.readLoop1 (P : Platform) (src : Eff σ Byte) : (fuel : Nat) → Status → Eff (BState σ) Status
  | 0, _ => Eff.lift (.error .starved)
  | fuel + 1, status => do
    let st ← Eff.get
    if !st.1.indexLoaded && status = .loading then do
      let x ← onWorld src
      let status ← Buf.put P x
      Buf.readLoop1 P src fuel status
    else pure status

/-- Second loop of `read_from` (include/upd/buffered_dispatcher.hpp:114-115). `fuel` as in `Buf.readLoop1`. -/
def Buf.readLoop2 (P : Platform) (src : Eff σ Byte) : (fuel : Nat) → Status → Eff (BState σ) Status
  | 0, _ => Eff.lift (.error .starved)
  | fuel + 1, status => do
    let st ← Eff.get
    if st.1.indexLoaded then do
      let x ← onWorld src
      let status ← Buf.put P x
      Buf.readLoop2 P src fuel status
    else pure status

/-- `read_from(src)` (include/upd/buffered_dispatcher.hpp:110-117). -/
def Buf.readFrom (P : Platform) (src : Eff σ Byte) : Eff (BState σ) Status := do
  let st ← Eff.get
  let fuel := st.1.ibuf.length + 2
  let status ← Buf.readLoop1 P src fuel .loading
  Buf.readLoop2 P src fuel status

/-- Loop of `write_to` (include/upd/buffered_dispatcher.hpp:166-169). `fuel` bounds the number of iterations. -/
def Buf.writeLoop {ω : Type} (dest : Byte → Eff ω Unit) : (fuel : Nat) → Eff (Buf σ × ω) Unit
  | 0 => Eff.lift (.error .starved)
  | fuel + 1 => do
    let st ← Eff.get
    if st.1.isLoaded then do
      let x ← Buf.get
      onWorld (dest x)
      Buf.writeLoop dest fuel
    else pure ()

/-- `write_to(dest)` (include/upd/buffered_dispatcher.hpp:165-169). Each iteration increments `m_obuf_next`, and an iteration
with `m_obuf_next` out of the output buffer faults. -/
def Buf.writeTo {ω : Type} (dest : Byte → Eff ω Unit) : Eff (Buf σ × ω) Unit := do
  let st ← Eff.get
  Buf.writeLoop dest (st.1.out.length + 2)

/-- `operator()(src, dest)` (include/upd/buffered_dispatcher.hpp:197-203). -/
def Buf.process (P : Platform) (src : Eff σ Byte) (dest : Byte → Eff σ Unit) : Eff (BState σ) Status := do
  let status ← Buf.readFrom P src
  if status = .resolved then do
    Buf.writeTo dest
    pure status
  else pure status

/-- Destination `std::begin(buf)` in `reply` (include/upd/buffered_dispatcher.hpp:243, through
include/upd/detail/io/immediate_writer.hpp:32-35): a buffer and a position in it. -/
def bufIt (x : Byte) : Eff (Mem × Nat) Unit := fun st =>
  match st.1.wr st.2 x with
  | .ok m => .ret () (m, st.2 + 1)
  | .error f => .fault f

/-- `reply(output, k)` (include/upd/buffered_dispatcher.hpp:234-247), for a key `k` whose only parameter is an array of `n` bytes.
The local buffer is not initialised. -/
def Buf.reply (P : Platform) (k : Key) (n : Nat) (output : Byte → Eff σ Unit) : Eff (BState σ) Bool := fun st =>
  let bufSize := k.payloadLength - k.idxBytes
  if !(st.1.obufNext = 0 && st.1.obufBottom ≤ bufSize) then .ret false st
  else
    match Buf.writeTo bufIt (st.1, (P.junkBytes n, 0)) with
    | .fault f => .fault f
    | .threw (b, _) => .threw (b, st.2)
    | .ret _ (b, (buf, _)) =>
      match k.writeTo P [.arr (buf.map fun x => .int x.toNat)] output st.2 with
      | .ret _ w => .ret true (b, w)
      | .threw w => .threw (b, w)
      | .fault f => .fault f

/-- Implicit move constructor of an action: the new object and the moved-from one. For an `action`, the `unique_ptr` is moved and becomes null
(include/upd/action.hpp:199); a `no_storage_action` is copied (:234-235). -/
def Action.move : Action σ → Action σ × Action σ
  | .null => (.null, .null)
  | .stored e s cb => (.stored e s cb, .null)
  | .weak e s cb => (.weak e s cb, .weak e s cb)

/-- Implicit move constructor of a dispatcher (no destructor, copy or move operation is declared in include/upd/dispatcher.hpp): each action is
moved. -/
def Dispatcher.move (D : Dispatcher σ) : Dispatcher σ × Dispatcher σ :=
  ({ D with acts := D.acts.map fun a => a.move.1 }, { D with acts := D.acts.map fun a => a.move.2 })

/-- Implicit move constructor of a buffered dispatcher (no destructor, copy or move operation is declared in
include/upd/buffered_dispatcher.hpp:62-283, :294-321, :352-381): member-wise; the arrays and the counters are copied. Gives the new object and the
moved-from one. -/
def Buf.move (b : Buf σ) : Buf σ × Buf σ :=
  ({ disp := b.disp.move.1, shared := b.shared, sizeMax := b.sizeMax, ibuf := b.ibuf, obuf := b.obuf, indexLoaded := b.indexLoaded,
     loadCount := b.loadCount, ibufNext := b.ibufNext, obufNext := b.obufNext, obufBottom := b.obufBottom },
   { b with disp := b.disp.move.2 })

end Upd
