import Verif.Model.Arena
import Verif.Model.Interchange

/-!
# Buffered dispatchers whose buffers may overlap: whole packets
-/

namespace Upd

variable {σ : Type}

/-- A byte getter or putter given by the user acts on the world. -/
def Arena.onWorld {α : Type} (x : Eff σ α) : Eff (Arena σ × σ) α := Eff.zoom ⟨fun st => st.2, fun w st => (st.1, w)⟩ x

/-- First loop of `read_from` (include/upd/buffered_dispatcher.hpp:112-113). `fuel` bounds the number of iterations, as in `Buf.readLoop1`. -/
def Arena.readLoop1 (P : Platform) (src : Eff σ Byte) : (fuel : Nat) → Status → Eff (Arena σ × σ) Status
  | 0, _ => Eff.lift (.error .starved)
  | fuel + 1, status => do
    let st ← Eff.get
    if !st.1.indexLoaded && status = .loading then do
      let x ← Arena.onWorld src
      let status ← Arena.put P x
      Arena.readLoop1 P src fuel status
    else pure status

/-- Second loop of `read_from` (include/upd/buffered_dispatcher.hpp:114-115). `fuel` as in `Arena.readLoop1`. -/
def Arena.readLoop2 (P : Platform) (src : Eff σ Byte) : (fuel : Nat) → Status → Eff (Arena σ × σ) Status
  | 0, _ => Eff.lift (.error .starved)
  | fuel + 1, status => do
    let st ← Eff.get
    if st.1.indexLoaded then do
      let x ← Arena.onWorld src
      let status ← Arena.put P x
      Arena.readLoop2 P src fuel status
    else pure status

/-- `read_from(src)` (include/upd/buffered_dispatcher.hpp:110-117). -/
def Arena.readFrom (P : Platform) (src : Eff σ Byte) : Eff (Arena σ × σ) Status := do
  let st ← Eff.get
  let fuel := st.1.mem.length + 2
  let status ← Arena.readLoop1 P src fuel .loading
  Arena.readLoop2 P src fuel status

/-- Loop of `write_to` (include/upd/buffered_dispatcher.hpp:166-169). `fuel` bounds the number of iterations. -/
def Arena.writeLoop (dest : Byte → Eff σ Unit) : (fuel : Nat) → Eff (Arena σ × σ) Unit
  | 0 => Eff.lift (.error .starved)
  | fuel + 1 => do
    let st ← Eff.get
    if st.1.isLoaded then do
      let x ← Arena.get
      Arena.onWorld (dest x)
      Arena.writeLoop dest fuel
    else pure ()

/-- `write_to(dest)` (include/upd/buffered_dispatcher.hpp:165-169). -/
def Arena.writeTo (dest : Byte → Eff σ Unit) : Eff (Arena σ × σ) Unit := do
  let st ← Eff.get
  Arena.writeLoop dest (st.1.mem.length + 2)

/-- `operator()(src, dest)` (include/upd/buffered_dispatcher.hpp:197-203). -/
def Arena.process (P : Platform) (src : Eff σ Byte) (dest : Byte → Eff σ Unit) : Eff (Arena σ × σ) Status := do
  let status ← Arena.readFrom P src
  if status = .resolved then do
    Arena.writeTo dest
    pure status
  else pure status

/-- The program, with a buffered dispatcher whose buffers are in one array (as `ServeProg.buffered`): `dispatcher(src, dest)`
(include/upd/buffered_dispatcher.hpp:197-203), `replace` (:182-185, :207-217). -/
def ServeProg.arena (P : Platform) : ServeProg σ → Eff (Arena σ × σ) (Option Val)
  | .done r => pure r
  | .act x next => fun st =>
    match x st.2 with
    | .ret r w => ServeProg.arena P (next r) (st.1, w)
    | .threw w => .threw (st.1, w)
    | .fault f => .fault f
  | .serve src dest next => fun st =>
    match Arena.process P src dest st with
    | .ret status st => ServeProg.arena P (next (status == .resolved)) st
    | .threw st => .threw st
    | .fault f => .fault f
  | .replace i cb next => fun st => ServeProg.arena P next (st.1.replace i cb, st.2)
  | .replaceStatic i cb next => fun st => ServeProg.arena P next (st.1.replaceStatic i cb, st.2)

end Upd
