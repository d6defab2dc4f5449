import Verif.Model.Buffered

/-!
# Callbacks which use the buffered dispatcher that runs them

`put` calls the callback in the middle of its work (include/upd/buffered_dispatcher.hpp:130-158, :260-272), while the data members are those of the
packet being processed. Nothing prevents the callback, or an interrupt handler which runs during it, from calling the member functions of the same
object. Not modelled: callbacks which catch the exceptions thrown by such a call.
-/

namespace Upd

variable {σ : Type}

/-- The body of a callback which may call the member functions of the buffered dispatcher (include/upd/buffered_dispatcher.hpp:97, :110-117, :130-158,
:165-169, :179, :234-247): each continuation is what the callback does with the result. `operator()` (:197-203) is `read_from` followed by
`write_to`. -/
inductive Prog (σ : Type) where
  /-- returns -/
  | done (r : Option Val)
  /-- reads the rest of the world -/
  | look (k : σ → Prog σ)
  /-- acts on the rest of the world -/
  | step (x : Eff σ Unit) (k : Prog σ)
  | put (byte : Byte) (k : Status → Prog σ)
  | get (k : Byte → Prog σ)
  | isLoaded (k : Bool → Prog σ)
  | readFrom (src : Eff σ Byte) (k : Status → Prog σ)
  | writeTo (dest : Byte → Eff σ Unit) (k : Prog σ)
  | reply (key : Key) (n : Nat) (output : Byte → Eff σ Unit) (k : Bool → Prog σ)

/-- Second loop of `read_from` (include/upd/buffered_dispatcher.hpp:114-115), for any version of `put`. `fuel` as in `Buf.readLoop1`. -/
def Buf.readLoop2With (put : Byte → Eff (BState σ) Status) (src : Eff σ Byte) : (fuel : Nat) → Status → Eff (BState σ) Status
  | 0, _ => Eff.lift (.error .starved)
  | fuel + 1, status => do
    let st ← Eff.get
    if st.1.indexLoaded then do
      let x ← onWorld src
      let status ← put x
      Buf.readLoop2With put src fuel status
    else pure status

/-- First loop of `read_from` (include/upd/buffered_dispatcher.hpp:112-113), for any version of `put`. `fuel` as in `Buf.readLoop1`. -/
def Buf.readLoop1With (put : Byte → Eff (BState σ) Status) (src : Eff σ Byte) : (fuel : Nat) → Status → Eff (BState σ) Status
  | 0, _ => Eff.lift (.error .starved)
  | fuel + 1, status => do
    let st ← Eff.get
    if !st.1.indexLoaded && status = .loading then do
      let x ← onWorld src
      let status ← put x
      Buf.readLoop1With put src fuel status
    else pure status

/-- `read_from(src)` (include/upd/buffered_dispatcher.hpp:110-117), for any version of `put`. -/
def Buf.readFromWith (put : Byte → Eff (BState σ) Status) (src : Eff σ Byte) : Eff (BState σ) Status := do
  let st ← Eff.get
  let fuel := st.1.ibuf.length + 2
  let status ← Buf.readLoop1With put src fuel .loading
  Buf.readLoop2With put src fuel status

/-- Runs the body of a callback, where `put` is the `put` of the dispatcher. -/
def Prog.run (P : Platform) (put : Byte → Eff (BState σ) Status) : Prog σ → Eff (BState σ) (Option Val)
  | .done r => pure r
  | .look k => fun st => (k st.2).run P put st
  | .step x k => do
    onWorld x
    k.run P put
  | .put byte k => do
    let status ← put byte
    (k status).run P put
  | .get k => do
    let byte ← Buf.get
    (k byte).run P put
  | .isLoaded k => fun st => (k st.1.isLoaded).run P put st
  | .readFrom src k => do
    let status ← Buf.readFromWith put src
    (k status).run P put
  | .writeTo dest k => do
    Buf.writeTo dest
    k.run P put
  | .reply key n output k => do
    let sent ← Buf.reply P key n output
    (k sent).run P put

/-- The dispatcher and the rest of the world, on which the callbacks act. -/
def stateLens : Lens (Nat × BState σ) (BState σ) := ⟨fun st => st.2, fun t st => (st.1, t)⟩

/-- `call()` (include/upd/buffered_dispatcher.hpp:260-272), when the functions of the keyring have the definitions `defs`. `depth` bounds the number of
calls in progress (`C87_depth` in `Verif.Props.Reentrant`: it has no effect). -/
def Buf.callR (P : Platform) (K : Keyring) (f : Features) (defs : Nat → List Val → Prog σ) : (depth : Nat) → Eff (BState σ) Unit
  | 0 => Eff.lift (.error .starved)
  | depth + 1 => do
    modifyBuf fun b => { b with obufBottom := 0, obufNext := 0 }
    let D : Dispatcher (BState σ) :=
      Dispatcher.make K f fun name args => (defs name args).run P (Buf.putWith P (Buf.callR P K f defs depth))
    withPtr do
      let index ← D.getIndex P ibufSrc
      let a ← Eff.lift (D.at index)
      a.invoke P stateLens ibufSrc obufDest
    modifyBuf fun b => { b with indexLoaded := false, loadCount := D.idxBytes, ibufNext := 0 }

/-- `put(byte)` (include/upd/buffered_dispatcher.hpp:130-158), when the functions of the keyring have the definitions `defs`. -/
def Buf.putR (P : Platform) (K : Keyring) (f : Features) (defs : Nat → List Val → Prog σ) (depth : Nat) (byte : Byte) : Eff (BState σ) Status :=
  Buf.putWith P (Buf.callR P K f defs (depth + 1)) byte

/-- A new buffered dispatcher (include/upd/buffered_dispatcher.hpp:306-320, :364-380): single buffered if `shared`, double buffered otherwise. The field `disp` is only used
for the indices and the sizes of the inputs: the definitions of the functions are given to `Buf.putR`. -/
def Buf.freshR (P : Platform) (K : Keyring) (f : Features) (sizeMax : Nat) (shared : Bool) : Buf σ :=
  let D := Dispatcher.make K f fun _ _ => Eff.lift (.error .illTyped)
  if shared then Buf.single P K sizeMax D else Buf.double P K sizeMax D

end Upd
