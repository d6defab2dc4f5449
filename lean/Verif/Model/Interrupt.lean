import Verif.Model.Buffered

/-!
# Interrupt handlers on a buffered dispatcher

README.md:24 announces that the library "has been designed to work with hardware interrupts"; the member functions of
include/upd/buffered_dispatcher.hpp take no precaution (no lock, no atomic or volatile member). They are cut here into the accesses to the data
members which an interrupt handler may separate. Simplifications: each access to a data member is indivisible and the compiler keeps the order of
the source (where the language fixes it); a handler runs once during the interrupted call and runs to completion.
-/

namespace Upd

variable {σ : Type}

/-- Where a `get()` on a loaded dispatcher is interrupted (include/upd/buffered_dispatcher.hpp:179). In `obuf_begin()[m_obuf_next++]`, the new
value of `m_obuf_next` may be stored before or after the byte is read. -/
inductive GetPoint where
  /-- after `is_loaded()` -/
  | afterTest
  /-- after the value of `m_obuf_next` has been loaded -/
  | afterLoad
  /-- the new value of `m_obuf_next` is stored first; after that -/
  | afterStore
  /-- the byte is read first; after that -/
  | afterRead

/-- Reads `obuf_begin()[n]`. -/
def Buf.outAt (b : Buf σ) (n : Nat) : M Byte :=
  match b.out[n]? with
  | some x => .ok x
  | none => .error .obufOverrun

/-- `get()` (include/upd/buffered_dispatcher.hpp:179), interrupted at `pt` by `isr` (between the test and the end if not loaded). -/
def Buf.getInt {α : Type} (isr : Eff (BState σ) α) (pt : GetPoint) : Eff (BState σ) (Byte × α) := do
  let st ← Eff.get
  if st.1.isLoaded then
    match pt with
    | .afterTest => do
      let a ← isr
      let st ← Eff.get
      let (x, b) ← Eff.lift st.1.popOut
      modifyBuf fun _ => b
      pure (x, a)
    | .afterLoad => do
      let n := st.1.obufNext
      let a ← isr
      modifyBuf fun b => { b with obufNext := n + 1 }
      let st ← Eff.get
      let x ← Eff.lift (st.1.outAt n)
      pure (x, a)
    | .afterStore => do
      let n := st.1.obufNext
      modifyBuf fun b => { b with obufNext := n + 1 }
      let a ← isr
      let st ← Eff.get
      let x ← Eff.lift (st.1.outAt n)
      pure (x, a)
    | .afterRead => do
      let n := st.1.obufNext
      let x ← Eff.lift (st.1.outAt n)
      let a ← isr
      modifyBuf fun b => { b with obufNext := n + 1 }
      pure (x, a)
  else do
    let a ← isr
    pure (0#8, a)

/-- A handler which sends the next byte of the output: `if (d.is_loaded()) tx(d.get());`. -/
def Buf.txIsr (tx : Byte → Eff σ Unit) : Eff (BState σ) Unit := do
  let st ← Eff.get
  if st.1.isLoaded then do
    let x ← Buf.get
    onWorld (tx x)
  else pure ()

/-- Where the call of an action by `put` is interrupted. -/
inductive CallPoint where
  /-- between `m_obuf_bottom = 0` and `m_obuf_next = 0` (include/upd/buffered_dispatcher.hpp:261-262) -/
  | betweenResets
  /-- the new value of `m_obuf_bottom` is stored before the `k`-th byte of the response (from 0) is written (:267); in between -/
  | beforeStore (k : Nat)
  /-- once the `k`-th byte of the response (from 0) has been output (:267) -/
  | afterByte (k : Nat)
  deriving DecidableEq

/-- A handler runs within a block which has a local variable `ibuf_ptr`. -/
def underPtr {α τ : Type} (x : Eff τ α) : Eff (Nat × τ) α := Eff.zoom ⟨fun st => st.2, fun t st => (st.1, t)⟩ x

/-- `[&](byte_t byte) { derived().obuf_begin()[m_obuf_bottom++] = byte; }` (include/upd/buffered_dispatcher.hpp:267), followed by the handler if the
byte is the `k`-th one. -/
def obufDestInt (isr : Eff (BState σ) Unit) (k : Nat) (x : Byte) : Eff (Nat × BState σ) Unit := do
  let st ← Eff.get
  obufDest x
  if st.2.1.obufBottom = k then underPtr isr else pure ()

/-- `obuf_begin()[n] = byte`. -/
def Buf.storeOut (b : Buf σ) (n : Nat) (byte : Byte) : M (Buf σ) :=
  if n < b.out.length then
    if b.shared then .ok { b with ibuf := b.ibuf.set n byte } else .ok { b with obuf := b.obuf.set n byte }
  else .error .obufOverrun

/-- The same lambda (include/upd/buffered_dispatcher.hpp:267), the handler running between the increment of `m_obuf_bottom` and the assignment of the
`k`-th byte: C++ does not order these two side effects. -/
def obufDestMid (isr : Eff (BState σ) Unit) (k : Nat) (x : Byte) : Eff (Nat × BState σ) Unit := do
  let st ← Eff.get
  if st.2.1.obufBottom = k then do
    underPtr do
      modifyBuf fun b => { b with obufBottom := k + 1 }
      isr
      let st ← Eff.get
      let b ← Eff.lift (st.1.storeOut k x)
      modifyBuf fun _ => b
  else obufDest x

/-- The output functor of the action, interrupted at `pt`. -/
def destAt (isr : Eff (BState σ) Unit) : CallPoint → Byte → Eff (Nat × BState σ) Unit
  | .betweenResets => obufDest
  | .beforeStore k => obufDestMid isr k
  | .afterByte k => obufDestInt isr k

/-- `call()` (include/upd/buffered_dispatcher.hpp:260-272), interrupted at `pt` by `isr`. -/
def Buf.callInt (P : Platform) (isr : Eff (BState σ) Unit) (pt : CallPoint) : Eff (BState σ) Unit := do
  modifyBuf fun b => { b with obufBottom := 0 }
  (if pt = .betweenResets then isr else pure ())
  modifyBuf fun b => { b with obufNext := 0 }
  let st ← Eff.get
  let D := st.1.disp
  withPtr do
    let index ← D.getIndex P ibufSrc
    let a ← Eff.lift (D.at index)
    a.invoke P worldLens ibufSrc (destAt isr pt)
  modifyBuf fun b => { b with indexLoaded := false, loadCount := D.idxBytes, ibufNext := 0 }

/-- `put(byte)` (include/upd/buffered_dispatcher.hpp:130-158), the call of the action being interrupted at `pt` by `isr`. -/
def Buf.putInt (P : Platform) (isr : Eff (BState σ) Unit) (pt : CallPoint) (byte : Byte) : Eff (BState σ) Status :=
  Buf.putWith P (Buf.callInt P isr pt) byte

end Upd
