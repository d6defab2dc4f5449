import Verif.Model.Interrupt

/-!
# `put` interrupted any number of times

As in Verif/Model/Interrupt.lean, but the handler may run any number of times at each point, and C++'s freedom in ordering the two side effects of
`obuf_begin()[m_obuf_bottom++] = byte` is a parameter. Before `call()`, `put` only accesses the members about the input, and after the last byte of
the response it does not access the members about the output any more: the points where a handler which only deals with the output is worth running
are those of `CallPoint`.
-/

namespace Upd

variable {σ : Type}

/-- `isr` runs `n` times in a row. -/
def times {τ : Type} (isr : Eff τ Unit) : Nat → Eff τ Unit
  | 0 => pure ()
  | n + 1 => do
    isr
    times isr n

/-- `[&](byte_t byte) { derived().obuf_begin()[m_obuf_bottom++] = byte; }` (include/upd/buffered_dispatcher.hpp:267). At the `k`-th byte of the
response, `isr` runs `runs (.beforeStore k)` times between the two side effects, and `runs (.afterByte k)` times after both. `bottomFirst`: the new
value of `m_obuf_bottom` is stored first (C++ leaves the order open, :267). -/
def destMany (isr : Eff (BState σ) Unit) (runs : CallPoint → Nat) (bottomFirst : Bool) (x : Byte) : Eff (Nat × BState σ) Unit :=
  underPtr do
    let st ← Eff.get
    let k := st.1.obufBottom
    if bottomFirst then do
      modifyBuf fun b => { b with obufBottom := k + 1 }
      times isr (runs (.beforeStore k))
      let st ← Eff.get
      let b ← Eff.lift (st.1.storeOut k x)
      modifyBuf fun _ => b
      times isr (runs (.afterByte k))
    else do
      let b ← Eff.lift (st.1.storeOut k x)
      modifyBuf fun _ => b
      times isr (runs (.beforeStore k))
      modifyBuf fun b => { b with obufBottom := k + 1 }
      times isr (runs (.afterByte k))

/-- `call()` (include/upd/buffered_dispatcher.hpp:260-272): `isr` runs `runs pt` times at each point `pt`. -/
def Buf.callMany (P : Platform) (isr : Eff (BState σ) Unit) (runs : CallPoint → Nat) (bottomFirst : Bool) : Eff (BState σ) Unit := do
  modifyBuf fun b => { b with obufBottom := 0 }
  times isr (runs .betweenResets)
  modifyBuf fun b => { b with obufNext := 0 }
  let st ← Eff.get
  let D := st.1.disp
  withPtr do
    let index ← D.getIndex P ibufSrc
    let a ← Eff.lift (D.at index)
    a.invoke P worldLens ibufSrc (destMany isr runs bottomFirst)
  modifyBuf fun b => { b with indexLoaded := false, loadCount := D.idxBytes, ibufNext := 0 }

/-- `put(byte)` (include/upd/buffered_dispatcher.hpp:130-158): `isr` runs `runs pt` times at each point `pt` of the call of the action. -/
def Buf.putMany (P : Platform) (isr : Eff (BState σ) Unit) (runs : CallPoint → Nat) (bottomFirst : Bool) (byte : Byte) : Eff (BState σ) Status :=
  Buf.putWith P (Buf.callMany P isr runs bottomFirst) byte

end Upd
