import Verif.Model.Interrupt

/-!
# `write_to` interrupted at any points, any number of times

The loop of `write_to` (include/upd/buffered_dispatcher.hpp:165-169) is cut into its accesses to the data members, and a handler which puts a byte may run
before each of them. Simplifications: each access to a data member is indivisible; a handler runs to completion (interrupts are masked in handlers); what the
putter does is one step, since it does not access the dispatcher.
-/

namespace Upd

variable {σ : Type}

/-- The orders which C++ leaves to the compiler. -/
structure Compiled where
  /-- in the test of the loop, `m_obuf_next` is loaded before `m_obuf_bottom` (include/upd/buffered_dispatcher.hpp:96) -/
  loopNextFirst : Bool
  /-- the same in the test of `get()` -/
  getNextFirst : Bool
  /-- in `obuf_begin()[m_obuf_next++]`, the new value of `m_obuf_next` is stored before the byte is read (include/upd/buffered_dispatcher.hpp:179) -/
  storeFirst : Bool

/-- Where the main program is in `write_to`. -/
inductive WPc where
  /-- about to evaluate the condition of the loop -/
  | loop
  /-- one of the two members has been loaded for the condition of the loop -/
  | loopHalf (n : Nat)
  /-- about to evaluate `is_loaded()` in `get()` -/
  | test
  /-- one of the two members has been loaded for it -/
  | testHalf (n : Nat)
  /-- about to evaluate `obuf_begin()[m_obuf_next++]` -/
  | pop
  /-- `m_obuf_next` has been loaded -/
  | popped (n : Nat)
  /-- its new value has been stored, the byte has not been read -/
  | stored (n : Nat)
  /-- the byte has been read, the new value of `m_obuf_next` has not been stored -/
  | fetched (n : Nat) (x : Byte)
  /-- about to call the putter -/
  | send (x : Byte)
  /-- `write_to` has returned -/
  | done

/-- The first load of `m_obuf_next != m_obuf_bottom`. -/
def Buf.half (nextFirst : Bool) (b : Buf σ) : Nat := if nextFirst then b.obufNext else b.obufBottom

/-- The second load, and the comparison. -/
def Buf.differs (nextFirst : Bool) (n : Nat) (b : Buf σ) : Bool := if nextFirst then n != b.obufBottom else b.obufNext != n

/-- One step of `write_to(tx)` (include/upd/buffered_dispatcher.hpp:96, :165-169, :179). If `get()` finds the output buffer empty, it returns `byte_t{}`. -/
def WPc.step (C : Compiled) (tx : Byte → Eff σ Unit) : WPc → Eff (BState σ) WPc
  | .loop => fun st => .ret (.loopHalf (st.1.half C.loopNextFirst)) st
  | .loopHalf n => fun st => .ret (if st.1.differs C.loopNextFirst n then .test else .done) st
  | .test => fun st => .ret (.testHalf (st.1.half C.getNextFirst)) st
  | .testHalf n => fun st => .ret (if st.1.differs C.getNextFirst n then .pop else .send 0#8) st
  | .pop => fun st => .ret (.popped st.1.obufNext) st
  | .popped n =>
    if C.storeFirst then do
      modifyBuf fun b => { b with obufNext := n + 1 }
      pure (.stored n)
    else do
      let st ← Eff.get
      let x ← Eff.lift (st.1.outAt n)
      pure (.fetched n x)
  | .stored n => do
    let st ← Eff.get
    let x ← Eff.lift (st.1.outAt n)
    pure (.send x)
  | .fetched n x => do
    modifyBuf fun b => { b with obufNext := n + 1 }
    pure (.send x)
  | .send x => do
    onWorld (tx x)
    pure .loop
  | .done => pure .done

/-- What happens: the main program makes a step, or the handler puts a byte. -/
inductive WEvent where
  | main
  | put (x : Byte)

/-- What is observed of an event. -/
inductive WObs where
  | silent
  | sent (x : Byte)
  | status (st : Status) (b : List Byte)

/-- The bytes of the output buffer which have not been read. -/
def Buf.left (b : Buf σ) : List Byte := (b.out.drop b.obufNext).take (b.obufBottom - b.obufNext)

/-- Effect of an event. For a byte put, the status and the bytes to be sent after that are observed. -/
def WEvent.run (P : Platform) (C : Compiled) (tx : Byte → Eff σ Unit) : WEvent → Eff (WPc × BState σ) WObs
  | .main => fun (pc, st) =>
    match pc.step C tx st with
    | .ret pc' st' => .ret (match pc with | .send x => .sent x | _ => .silent) (pc', st')
    | .threw st' => .threw (.done, st')
    | .fault f => .fault f
  | .put x => fun (pc, st) =>
    match Buf.put P x st with
    | .ret s st' => .ret (.status s st'.1.left) (pc, st')
    | .threw st' => .threw (pc, st')
    | .fault f => .fault f

end Upd
