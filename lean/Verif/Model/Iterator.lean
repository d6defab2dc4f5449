import Verif.Model.Buffered

/-!
# Streams given as iterators (include/upd/detail/io)

The input and the output of dispatchers, actions and keys may be iterators on an array of bytes instead of functors. The array is a part of the
world: the callbacks may modify it, and the two iterators may point to the same place.
-/

namespace Upd

variable {σ α : Type}

/-- The two iterators held by the wrappers (as positions in the array), the array, and the rest of the world. -/
abbrev Its (σ : Type) := (Nat × Nat) × Mem × σ

/-- The part of the state which is not local to the wrappers. -/
def Its.world : Lens (Its σ) (Mem × σ) := ⟨fun st => st.2, fun w st => (st.1, w)⟩

/-- `*it++` (`reader_iterator`, include/upd/detail/io/immediate_process.hpp:46-50; include/upd/detail/io/immediate_reader.hpp:33, :38). -/
def Its.read : Eff (Its σ) Byte := fun st =>
  match st.2.1.rd st.1.1 with
  | .ok x => .ret x ((st.1.1 + 1, st.1.2), st.2)
  | .error f => .fault f

/-- `*it++ = byte` (`writer_iterator`, include/upd/detail/io/immediate_process.hpp:53-57; include/upd/detail/io/immediate_writer.hpp:34, :39). -/
def Its.write (x : Byte) : Eff (Its σ) Unit := fun st =>
  match st.2.1.wr st.1.2 x with
  | .ok mem => .ret () ((st.1.1, st.1.2 + 1), mem, st.2.2)
  | .error f => .fault f

/-- Iterators are passed by value: the wrappers hold copies of them, which are lost when the call ends
(include/upd/detail/io/immediate_process.hpp:72-93; include/upd/detail/io/immediate_reader.hpp:31-39;
include/upd/detail/io/immediate_writer.hpp:32-40). -/
def Its.scope (input output : Nat) (x : Eff (Its σ) α) : Eff (Mem × σ) α := fun w =>
  match x ((input, output), w) with
  | .ret a st => .ret a st.2
  | .threw st => .threw st.2
  | .fault f => .fault f

/-- `dispatcher(input, output)` on iterators (include/upd/detail/io/immediate_process.hpp:25-38, include/upd/dispatcher.hpp:109,
:119-127). -/
def Dispatcher.runIt (P : Platform) (D : Dispatcher (Mem × σ)) (input output : Nat) : Eff (Mem × σ) Nat :=
  Its.scope input output (D.run P Its.world Its.read Its.write)

/-- `action(input, output)` on iterators (include/upd/detail/io/immediate_process.hpp:25-38, include/upd/action.hpp:164, :175-179, :209, :220-223). -/
def Action.invokeIt (P : Platform) (a : Action (Mem × σ)) (input output : Nat) : Eff (Mem × σ) Unit :=
  Its.scope input output (a.invoke P Its.world Its.read Its.write)

/-- `key(args...).write_to(it)` or `key(args...) >> it` (include/upd/detail/io/immediate_writer.hpp:33-51). -/
def Key.writeToIt (P : Platform) (k : Key) (args : List Val) (output : Nat) : Eff (Mem × σ) Unit :=
  Its.scope 0 output (k.writeTo P args Its.write)

/-- `key.read_from(it)` or `key << it` (include/upd/detail/io/immediate_reader.hpp:32-50). -/
def Key.readFromIt (P : Platform) (k : Key) (input : Nat) : Eff (Mem × σ) (Option Val) :=
  Its.scope input 0 (k.readFrom P Its.read)

/-- The callbacks do not access the local variables of the wrappers. -/
def Its.hosted (defs : Nat → List Val → Eff (Mem × σ) (Option Val)) : Nat → List Val → Eff (Its σ) (Option Val) :=
  fun name args => Eff.zoom Its.world (defs name args)

/-- `buffered_dispatcher(input, output)` on iterators (include/upd/detail/io/immediate_process.hpp:25-38,
include/upd/buffered_dispatcher.hpp:187, :197-203). The callbacks of the dispatcher are `Its.hosted`. The iterators left in the state are
meaningless once the call has ended. -/
def Buf.processIt (P : Platform) (input output : Nat) : Eff (BState (Its σ)) Status := fun st =>
  Buf.process P Its.read Its.write (st.1, (input, output), st.2.2)

/-- `buffered_dispatcher.read_from(it)` (include/upd/detail/io/immediate_reader.hpp:31-34). Same remark. -/
def Buf.readFromIt (P : Platform) (input : Nat) : Eff (BState (Its σ)) Status := fun st =>
  Buf.readFrom P Its.read (st.1, (input, 0), st.2.2)

/-- `buffered_dispatcher.write_to(it)` (include/upd/detail/io/immediate_writer.hpp:32-35). Same remark. -/
def Buf.writeToIt (output : Nat) : Eff (BState (Its σ)) Unit := fun st =>
  Buf.writeTo Its.write (st.1, (0, output), st.2.2)

end Upd
