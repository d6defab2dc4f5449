import Verif.Model.Iterator

/-!
# Streams given as iterators of any class (include/upd/detail/io)

`Model/Iterator.lean` has pointers to bytes. Here, an iterator is a value of any class which the requirements accept (include/upd/detail/type_traits/require.hpp:82-91): what `*it++` does is
arbitrary, and may depend on the rest of the world and change it (`std::istreambuf_iterator`, `std::back_insert_iterator`…). A functor is an iterator which has one value: one of the streams may be
a functor and the other one an iterator (`normalize`, include/upd/detail/io/immediate_process.hpp:59-69).
-/

namespace Upd

variable {σ ι ο α : Type}

/-- A class of input iterators. `next it`: what the expression `*it++` does; its value, as a byte, and the value of `it` afterwards. -/
abbrev InputIt (σ ι : Type) := ι → Eff σ (Byte × ι)

/-- A class of output iterators. `store it x`: what the expression `*it++ = x` does; the value of `it` afterwards. -/
abbrev OutputIt (σ ο : Type) := ο → Byte → Eff σ ο

/-- The two iterators held by the wrappers, and the world. -/
abbrev Walk (ι ο σ : Type) := (ι × ο) × σ

/-- The part of the state which is not local to the wrappers. -/
def Walk.world : Lens (Walk ι ο σ) σ := ⟨fun st => st.2, fun w st => (st.1, w)⟩

/-- `return *it++;` (`reader_iterator`, include/upd/detail/io/immediate_process.hpp:46-50; include/upd/detail/io/immediate_reader.hpp:33, :38). The iterator of the wrapper is not used after an
exception: the call has ended. -/
def Walk.read (next : InputIt σ ι) : Eff (Walk ι ο σ) Byte := fun st =>
  match next st.1.1 st.2 with
  | .ret (x, it) w => .ret x ((it, st.1.2), w)
  | .threw w => .threw (st.1, w)
  | .fault f => .fault f

/-- `*it++ = byte;` (`writer_iterator`, include/upd/detail/io/immediate_process.hpp:53-57; include/upd/detail/io/immediate_writer.hpp:34, :39). -/
def Walk.write (store : OutputIt σ ο) (x : Byte) : Eff (Walk ι ο σ) Unit := fun st =>
  match store st.1.2 x st.2 with
  | .ret it w => .ret () ((st.1.1, it), w)
  | .threw w => .threw (st.1, w)
  | .fault f => .fault f

/-- Iterators are passed by value: the wrappers hold copies of them, which are lost when the call ends (include/upd/detail/io/immediate_process.hpp:72-93;
include/upd/detail/io/immediate_reader.hpp:31-39; include/upd/detail/io/immediate_writer.hpp:32-40). -/
def Walk.scope (input : ι) (output : ο) (x : Eff (Walk ι ο σ) α) : Eff σ α := fun w =>
  match x ((input, output), w) with
  | .ret a st => .ret a st.2
  | .threw st => .threw st.2
  | .fault f => .fault f

/-- `dispatcher(input, output)` (include/upd/detail/io/immediate_process.hpp:25-38, include/upd/dispatcher.hpp:109, :119-127). -/
def Dispatcher.runWalk (P : Platform) (D : Dispatcher σ) (next : InputIt σ ι) (store : OutputIt σ ο) (input : ι) (output : ο) : Eff σ Nat :=
  Walk.scope input output (D.run P Walk.world (Walk.read next) (Walk.write store))

/-- `action(input, output)` (include/upd/detail/io/immediate_process.hpp:25-38, include/upd/action.hpp:164, :175-179, :209, :220-223). -/
def Action.invokeWalk (P : Platform) (a : Action σ) (next : InputIt σ ι) (store : OutputIt σ ο) (input : ι) (output : ο) : Eff σ Unit :=
  Walk.scope input output (a.invoke P Walk.world (Walk.read next) (Walk.write store))

/-- `key(args...).write_to(it)` or `key(args...) >> it` (include/upd/detail/io/immediate_writer.hpp:33-51). -/
def Key.writeWalk (P : Platform) (k : Key) (args : List Val) (store : OutputIt σ ο) (output : ο) : Eff σ Unit :=
  Walk.scope () output (k.writeTo P args (Walk.write store))

/-- `key.read_from(it)` or `key << it` (include/upd/detail/io/immediate_reader.hpp:32-50). -/
def Key.readWalk (P : Platform) (k : Key) (next : InputIt σ ι) (input : ι) : Eff σ (Option Val) :=
  Walk.scope input () (k.readFrom P (Walk.read next))

/-- The callbacks do not access the local variables of the wrappers. -/
def Walk.hosted (defs : Nat → List Val → Eff σ (Option Val)) : Nat → List Val → Eff (Walk ι ο σ) (Option Val) := fun name args => Eff.zoom Walk.world (defs name args)

/-- `buffered_dispatcher(input, output)` (include/upd/detail/io/immediate_process.hpp:25-38, include/upd/buffered_dispatcher.hpp:187, :197-203). The callbacks of the dispatcher are `Walk.hosted`.
The iterators left in the state are meaningless once the call has ended. -/
def Buf.processWalk (P : Platform) (next : InputIt σ ι) (store : OutputIt σ ο) (input : ι) (output : ο) : Eff (BState (Walk ι ο σ)) Status := fun st =>
  Buf.process P (Walk.read next) (Walk.write store) (st.1, (input, output), st.2.2)

/-- `buffered_dispatcher.read_from(it)` (include/upd/detail/io/immediate_reader.hpp:31-34). Same remarks; there is no output iterator. -/
def Buf.readFromWalk (P : Platform) (next : InputIt σ ι) (input : ι) : Eff (BState (Walk ι Unit σ)) Status := fun st =>
  Buf.readFrom P (Walk.read next) (st.1, (input, ()), st.2.2)

/-- `buffered_dispatcher.write_to(it)` (include/upd/detail/io/immediate_writer.hpp:32-35). Same remarks; there is no input iterator. -/
def Buf.writeToWalk (store : OutputIt σ ο) (output : ο) : Eff (BState (Walk Unit ο σ)) Unit := fun st =>
  Buf.writeTo (Walk.write store) (st.1, ((), output), st.2.2)

end Upd
