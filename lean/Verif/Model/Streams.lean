import Verif.Model.Iterator

/-!
# Byte streams of any kind (include/upd/detail/io)

The input and the output are functors or iterators, independently. Which overload is selected comes first, what it does second.
-/

namespace Upd

namespace Cpp

/-- What the library asks about the type of a stream: whether it can be called (`require_input_invocable` or `require_output_invocable`, include/upd/detail/type_traits/require.hpp:74-79), and
whether it is an iterator once decayed (`require_input_byte_iterator` or `require_output_byte_iterator`, :82-91, include/upd/detail/type_traits/iterator_category.hpp:12-25). -/
structure StreamKind where
  functor : Bool
  iterator : Bool
  deriving DecidableEq, Repr

/-- A candidate of an overload resolution in which the arguments other than the object are equally well converted by all candidates (references bound directly, or values): whether it is
viable, and whether it is a const member function. -/
structure Overload (α : Type) where
  viable : Bool
  isConst : Bool
  result : α

/-- Overload resolution ([over.match.best]): on an object which is not const, member functions which are not const are better; two candidates which are equally good make the call ambiguous. The
candidates with an ellipsis (`UPD_SFINAE_FAILURE_MEMBER`, include/upd/detail/static_error.hpp:16-21) are worse than all others, and ill-formed when they are selected: they are left out. -/
def resolve {α : Type} (constObj : Bool) (cs : List (Overload α)) : Option α :=
  let viable := cs.filter fun c => c.viable && (!constObj || c.isConst)
  let best := if viable.any (fun c => !c.isConst) then viable.filter fun c => !c.isConst else viable
  match best with
  | [c] => some c.result
  | _ => none

/-- The members named `operator()`: that of the class, and the two of `immediate_process`. -/
inductive ProcessMember where
  | own
  | process
  | processConst
  deriving DecidableEq, Repr

/-- The member selected by `object(input, output)` where the class derives from `immediate_process` (include/upd/detail/io/immediate_process.hpp:25-39). Its own `operator()` is
const in `action` and `no_storage_action` (include/upd/action.hpp:175-176, :220-221), not in `dispatcher` nor in `buffered_dispatcher` (include/upd/dispatcher.hpp:119-120,
include/upd/buffered_dispatcher.hpp:197-198). The parameter `no_derived_member_shadowing` (include/upd/detail/type_traits/no_derived_member_shadowing.hpp:12-14) prevents it from hiding those of
the base class. -/
def selectProcess (constOp constObj : Bool) (i o : StreamKind) : Option ProcessMember :=
  resolve constObj
    [⟨i.functor && o.functor, constOp, .own⟩, ⟨i.iterator || o.iterator, false, .process⟩, ⟨i.iterator || o.iterator, true, .processConst⟩]

/-- How a stream is given to the own `operator()` of the class: as it is, or in a wrapper. -/
inductive Passed where
  | asIs
  | wrapped
  deriving DecidableEq, Repr

/-- `normalize(stream, tag)` (include/upd/detail/io/immediate_process.hpp:59-93): the overloads for iterators are better on the second argument. -/
def normalize (k : StreamKind) : Passed := if k.iterator then .wrapped else .asIs

/-- The kind of what `normalize` returns: `reader_iterator` and `writer_iterator` (include/upd/detail/io/immediate_process.hpp:45-57) are functors and no iterators. -/
def normalized (k : StreamKind) : StreamKind := if k.iterator then ⟨true, false⟩ else k

/-- `object(input, output)`: how the own `operator()` of the class gets the two streams, or `none` if the call does not compile. The members of `immediate_process` call `derived()` on what
`normalize` returns (include/upd/detail/io/immediate_process.hpp:25-39). -/
def processStreams (constOp constObj : Bool) (i o : StreamKind) : Option (Passed × Passed) :=
  match selectProcess constOp constObj i o with
  | some .own => some (.asIs, .asIs)
  | some m =>
    match selectProcess constOp (m == .processConst) (normalized i) (normalized o) with
    | some .own => some (normalize i, normalize o)
    | _ => none
  | none => none

/-- `object.read_from(stream)` or `object.write_to(stream)`: the own member of the class, const in `key` and `serialized_message` (include/upd/key.hpp:121-131,
include/upd/detail/serialized_message.hpp:32-36) and not in `buffered_dispatcher` (include/upd/buffered_dispatcher.hpp:110-111, :165-166), and the two of `immediate_reader` or
`immediate_writer` (include/upd/detail/io/immediate_reader.hpp:31-39, include/upd/detail/io/immediate_writer.hpp:32-40), which give it a lambda expression. -/
def oneStream (constOp constObj : Bool) (k : StreamKind) : Option Passed :=
  match resolve constObj [⟨k.functor, constOp, ProcessMember.own⟩, ⟨k.iterator, false, .process⟩, ⟨k.iterator, true, .processConst⟩] with
  | some .own => some .asIs
  | some m => if m == .processConst && !constOp then none else some .wrapped
  | none => none

/-- `object << stream` or `object >> stream` (include/upd/detail/io/immediate_reader.hpp:21-29, :41-49, include/upd/detail/io/immediate_writer.hpp:22-30, :42-50): for each kind of stream a member which is
const and another which is not; the ones for functors call the own member of the class, the ones for iterators the `read_from` or `write_to` of the same base class. -/
def operatorStream (constOp constObj : Bool) (k : StreamKind) : Option Passed :=
  match resolve constObj [⟨k.functor, false, (false, Passed.asIs)⟩, ⟨k.functor, true, (true, .asIs)⟩, ⟨k.iterator, false, (false, .wrapped)⟩, ⟨k.iterator, true, (true, .wrapped)⟩] with
  | some (c, p) => if c && !constOp then none else some p
  | none => none

end Cpp

variable {σ α : Type}

/-- An input: a functor, or an iterator of any class `ι`, where `next` is `*it++`, which may depend on the iterator and on the world and change both of them. -/
inductive Input (σ : Type) : Type 1 where
  | functor (src : Eff σ Byte)
  | iterator (ι : Type) (next : Eff (ι × σ) Byte) (it : ι)

/-- An output: a functor, or an iterator of any class `ο`, where `put x` is `*it++ = x`. -/
inductive Output (σ : Type) : Type 1 where
  | functor (dest : Byte → Eff σ Unit)
  | iterator (ο : Type) (put : Byte → Eff (ο × σ) Unit) (it : ο)

/-- The copy of the iterator held by the wrapper (`It it`, include/upd/detail/io/immediate_process.hpp:49, :56, and the parameter `it` of
include/upd/detail/io/immediate_reader.hpp:31-39, include/upd/detail/io/immediate_writer.hpp:32-40). -/
def Input.Copy : Input σ → Type
  | .functor _ => Unit
  | .iterator ι _ _ => ι

/-- Initial value of the copy: iterators are passed by value. -/
def Input.copy : (i : Input σ) → i.Copy
  | .functor _ => ()
  | .iterator _ _ it => it

/-- The second component of a pair. -/
def Lens.second (ι σ : Type) : Lens (ι × σ) σ := ⟨fun st => st.2, fun w st => (st.1, w)⟩

/-- What the own member function of the class calls: the functor itself, or the wrapper (include/upd/detail/io/immediate_process.hpp:45-50, :59-81; include/upd/detail/io/immediate_reader.hpp:33, :38). -/
def Input.call : (i : Input σ) → Eff (i.Copy × σ) Byte
  | .functor src => Eff.zoom (Lens.second Unit σ) src
  | .iterator _ next _ => next

/-- As `Input.Copy`. -/
def Output.Copy : Output σ → Type
  | .functor _ => Unit
  | .iterator ο _ _ => ο

/-- As `Input.copy`. -/
def Output.copy : (o : Output σ) → o.Copy
  | .functor _ => ()
  | .iterator _ _ it => it

/-- As `Input.call` (include/upd/detail/io/immediate_process.hpp:52-57, :59-69, :83-93; include/upd/detail/io/immediate_writer.hpp:34, :39). -/
def Output.call : (o : Output σ) → Byte → Eff (o.Copy × σ) Unit
  | .functor dest => fun x => Eff.zoom (Lens.second Unit σ) (dest x)
  | .iterator _ put _ => put

/-- State during a call on an input and an output: the two copies and the world. -/
abbrev Both (i : Input σ) (o : Output σ) : Type := i.Copy × o.Copy × σ

/-- The input, during such a call. -/
def Both.src (i : Input σ) (o : Output σ) : Eff (Both i o) Byte :=
  Eff.zoom ⟨fun st => (st.1, st.2.2), fun p st => (p.1, st.2.1, p.2)⟩ i.call

/-- The output, during such a call. -/
def Both.dest (i : Input σ) (o : Output σ) (x : Byte) : Eff (Both i o) Unit :=
  Eff.zoom ⟨fun st => st.2, fun p st => (st.1, p)⟩ (o.call x)

/-- The part of the state which is not local to the wrappers. -/
def Both.world (i : Input σ) (o : Output σ) : Lens (Both i o) σ := ⟨fun st => st.2.2, fun w st => (st.1, st.2.1, w)⟩

/-- A call which begins with a copy of some objects; the copies are destroyed when it ends. -/
def withCopy {ι : Type} (it : ι) (x : Eff (ι × σ) α) : Eff σ α := fun w =>
  match x (it, w) with
  | .ret a st => .ret a st.2
  | .threw st => .threw st.2
  | .fault f => .fault f

/-- The same with two copies. -/
def withBoth (i : Input σ) (o : Output σ) (x : Eff (Both i o) α) : Eff σ α := fun w =>
  match x (i.copy, o.copy, w) with
  | .ret a st => .ret a st.2.2
  | .threw st => .threw st.2.2
  | .fault f => .fault f

/-- `dispatcher(input, output)` (include/upd/detail/io/immediate_process.hpp:25-39, include/upd/dispatcher.hpp:109, :119-127). -/
def Dispatcher.runOn (P : Platform) (D : Dispatcher σ) (i : Input σ) (o : Output σ) : Eff σ Nat :=
  withBoth i o (D.run P (Both.world i o) (Both.src i o) (Both.dest i o))

/-- `action(input, output)` (include/upd/detail/io/immediate_process.hpp:25-39, include/upd/action.hpp:164, :175-179, :209, :220-223). -/
def Action.invokeOn (P : Platform) (a : Action σ) (i : Input σ) (o : Output σ) : Eff σ Unit :=
  withBoth i o (a.invoke P (Both.world i o) (Both.src i o) (Both.dest i o))

/-- `action(input)`: the output is dropped (include/upd/action.hpp:183-188). -/
def Action.invokeInput (P : Platform) (a : Action σ) (i : Input σ) : Eff σ Unit :=
  a.invokeOn P i (.functor fun _ => pure ())

/-- `key(args...).write_to(output)`, `key(args...) >> output` (include/upd/detail/io/immediate_writer.hpp:22-51). -/
def Key.writeOn (P : Platform) (k : Key) (args : List Val) (o : Output σ) : Eff σ Unit :=
  withCopy o.copy (k.writeTo P args o.call)

/-- `key.read_from(input)`, `key << input` (include/upd/detail/io/immediate_reader.hpp:21-50). -/
def Key.readOn (P : Platform) (k : Key) (i : Input σ) : Eff σ (Option Val) :=
  withCopy i.copy (k.readFrom P i.call)

/-- The callbacks do not access the copies. -/
def Both.hosted (i : Input σ) (o : Output σ) (defs : Nat → List Val → Eff σ (Option Val)) : Nat → List Val → Eff (Both i o) (Option Val) :=
  fun name args => Eff.zoom (Both.world i o) (defs name args)

/-- `buffered_dispatcher(input, output)` (include/upd/detail/io/immediate_process.hpp:25-39, include/upd/buffered_dispatcher.hpp:187, :197-203). The callbacks of the dispatcher are
`Both.hosted`. The copies left in the state are meaningless once the call has ended. -/
def Buf.processOn (P : Platform) (i : Input σ) (o : Output σ) : Eff (BState (Both i o)) Status := fun st =>
  Buf.process P (Both.src i o) (Both.dest i o) (st.1, i.copy, o.copy, st.2.2.2)

/-- `buffered_dispatcher.read_from(input)`, `buffered_dispatcher << input` (include/upd/detail/io/immediate_reader.hpp:21-50). Same remark. -/
def Buf.readOn (P : Platform) (i : Input σ) (o : Output σ) : Eff (BState (Both i o)) Status := fun st =>
  Buf.readFrom P (Both.src i o) (st.1, i.copy, o.copy, st.2.2.2)

/-- `buffered_dispatcher.write_to(output)`, `buffered_dispatcher >> output` (include/upd/detail/io/immediate_writer.hpp:22-51). Same remark. -/
def Buf.writeOn (i : Input σ) (o : Output σ) : Eff (BState (Both i o)) Unit := fun st =>
  Buf.writeTo (Both.dest i o) (st.1, i.copy, o.copy, st.2.2.2)

/-! ## Some iterators -/

/-- A pointer into the array which is the first component of the world, used as an input. -/
def Input.pointer (pos : Nat) : Input (Mem × σ) :=
  .iterator Nat (fun st =>
    match st.2.1.rd st.1 with
    | .ok x => .ret x (st.1 + 1, st.2)
    | .error f => .fault f) pos

/-- The same used as an output. -/
def Output.pointer (pos : Nat) : Output (Mem × σ) :=
  .iterator Nat (fun x st =>
    match st.2.1.wr st.1 x with
    | .ok mem => .ret () (st.1 + 1, mem, st.2.2)
    | .error f => .fault f) pos

/-- `std::back_inserter(container)`: the iterator designates the container, which is the first component of the world. -/
def Output.backInserter : Output (List Byte × σ) :=
  .iterator Unit (fun x st => .ret () (st.1, st.2.1 ++ [x], st.2.2)) ()

/-- An iterator which takes the bytes out of a queue shared by all its copies, like `std::istreambuf_iterator`; the queue is the first component of the world. Using it once the queue is empty is
undefined. -/
def Input.queue : Input (List Byte × σ) :=
  .iterator Unit (fun st =>
    match st.2.1 with
    | x :: xs => .ret x (st.1, xs, st.2.2)
    | [] => .fault .starved) ()

end Upd
