import Verif.Tests.Dispatch

/-!
# test/buffered_dispatcher.cpp

The array `kbuf` is the memory of the world. The rest of the world notes what callbacks have received.
-/

namespace Upd.Tests

/-- A buffered dispatcher, `kbuf` and the notes. -/
abbrev Bench := BState (Its (List Val))

/-- The keyring of test/buffered_dispatcher.cpp:18-21: `check_64` is 0, `identity` is 1, `void_procedure` is 2. -/
def bufRing (P : Platform) : Keyring :=
  ⟨.little, .twosComplement, [⟨0, ⟨[int P], some (int P)⟩⟩, ⟨1, ⟨[.sint 8], some (.sint 8)⟩⟩, ⟨2, ⟨[], none⟩⟩]⟩

/-- `check_64`, `identity` and `void_procedure` (test/buffered_dispatcher.cpp:9-16). A failed assertion stops the test. -/
def bufDefs : Nat → List Val → Eff (Its (List Val)) (Option Val)
  | 0, [.int 64] => pure (some (.int 0))
  | 0, _ => Eff.lift (.error .illTyped)
  | 1, args => pure args.head?
  | _, _ => pure none

/-- `make_single_buffered_dispatcher` and `make_double_buffered_dispatcher`. -/
def bufMake (P : Platform) (f : Features) (single : Bool) : Buf (Its (List Val)) :=
  if single then Buf.single P (bufRing P) (2 ^ 64 - 1) (Dispatcher.make (bufRing P) f bufDefs)
  else Buf.double P (bufRing P) (2 ^ 64 - 1) (Dispatcher.make (bufRing P) f bufDefs)

/-- Runs a test on all the platforms, with `kbuf` of `n` bytes. -/
def onBench (f : Features) (single : Bool) (n : Nat) (test : Platform → Eff Bench Bool) : Bool :=
  platforms.all fun P => passes (test P) (bufMake P f single, (0, 0), P.junkBytes n, [])

/-- Access to `kbuf` and to the notes. -/
def kbufLens : Lens Bench (Mem × List Val) := ⟨fun st => st.2.2, fun w st => (st.1, st.2.1, w)⟩

/-- The key of a function. -/
def bufKey (P : Platform) (name : Nat) : Eff Bench Key := Eff.lift <|
  match (bufRing P).get11 name with
  | some k => .ok k
  | none => .error .illTyped

/-- `k(args...).write_to(kbuf)`. -/
def toKbuf (P : Platform) (k : Key) (args : List Val) : Eff Bench Unit := Eff.zoom kbufLens (k.writeToIt P args 0)

/-- `k.read_from(kbuf)`. -/
def fromKbuf (P : Platform) (k : Key) : Eff Bench (Option Val) := Eff.zoom kbufLens (k.readFromIt P 0)

/-- `dis.is_loaded()`. -/
def loaded : Eff Bench Bool := fun st => .ret st.1.isLoaded st

/-- The content of `kbuf`. -/
def kbuf : Eff Bench Mem := fun st => .ret st.2.2.1 st

/-- The notes. -/
def notes : Eff Bench (List Val) := fun st => .ret st.2.2.2 st

/-- `kbuf[i] = x`. -/
def poke (i : Nat) (x : Byte) : Eff Bench Unit := fun st => .ret () (st.1, st.2.1, st.2.2.1.set i x, st.2.2.2)

/-- `dis.put(kbuf[i])` for each of these positions: the status of all of them. -/
def putKbuf (P : Platform) : List Nat → Eff Bench (List Status)
  | [] => pure []
  | i :: is => do
    let m ← kbuf
    let x ← Eff.lift (m.rd i)
    let s ← Buf.put P x
    let ss ← putKbuf P is
    pure (s :: ss)

/-- `kbuf[i] = dis.get()` for each of these positions, with what `is_loaded()` says before each of them. -/
def getKbuf : List Nat → Eff Bench (List Bool)
  | [] => pure []
  | i :: is => do
    let l ← loaded
    let x ← Buf.get
    poke i x
    let ls ← getKbuf is
    pure (l :: ls)

/-- `buffered_dispatcher_DO_load_an_action_EXPECT_correct_action_loaded_cpp17` (test/buffered_dispatcher.cpp:35-48). -/
example : onBench .any true 64 (fun P => do
    let k ← bufKey P 0
    toKbuf P k [.int 64]
    let status ← Buf.readFromIt P 0
    let l ← loaded
    pure (status == .resolved && l)) = true := by decide +kernel

/-- The three tests which load an action (test/buffered_dispatcher.cpp:50-65, :67-83, :231-246), except that the variable `result` has eight bytes. -/
example : ([(Features.any, true), (.any, false), (.weakReference, true)].all fun p => onBench p.1 p.2 64 fun P => do
    let k ← bufKey P 1
    toKbuf P k [.int 64]
    let status ← Buf.readFromIt P 0
    let out ← Buf.writeTo (fun x => fun st => .ret () (st.1, st.2.1, st.2.2 ++ [.int x.toNat]))
    let result ← notes
    pure (status == .resolved && out == () && sames result ([64, 0, 0, 0, 0, 0, 0, 0].map .int))) = true := by decide +kernel

/-- The sizes of the buffers (test/buffered_dispatcher.cpp:58, :75-76, :93-94). -/
example : (platforms.all fun P => (bufMake P .any true).ibuf.length == 8 + 1 && (bufMake P .any false).ibuf.length == 8 + 1 &&
    (bufMake P .any false).obuf.length == 8) = true := by decide +kernel

/-- In these tests, `result` is an `int` and `write_to` writes the eight bytes of the response through a pointer to it: on a computer, the tests write out of it
(test/buffered_dispatcher.cpp:54, :62). -/
example : (match (do
      let k ← bufKey pc 1
      toKbuf pc k [.int 64]
      let _ ← Buf.readFromIt pc 0
      let st ← (Eff.get : Eff Bench _)
      -- an object of `sizeof(int)` bytes in the place of `kbuf`
      Eff.set (st.1, st.2.1, pc.junkBytes pc.intBytes, st.2.2.2)
      Buf.writeToIt 0 : Eff Bench Unit) (bufMake pc .any true, (0, 0), pc.junkBytes 64, []) with
    | .fault .oobWrite => true
    | _ => false) = true := by decide +kernel

/-- `buffered_dispatcher_DO_load_an_action_in_a_double_buffered_dispatcher_while_already_loaded` (test/buffered_dispatcher.cpp:85-115); the results are noted. -/
example : onBench .any false 64 (fun P => do
    let k ← bufKey P 1
    toKbuf P k [.int 64]
    let s1 ← Buf.readFromIt P 0
    let l1 ← loaded
    toKbuf P k [.int 32]
    let _ ← putKbuf P [0]
    Buf.writeTo (fun x => fun st => .ret () (st.1, st.2.1, st.2.2 ++ [.int x.toNat]))
    let l2 ← loaded
    let n1 ← notes
    let _ ← putKbuf P [1, 2, 3, 4, 5, 6, 7, 8]
    Buf.writeTo (fun x => fun st => .ret () (st.1, st.2.1, st.2.2 ++ [.int x.toNat]))
    let n2 ← notes
    pure (s1 == .resolved && l1 && !l2 && sames n1 ([64, 0, 0, 0, 0, 0, 0, 0].map .int) &&
      sames n2 ([64, 0, 0, 0, 0, 0, 0, 0, 32, 0, 0, 0, 0, 0, 0, 0].map .int))) = true := by decide +kernel

/-- `dis.replace<i>(cb)`. -/
def bufReplace (i : Nat) (cb : Callback (Its (List Val))) : Eff Bench Unit := fun st => .ret () ({ st.1 with disp := st.1.disp.replace i cb }, st.2)

/-- `buffered_dispatcher_DO_replace_an_action` (test/buffered_dispatcher.cpp:117-132). -/
example : onBench .any true 16 (fun P => do
    let k ← bufKey P 1
    bufReplace 1 ⟨⟨[.sint 8], some (.sint 8)⟩, fun args => if sames args [.int 64] then pure (some (.int 32)) else Eff.lift (.error .illTyped)⟩
    toKbuf P k [.int 64]
    let status ← Buf.readFromIt P 0
    Buf.writeToIt 0
    let r ← fromKbuf P k
    pure (status == .resolved && gives r (.int 32))) = true := by decide +kernel

/-- `buffered_dispatcher_DO_give_an_invalid_index` (test/buffered_dispatcher.cpp:134-152). -/
example : onBench .any true 16 (fun P => do
    let k ← bufKey P 1
    toKbuf P k [.int 64]
    poke 0 0xff#8
    let s1 ← Buf.readFromIt P 0
    let l1 ← loaded
    toKbuf P k [.int 64]
    let s2 ← Buf.readFromIt P 0
    let l2 ← loaded
    Buf.writeToIt 0
    let r ← fromKbuf P k
    pure (s1 == .dropped && !l1 && s2 == .resolved && l2 && gives r (.int 64))) = true := by decide +kernel

/-- `auto dis2 = std::move(dis1)`: the test goes on with the new object. -/
def moveOn : Eff Bench Unit := fun st => .ret () (st.1.move.1, st.2)

/-- `buffered_dispatcher_DO_move_dispatcher_during_reading_and_writing` (test/buffered_dispatcher.cpp:154-190). -/
example : onBench .any true 16 (fun P => do
    let k ← bufKey P 1
    toKbuf P k [.int 64]
    let s1 ← putKbuf P [0, 1, 2, 3]
    moveOn
    let s2 ← putKbuf P [4, 5, 6, 7]
    let s3 ← putKbuf P [8]
    let l1 ← getKbuf [0, 1, 2, 3]
    moveOn
    let l2 ← getKbuf [4, 5, 6, 7]
    let l3 ← loaded
    let r ← fromKbuf P k
    pure (s1 == [.loading, .loading, .loading, .loading] && s2 == [.loading, .loading, .loading, .loading] && s3 == [.resolved] && l1 == [true, true, true, true] &&
      l2 == [true, true, true, true] && !l3 && gives r (.int 64))) = true := by decide +kernel

/-- `buffered_dispatcher_DO_replace_void_procedure` (test/buffered_dispatcher.cpp:192-206). -/
example : onBench .any true 16 (fun P => do
    let k ← bufKey P 2
    bufReplace 2 ⟨⟨[], none⟩, fun _ => fun st => .ret none (st.1, st.2.1, st.2.2 ++ [.bool true])⟩
    toKbuf P k []
    let status ← Buf.readFromIt P 0
    Buf.writeToIt 0
    let flag ← notes
    pure (status == .resolved && sames flag [.bool true])) = true := by decide +kernel

/-- `buffered_dispatcher_DO_insert_bytes_one_by_one` (test/buffered_dispatcher.cpp:208-229): the loop stops after the eighth byte of the argument. -/
example : onBench .any true 16 (fun P => do
    let k ← bufKey P 1
    toKbuf P k [.int 64]
    let ss ← putKbuf P [0, 1, 2, 3, 4, 5, 6, 7, 8]
    let ls ← getKbuf [0, 1, 2, 3, 4, 5, 6, 7]
    let l ← loaded
    let r ← fromKbuf P k
    pure (ss == [.loading, .loading, .loading, .loading, .loading, .loading, .loading, .loading, .resolved] && ls.all id && !l && gives r (.int 64))) = true := by
  decide +kernel

/-- `buffered_dispatcher_DO_use_parenthesis_operator` (test/buffered_dispatcher.cpp:274-284). -/
example : onBench .any true 64 (fun P => do
    let k ← bufKey P 1
    toKbuf P k [.int 64]
    let status ← Buf.processIt P 0 0
    let r ← fromKbuf P k
    pure (status == .resolved && gives r (.int 64))) = true := by decide +kernel

/-- The keyring of the replies (test/buffered_dispatcher.cpp:25-29): `reply` and `reply_std_array`. -/
def replyRing : Keyring := ⟨.little, .twosComplement, [⟨0, ⟨[.arr (.uint 1) 16], none⟩⟩, ⟨1, ⟨[.arr (.uint 1) 16], none⟩⟩]⟩

/-- The bytes of the elements of an array. -/
def payload : List Val → List Byte
  | [.arr vs] => vs.map fun
    | .int z => BitVec.ofInt 8 z
    | _ => 0#8
  | _ => []

/-- The body of `reply` and `reply_std_array` (test/buffered_dispatcher.cpp:25-26): the hook (:256-257) notes the response. -/
def replyFn (P : Platform) (k : Key) (args : List Val) : Eff (Its (List Val)) (Option Val) := fun st =>
  let hook : Callback (List Val) := ⟨⟨[.sint 8], none⟩, fun vs => fun ns => .ret none (ns ++ vs)⟩
  let src : Eff (List Byte × List Val) Byte := fun w =>
    match w.1 with
    | [] => .fault .oobRead
    | x :: xs => .ret x (xs, w.2)
  match (k.withHook hook).invoke1 P (Lens.second _ _) src (payload args, st.2.2) with
  | .ret _ w => .ret none (st.1, st.2.1, w.2)
  | .threw w => .threw (st.1, st.2.1, w.2)
  | .fault f => .fault f
where
  /-- The notes, beside the bytes left. -/
  Lens.second (α β : Type) : Lens (α × β) β := ⟨fun st => st.2, fun w st => (st.1, w)⟩

/-- The bytes of the request go through `kbuf`: `dis.reply(kbuf, k)`, then `reply_dis.read_from(kbuf)`, where `k` is the key of the function `i` of `replyRing`. -/
def replyThrough (P : Platform) (k : Key) (i : Nat) : Eff Bench Bool := fun st =>
  match replyRing.get11 i with
  | none => .fault .illTyped
  | some rk =>
    match Buf.reply P rk 16 Its.write (st.1, (0, 0), st.2.2) with
    | .ret done (b, its) =>
      match Buf.readFromIt P 0 (Buf.single P replyRing (2 ^ 64 - 1) (Dispatcher.make replyRing .any fun _ => replyFn P k), its) with
      | .ret _ (_, its) => .ret done (b, its)
      | .threw (_, its) => .threw (b, its)
      | .fault f => .fault f
    | .threw st => .threw st
    | .fault f => .fault f

/-- `buffered_dispatcher_DO_reply` (test/buffered_dispatcher.cpp:248-272). -/
example : onBench .any true 64 (fun P => do
    let k ← bufKey P 1
    toKbuf P k [.int 0xafbe]
    let _ ← Buf.readFromIt P 0
    let d1 ← replyThrough P k 0
    let n1 ← notes
    toKbuf P k [.int 0xcddc]
    let _ ← Buf.readFromIt P 0
    let d2 ← replyThrough P k 1
    let n2 ← notes
    pure (d1 && d2 && sames n1 [.int 0xafbe] && sames n2 [.int 0xafbe, .int 0xcddc])) = true := by decide +kernel

end Upd.Tests
