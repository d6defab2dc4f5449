import Verif.Tests.Buffered
import Verif.Model.PyNames

/-!
# test/py/test.py

`long` has eight bytes. Where the tests draw a number at random, some numbers are taken.
-/

namespace Upd.Tests
open Upd.Py (Obj)

/-- `keyring` of test/py/module.cpp:6-17, :23: `f1` to `f7` are 1 to 7. -/
def pyKeyring (P : Platform) : Keyring :=
  ⟨.little, .twosComplement, [⟨1, ⟨[], some (.uint 1)⟩⟩, ⟨2, ⟨[.uint 1], none⟩⟩, ⟨3, ⟨[], none⟩⟩, ⟨4, ⟨[.uint 1], some (.uint 1)⟩⟩, ⟨5, ⟨[.uint 1], none⟩⟩,
    ⟨6, ⟨[.uint 1], none⟩⟩, ⟨7, ⟨[.arr (int P) 16, .arr (.sint 2) 32], none⟩⟩]⟩

/-- `dispatcher_keyring` of test/py/module.cpp:19-21, :24: `g1`, `g2` and `g3` are 1, 2 and 3. -/
def pyRing : Keyring :=
  ⟨.little, .twosComplement, [⟨1, ⟨[], some (.uint 2)⟩⟩, ⟨2, ⟨[.uint 2], some (.uint 2)⟩⟩, ⟨3, ⟨[.uint 2], none⟩⟩]⟩

/-- What Python functions work on: `ibuf` and `obuf`. -/
abbrev PyBufs := List Obj × List Obj

/-- `g1`, `g2` and `g3` (test/py/module.cpp:19-21); the result is converted to `std::uint16_t`. -/
def pyDefs : Nat → List Val → Eff PyBufs (Option Val)
  | 1, _ => pure (some (.int 0xff))
  | 2, [.int x] => pure (some (.int (2 * x % 65536)))
  | _, _ => pure none

/-- The key of a function, an attribute of the module. -/
def pyKey {σ : Type} (K : Keyring) (name : Nat) : Eff σ Key := Eff.lift <|
  match K.get11 name with
  | some k => .ok k
  | none => .error .illTyped

/-- `Dispatcher()`. -/
def pyDispatcher (P : Platform) : Buf PyBufs := Buf.double P pyRing (2 ^ 64 - 1) (Dispatcher.make pyRing .any pyDefs)

/-- `fk.encode(*args) == bytes`. -/
def encodes (P : Platform) (f : Nat) (args : List Int) (bytes : List Byte) : Bool := passes (do
    let k ← pyKey (pyKeyring P) f
    let l ← Py.encode P 8 k (args.map .int)
    pure (l == bytes)) ()

/-- This object is this integer, or `None`. -/
def pyIs : Obj → Option Int → Bool
  | .int z, some v => z == v
  | .none, none => true
  | _, _ => false

/-- `fk.decode(bytes)` gives an integer, or `None`. -/
def decodes (P : Platform) (f : Nat) (bytes : List Byte) (v : Option Int) : Bool := passes (do
    let k ← pyKey (pyKeyring P) f
    let o ← Py.decode P 8 k (Py.ofBytes bytes)
    pure (pyIs o v)) ()

/-- `test_encode_and_decode` (test/py/test.py:16-29). -/
example : (platforms.all fun P =>
    encodes P 1 [] [0x00#8] && encodes P 2 [0x10] [0x01#8, 0x10#8] && encodes P 3 [] [0x02#8] && encodes P 4 [0x20] [0x03#8, 0x20#8] &&
    encodes P 5 [0x30] [0x04#8, 0x30#8] && encodes P 6 [0x40] [0x05#8, 0x40#8] &&
    decodes P 1 [0xee#8] (some 0xee) && decodes P 2 [] none && decodes P 3 [] none && decodes P 4 [0xff#8] (some 0xff) && decodes P 5 [] none &&
    decodes P 6 [] none) = true := by decide +kernel

/-- `new_request` of the first `MockClient` (test/py/test.py:34-40). -/
def mockRequest (payload : List Byte) : Eff Unit (Response Obj) :=
  match payload with
  | _ :: x :: _ => if 2 * x.toNat < 256 then pure (.bytes [BitVec.ofNat 8 (2 * x.toNat)]) else fun w => .threw w
  | _ => pure (.bytes [])

/-- `test_asynchronous_key` (test/py/test.py:33-43). -/
example : (platforms.all fun P => passes (do
    let f4 ← pyKey (pyKeyring P) 4
    let o ← Py.call P 8 f4 mockRequest [.int 16]
    pure (pyIs o (some 32))) ()) = true := by decide +kernel

/-- `lambda : ibuf.pop(0)`: `IndexError` if the list is empty. -/
def popIbuf : Eff PyBufs Obj := fun w =>
  match w.1 with
  | [] => .threw w
  | x :: xs => .ret x (xs, w.2)

/-- `lambda x : obuf.append(x)`. -/
def appendObuf (x : Obj) : Eff PyBufs Obj := fun w => .ret .none (w.1, w.2 ++ [x])

/-- `bytes(obuf) == l`. -/
def obufIs (l : List Int) : Eff (BState PyBufs) Bool := fun st =>
  .ret (st.2.2.length == l.length && (st.2.2.zip l).all fun p => pyIs p.1 (some p.2)) st

/-- One step of the tests: `dispatcher.read_from(lambda : ibuf.pop(0))`, then `dispatcher.write_to(lambda x : obuf.append(x))`. -/
def pyStep (P : Platform) : Eff (BState PyBufs) Unit := do
  let _ ← Py.readFrom P 8 popIbuf
  Py.writeTo appendObuf

/-- `test_read_from_and_write_to` (test/py/test.py:45-58). -/
example : (platforms.all fun P => passes (do
    pyStep P
    pyStep P
    pyStep P
    obufIs [0xff, 0x00, 0x20, 0x40]) (pyDispatcher P, [0x00, 0x01, 0x10, 0x20, 0x02, 0x67, 0x89].map .int, [])) = true := by decide +kernel

/-- `lambda x: 3 * x`. -/
def triple : List Obj → Eff PyBufs Obj
  | [.int x] => pure (.int (3 * x))
  | _ => fun w => .threw w

/-- `test_dispatcher_replace_with_pyfunction` (test/py/test.py:60-73). -/
example : (platforms.all fun P => [0, 1, 0x55, 0x100, 0x1234, 0x2aaa, 0x3fff].all fun n => passes (do
    let g2 ← pyKey pyRing 2
    let st ← (Eff.get : Eff (BState PyBufs) _)
    let b ← Eff.lift (Py.replace 8 st.1 g2 triple)
    Eff.set (b, st.2)
    pyStep P
    obufIs [3 * n % 256, 3 * n / 256]) (pyDispatcher P, [1, n % 256, n / 256].map .int, [])) = true := by decide +kernel

/-- `dispatcher.is_loaded()`. -/
def pyLoaded : Eff (BState PyBufs) Bool := fun st => .ret st.1.isLoaded st

/-- `test_fill_dispatcher_manually` (test/py/test.py:76-89). -/
example : (platforms.all fun P => [0, 1, 0x55, 0x100, 0x1234, 0x5aaa, 0x7fff].all fun n => passes (do
    let s1 ← Py.put P 8 (.int 1)
    let s2 ← Py.put P 8 (.int (n % 256))
    let s3 ← Py.put P 8 (.int (n / 256))
    let l1 ← pyLoaded
    let x1 ← Py.get
    let l2 ← pyLoaded
    let x2 ← Py.get
    let l3 ← pyLoaded
    pure (s1 == .loading && s2 == .loading && s3 == .resolved && l1 && l2 && !l3 && pyIs x1 (some (2 * n % 256)) && pyIs x2 (some (2 * n / 256))))
      (pyDispatcher P, [], [])) = true := by decide +kernel

/-- `test_fill_future_with_non_bytes` (test/py/test.py:93-103). -/
example : (platforms.all fun P => [0, 1, 0x7f, 0xff].all fun n => passes (do
    let f4 ← pyKey (pyKeyring P) 4
    let o ← Py.call P 8 f4 (fun _ => pure (.other (.int n))) [.int 0]
    pure (pyIs o (some n))) ()) = true := by decide +kernel

/-- The keys of `keyring`, with the texts which the demangler of GCC gives. -/
def pyTexts : List PyKey := [
  ⟨"upd::unevaluated<unsigned char (*)(), &(f1())>".toList, "1".toList⟩,
  ⟨"upd::unevaluated<void (*)(unsigned char), &(f2(unsigned char))>".toList, "2".toList⟩,
  ⟨"upd::unevaluated<void (*)(), &(f3())>".toList, "3".toList⟩,
  ⟨"upd::unevaluated<unsigned char (*)(unsigned char), &(f4(unsigned char))>".toList, "4".toList⟩,
  ⟨"upd::unevaluated<{unnamed type#1}*, &f5>".toList, "5".toList⟩,
  ⟨"upd::unevaluated<{lambda(unsigned char)#1}*, &f6>".toList, "6".toList⟩,
  ⟨"upd::unevaluated<void (*)(std::array<int, 16ul>, std::array<short, 32ul>), &(f7(std::array<int, 16ul>, std::array<short, 32ul>))>".toList, "7".toList⟩]

/-- The keys of `dispatcher_keyring`. -/
def pyDispTexts : List PyKey := [
  ⟨"upd::unevaluated<unsigned short (*)(), &(g1())>".toList, "8".toList⟩,
  ⟨"upd::unevaluated<unsigned short (*)(unsigned short), &(g2(unsigned short))>".toList, "9".toList⟩,
  ⟨"upd::unevaluated<void (*)(unsigned short), &(g3(unsigned short))>".toList, "10".toList⟩]

/-- `test_demangle_function_with_templated_parameters` (test/py/test.py:106-109), and the other names of the module. -/
example : (match unpackKeyring 0 pyTexts ⟨[], []⟩ with
    | none => false
    | some m =>
      match declareDispatcher 1 "Dispatcher".toList pyDispTexts m with
      | none => false
      | some m => m.get "f7".toList == some (.key 0 6) && m.get "f1".toList == some (.key 0 0) && m.get "f4".toList == some (.key 0 3) &&
        m.get "f5".toList == some (.key 0 4) && m.get "f6".toList == some (.key 0 5) && m.get "g2".toList == some (.key 1 1) &&
        m.get "Dispatcher".toList == some .cls) = true := by decide +kernel

/-- `test_feed_dispatcher_invalid_byte_sequence` (test/py/test.py:112-113). -/
example : (platforms.all fun P => passes (do
    let s ← Py.put P 8 (.int 0xff)
    pure (s == .dropped)) (pyDispatcher P, [], [])) = true := by decide +kernel

end Upd.Tests
