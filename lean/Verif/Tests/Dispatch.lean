import Verif.Tests.Tuple

/-!
# test/key.cpp, test/keyring.cpp, test/action.cpp, test/dispatcher.cpp
-/

namespace Upd.Tests
open TypeList

/-- The functions of test/key.cpp:13-18, in the order of `list` (:20-25). -/
def keyRing (P : Platform) (s : Mode) : Keyring :=
  ⟨.little, s, [⟨1, ⟨[int P], some (int P)⟩⟩, ⟨2, ⟨[int P, .arr (int P) 8, .sint 1], some (int P)⟩⟩, ⟨3, ⟨[int P, .sint 2, .sint 1], some (int P)⟩⟩,
    ⟨4, ⟨[], some (int P)⟩⟩, ⟨5, ⟨[int P], some (int P)⟩⟩, ⟨6, ⟨[object], some object⟩⟩]⟩

/-- `kring.get(UPD_CTREF(f))`, which has to compile in both standards. -/
def key (K : Keyring) (name : Nat) : Eff (List Byte × List Byte) Key := Eff.lift <|
  match K.get11 name, K.get17 name with
  | some k, some k' => if k.index == k'.index then .ok k else .error .illTyped
  | _, _ => .error .illTyped

/-- Runs a test on the bytes of an input and of an output on all the platforms. -/
def onStreams (test : Platform → Eff (List Byte × List Byte) Bool) : Bool := platforms.all fun P => passes (test P) ([], [])

/-- The input is now made of these bytes. -/
def supply (m : M Mem) : Eff (List Byte × List Byte) Unit := fun w =>
  match m with
  | .ok m => .ret () (m, w.2)
  | .error f => .fault f

/-- The bytes output so far. -/
def written : Eff (List Byte × List Byte) (List Byte) := fun w => .ret w.2 w

/-- `key_base_DO_serialize_arguments_EXPECT_correct_byte_sequence` (test/key.cpp:39-52). -/
example : onStreams (fun P => do
    let k ← key (keyRing P .twosComplement) 2
    let array := Val.arr ([0x00, 0x11, 0x22, 0x33, 0x44, 0x55, 0x66, 0x77].map .int)
    let V := Tuple.self .little .twosComplement [.uint k.idxBytes, int P, .arr (int P) 8, .sint 1]
    let t ← Eff.lift (Tuple.make P .little .twosComplement V.ts [.int k.index, .int 64, array, .int 16])
    match V.sub 1 3 with
    | none => pure false
    | some W => do
      let x ← Eff.lift (W.invoke P (fun args => k.writeTo P args bytesDest) t)
      x
      let dest ← written
      pure (dest == t)) = true := by decide +kernel

/-- `key_base_DO_serialize_arguments_with_parameter_EXPECT_correct_byte_sequence` (test/key.cpp:54-68). -/
example : onStreams (fun P => do
    let k ← key (keyRing P .onesComplement) 3
    let V := Tuple.self .little .twosComplement [.uint k.idxBytes, int P, .sint 2, .sint 1]
    k.writeTo P [.int 64, .int 32, .int 16] bytesDest
    let dest ← written
    let vs ← Eff.lift (V.gets P [0, 1, 2, 3] dest)
    pure (dest.length == V.size && sames vs [.int 2, .int 64, .int 32, .int 16])) = true := by decide +kernel

/-- The result is this value. -/
def gives (r : Option Val) (v : Val) : Bool :=
  match r with
  | some r => same r v
  | none => false

/-- `key_base_DO_unserialize_data_sequence_EXPECT_correct_value` (test/key.cpp:70-80). -/
example : onStreams (fun P => do
    let k ← key (keyRing P .twosComplement) 4
    supply (Tuple.make P .little .twosComplement [int P] [.int 64])
    let value ← k.readFrom P bytesSrc
    pure (gives value (.int 64))) = true := by decide +kernel

/-- `key_base_DO_unserialize_data_sequence_with_parameter_EXPECT_correct_value` (test/key.cpp:82-93). -/
example : onStreams (fun P => do
    let k ← key (keyRing P .onesComplement) 3
    supply (Tuple.make P .little .twosComplement [int P] [.int 64])
    let result ← k.readFrom P bytesSrc
    pure (gives result (.int 64))) = true := by decide +kernel

/-- `key_base_DO_create_key_from_ftor_signature_EXPECT_key_holding_ftor_signature` (test/key.cpp:95-106). -/
example : onStreams (fun P => do
    let k ← key (keyRing P .twosComplement) 5
    k.writeTo P [.int 64] bytesDest
    let buf ← written
    supply (.ok (buf.drop k.idxBytes))
    let result ← k.readFrom P bytesSrc
    pure (gives result (.int 64))) = true := by decide +kernel

/-- `key_base_DO_create_key_from_function_using_user_extended_type_EXPECT_correct_behaviour` (test/key.cpp:108-121). -/
example : onStreams (fun P => do
    let k ← key (keyRing P .twosComplement) 6
    k.writeTo P [.user [.int 0xa, .int 0xb, .int 0xc]] bytesDest
    let buf ← written
    supply (.ok (buf.drop k.idxBytes))
    let result ← k.readFrom P bytesSrc
    pure (gives result (.user [.int 0xa, .int 0xb, .int 0xc]))) = true := by decide +kernel

/-- `key_base_DO_hook_a_callback_EXPECT_callback_receiving_correct_argument` (test/key.cpp:123-131): the hook notes its argument at the end of the output. -/
example : onStreams (fun P => do
    let k ← key (keyRing P .twosComplement) 4
    supply (Tuple.make P .little .twosComplement [int P] [.int 64])
    let hook : Callback (List Byte × List Byte) := ⟨⟨[int P], none⟩, fun args => do
      bytesDest (if sames args [.int 64] then 1#8 else 0#8)
      pure none⟩
    (k.withHook hook).invoke1 P (Lens.whole _) bytesSrc
    let out ← written
    pure (out == [1#8])) = true := by decide +kernel

/-- The functions and functors of test/keyring.cpp:14-20: `function1` to `function3` are 1 to 3, `ftor1` to `ftor3` are 4 to 6. -/
def ringOf (P : Platform) (names : List Nat) : Keyring :=
  ⟨.little, .twosComplement, names.map fun n => ⟨n, match n with
    | 1 => ⟨[int P], none⟩
    | 2 => ⟨[.sint 1], none⟩
    | 3 => ⟨[.sint 8], some (int P)⟩
    | 4 => ⟨[int P], some (int P)⟩
    | 5 => ⟨[.sint 8], some (int P)⟩
    | _ => ⟨[int P], none⟩⟩⟩

/-- The four tests of test/keyring.cpp:29-69. -/
example : onStreams (fun P => do
    let k1 ← key (ringOf P [1, 2, 3]) 2
    let k2 ← key (ringOf P [6, 1, 2, 4, 3, 5]) 2
    let k3 ← key (ringOf P [1, 4, 2, 5, 6, 3]) 2
    let k4 ← key (ringOf P [1, 4, 2, 5, 6, 3]) 6
    pure ([k1.index, k2.index, k3.index, k4.index] == [1, 2, 2, 4])) = true := by decide +kernel

/-- `action_DO_serialize_argument_into_stream_EXPECT_action_getting_unaltered_argument` (test/action.cpp:5-14). -/
example : onStreams (fun P => do
    let assign : Action (List Byte × List Byte) := .stored .little .twosComplement ⟨⟨[.uint 1], none⟩, fun args => do
      match args with
      | [.int x] => bytesDest (BitVec.ofInt 8 x)
      | _ => pure ()
      pure none⟩
    assign.invoke1 P (Lens.whole _) (pure 0xaf#8)
    let value ← written
    pure (value == [0xaf#8])) = true := by decide +kernel

/-- `action_DO_give_then_return_argument_from_action_EXPECT_unaltered_value` (test/action.cpp:16-30). -/
example : onStreams (fun P => do
    supply (Tuple.make P .little .twosComplement [int P] [.int 0xabc])
    let returnArgument : Action (List Byte × List Byte) := .stored .little .twosComplement ⟨⟨[int P], some (int P)⟩, fun args => pure args.head?⟩
    returnArgument.invoke P (Lens.whole _) bytesSrc bytesDest
    let out ← written
    let v ← Eff.lift ((Tuple.self .little .twosComplement [int P]).get P 0 out)
    pure (same v (.int 0xabc))) = true := by decide +kernel

/-- An action which does nothing, with a signature. -/
def idle (g : Sig) : Action Unit := .stored .little .twosComplement ⟨g, fun _ => pure none⟩

/-- The four tests of the sizes (test/action.cpp:32-66). -/
example : (platforms.all fun P => passed do
    let i1 ← (idle ⟨[int P, .arr (int P) 16, .sint 1], some (int P)⟩).inputSize
    let o1 ← (idle ⟨[int P, .arr (int P) 16, .sint 1], some (int P)⟩).outputSize
    let i2 ← (idle ⟨[], some (int P)⟩).inputSize
    let o2 ← (idle ⟨[], some (int P)⟩).outputSize
    let i3 ← (idle ⟨[int P], some (int P)⟩).inputSize
    let o3 ← (idle ⟨[int P], some (int P)⟩).outputSize
    let i4 ← (idle ⟨[int P], none⟩).inputSize
    let o4 ← (idle ⟨[int P], none⟩).outputSize
    let n := P.intBytes
    pure ([i1, o1, i2, o2, i3, o3, i4, o4] == [n + 16 * n + 1, n, 0, n, n, n, n, 0])) = true := by decide +kernel

/-- The keyring of test/dispatcher.cpp:8-13: `get_8`, `get_16`, `get_32` and `identity`. -/
def getRing (P : Platform) : Keyring :=
  ⟨.little, .twosComplement, [⟨8, ⟨[], some (int P)⟩⟩, ⟨16, ⟨[], some (int P)⟩⟩, ⟨32, ⟨[], some (int P)⟩⟩, ⟨0, ⟨[int P], some (int P)⟩⟩]⟩

/-- The definitions of these functions. -/
def getDefs (name : Nat) (args : List Val) : Eff (List Byte × List Byte) (Option Val) :=
  match name with
  | 0 => pure args.head?
  | n => pure (some (.int n))

/-- The `int` which has been output, at a position. -/
def outputInt (P : Platform) (pos : Nat) : Eff (List Byte × List Byte) Val := do
  let out ← written
  Eff.lift ((⟨.little, .twosComplement, [int P], pos⟩ : View).get P 0 out)

/-- `dispatcher_DO_call_action_EXPECT_calling_correct_action` and `dispatcher_DO_call_no_storage_action_EXPECT_correct_behavior` (test/dispatcher.cpp:15-27, :48-60). -/
example : ([Features.any, .weakReference].all fun f => onStreams fun P => do
    supply (Tuple.make P .little .twosComplement [.uint 2] [.int 1])
    let _ ← (Dispatcher.make (getRing P) f getDefs).run P (Lens.whole _) bytesSrc bytesDest
    let v ← outputInt P 0
    pure (same v (.int 16))) = true := by decide +kernel

/-- `dispatcher_DO_get_action_EXPECT_correct_index` (test/dispatcher.cpp:29-46). -/
example : onStreams (fun P => do
    supply (Tuple.make P .little .twosComplement [.uint 2] [.int 1])
    let d := Dispatcher.make (getRing P) .any getDefs
    let ptr ← d.getAction P bytesSrc
    match ptr with
    | none => pure false
    | some i => do
      let a ← Eff.lift (d.at i)
      a.invoke P (Lens.whole _) bytesSrc bytesDest
      let v ← outputInt P 0
      pure (same v (.int 16))) = true := by decide +kernel

/-- `dispatcher_DO_replace_an_action_EXPECT_changed_action` and `dispatcher_DO_replace_a_no_storage_action_EXPECT_changed_action` (test/dispatcher.cpp:62-82, :84-104).
The second output follows the first one. -/
example : ([Features.any, .weakReference].all fun f => onStreams fun P => do
    supply (Tuple.make P .little .twosComplement [.uint 2] [.int 1])
    let d := Dispatcher.make (getRing P) f getDefs
    let _ ← d.run P (Lens.whole _) bytesSrc bytesDest
    let v ← outputInt P 0
    let cb : Callback (List Byte × List Byte) := ⟨⟨[], some (int P)⟩, getDefs 32⟩
    let d := match f with
      | .any => d.replace 1 cb
      | .weakReference => d.replaceStatic 1 cb
    supply (Tuple.make P .little .twosComplement [.uint 2] [.int 1])
    let _ ← d.run P (Lens.whole _) bytesSrc bytesDest
    let v' ← outputInt P P.intBytes
    pure (sames [v, v'] [.int 16, .int 32])) = true := by decide +kernel

end Upd.Tests
