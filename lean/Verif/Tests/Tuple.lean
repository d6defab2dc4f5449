import Verif.Tests.Basic

/-!
# test/unaligned_data.cpp, test/tuple.cpp, test/tuple_view.cpp, test/static.cpp
-/

namespace Upd.Tests
open TypeList

/-- `unaligned_data_DO_serialize_data_EXPECT_correct_raw_data` (test/unaligned_data.cpp:5-14). -/
def rawData (e : Endian) (s : Mode) (z : Int) (expected : List Byte) : Bool :=
  platforms.all fun P => passed do
    let buf ← writeAs P e s (.sint 2) (.int z) (P.junkBytes 8) 2
    let bs ← Mem.rdN buf 2 2
    pure (bs == expected && buf.take 2 == (P.junkBytes 8).take 2 && buf.drop 4 == (P.junkBytes 8).drop 4)

/-! test/unaligned_data.cpp:36-132. -/
example : rawData .little .signMagnitude 0xabc [0xbc#8, 0x0a#8] = true := by decide +kernel
example : rawData .little .signMagnitude (-0xabc) [0xbc#8, 0x8a#8] = true := by decide +kernel
example : rawData .big .signMagnitude 0xabc [0x0a#8, 0xbc#8] = true := by decide +kernel
example : rawData .big .signMagnitude (-0xabc) [0x8a#8, 0xbc#8] = true := by decide +kernel
example : rawData .little .onesComplement 0xabc [0xbc#8, 0x0a#8] = true := by decide +kernel
example : rawData .little .onesComplement (-2) [0xfd#8, 0xff#8] = true := by decide +kernel
example : rawData .big .onesComplement 0xabc [0x0a#8, 0xbc#8] = true := by decide +kernel
example : rawData .big .onesComplement (-2) [0xff#8, 0xfd#8] = true := by decide +kernel
example : rawData .little .twosComplement 0xabc [0xbc#8, 0x0a#8] = true := by decide +kernel
example : rawData .little .twosComplement (-126) [0x82#8, 0xff#8] = true := by decide +kernel
example : rawData .big .twosComplement 0xabc [0x0a#8, 0xbc#8] = true := by decide +kernel
example : rawData .big .twosComplement (-126) [0xff#8, 0x82#8] = true := by decide +kernel
example : rawData .little .offsetBinary 0xabc [0xbc#8, 0x8a#8] = true := by decide +kernel
example : rawData .little .offsetBinary (-0xabc) [0x44#8, 0x75#8] = true := by decide +kernel
example : rawData .big .offsetBinary 0xabc [0x8a#8, 0xbc#8] = true := by decide +kernel
example : rawData .big .offsetBinary (-0xabc) [0x75#8, 0x44#8] = true := by decide +kernel

/-- `int` on a platform. -/
def int (P : Platform) : Ty := .sint P.intBytes

/-- Runs a test on all the platforms and formats. -/
def everywhere (test : Platform → Endian → Mode → M Bool) : Bool := platforms.all fun P => formats.all fun f => passed (test P f.1 f.2)

/-- `unaligned_data_DO_serialize_data_EXPECT_correct_value_when_unserializing` (test/unaligned_data.cpp:16-28). -/
example : everywhere (fun P e s => do
    let buf ← writeAs P e s (int P) (.int (-0xabc)) (P.junkBytes (4 * P.intBytes)) P.intBytes
    let v ← readAs P e s (int P) buf P.intBytes
    pure (same v (.int (-0xabc)))) = true := by decide +kernel

/-- `tuple_DO_set_value_EXPECT_same_value_with_get` (test/tuple.cpp:22-32). -/
example : everywhere (fun P e s => do
    let V := Tuple.self e s [.sint 2, int P, .sint 8]
    let t ← Tuple.make P e s V.ts [.int 0, .int 0, .int 0]
    let t ← V.set P 1 (.int (-0xabc)) t
    let v ← V.get P 1 t
    pure (same v (.int (-0xabc)))) = true := by decide +kernel

/-- `tuple_DO_set_array_EXPECT_same_value_with_get` (test/tuple.cpp:34-45). -/
example : everywhere (fun P e s => do
    let array := Val.arr ([0x00, 0x11, 0x22, 0x33, 0x44, 0x55, 0x66, 0x77, 0x88, 0x99, 0xaa, 0xbb, 0xcc, 0xdd, 0xee, 0xff].map .int)
    let V := Tuple.self e s [.arr (int P) 16]
    let t ← Tuple.default P e s V.ts
    let t ← V.set P 0 array t
    let v ← V.get P 0 t
    pure (same v array)) = true := by decide +kernel

/-- `tuple_DO_iterate_throught_content_EXPECT_correct_raw_data` (test/tuple.cpp:47-75). -/
example : everywhere (fun P e s => do
    let t ← Tuple.make P e s [.uint 1, .uint 2, .uint 4] [.int 0xaa, .int 0xbbcc, .int 0xddeeff00]
    pure (t == match e with
      | .little => [0xaa#8, 0xcc#8, 0xbb#8, 0x00#8, 0xff#8, 0xee#8, 0xdd#8]
      | .big => [0xaa#8, 0xbb#8, 0xcc#8, 0xdd#8, 0xee#8, 0xff#8, 0x00#8])) = true := by decide +kernel

/-- `tuple_DO_access_like_array_EXPECT_correct_raw_values` (test/tuple.cpp:77-113). -/
example : everywhere (fun P e s => do
    let t ← Tuple.make P e s [.uint 1, .uint 1, .uint 2] [.int 0xaa, .int 0xbb, .int 0xccdd]
    let b0 ← t.rd 0
    let b1 ← t.rd 1
    let b2 ← t.rd 2
    let b3 ← t.rd 3
    pure ([b0, b1, b2, b3] == match e with
      | .little => [0xaa#8, 0xbb#8, 0xdd#8, 0xcc#8]
      | .big => [0xaa#8, 0xbb#8, 0xcc#8, 0xdd#8])) = true := by decide +kernel

/-- `[](int a, int b, int c) { return a + b + c; }` (test/tuple.cpp:174). -/
def sum3 : List Val → Option Int
  | [.int a, .int b, .int c] => some (a + b + c)
  | _ => none

/-- `tuple_DO_invoke_function_EXPECT_correct_behavior` (test/tuple.cpp:172-174). The first part of the test (:119-170) checks that functors compile: C24. -/
example : everywhere (fun P e s => do
    let V := Tuple.self e s [int P, int P, int P]
    let t ← Tuple.make P e s V.ts [.int 12, .int 34, .int (-56)]
    let r ← V.invoke P sum3 t
    pure (r == some (12 + 34 - 56))) = true := by decide +kernel

/-- `tuple_DO_make_empty_tuple_EXPECT_valid_object` (test/tuple.cpp:177-188). -/
example : everywhere (fun P e s => do
    let t ← Tuple.make P e s [] []
    pure (t == [] && (Tuple.self e s []).size == 0)) = true := by decide +kernel

/-- `tuple_DO_bind_names_to_tuple_element_EXPECT_getting_same_values_cpp17` (test/tuple.cpp:190-203). -/
example : (platforms.all fun P => passed do
    let array := Val.arr ([0x00, 0x11, 0x22, 0x33].map .int)
    let V := Tuple.self .little .twosComplement [int P, .arr (int P) 4, .sint 2, .sint 1]
    let t ← Tuple.make P .little .twosComplement V.ts [.int 64, array, .int 16, .int 8]
    let vs ← V.gets P [0, 1, 2, 3] t
    pure (sames vs [.int 64, array, .int 16, .int 8])) = true := by decide +kernel

/-- `object_t` and its extension (test/tuple.cpp:5-20): six bytes with the padding. -/
def object : Ty := .user 6 [.uint 1, .uint 2, .uint 2]

/-- `tuple_DO_serialize_user_provided_structure_EXCEPT_correct_behavior` (test/tuple.cpp:205-217). -/
example : (platforms.all fun P => passed do
    let V := Tuple.self .little .twosComplement [.sint 4, object, .sint 2]
    let t ← Tuple.make P .little .twosComplement V.ts [.int 0xd, .user [.int 0xa, .int 0xb, .int 0xc], .int 0xe]
    let v0 ← V.get P 0 t
    let v1 ← V.get P 1 t
    let v2 ← V.get P 2 t
    pure (sames [v0, v1, v2] [.int 0xd, .user [.int 0xa, .int 0xb, .int 0xc], .int 0xe] && V.size == 4 + 5 + 2)) = true := by decide +kernel

/-- The bytes of `t.view<I, L>()`. -/
def subBytes (V : View) (i l : Nat) (t : Mem) : M (List Byte) :=
  match V.sub i l with
  | some W => t.rdN W.off W.size
  | none => .error .illTyped

/-- `tuple_view_DO_iterate_subview_EXPECT_exact_subsequence` (test/tuple.cpp:219-230). -/
example : (platforms.all fun P => passed do
    let V := Tuple.self .little .twosComplement [int P, .sint 1, int P, .bool]
    let t ← Tuple.make P .little .twosComplement V.ts [.int 64, .int 16, .int 32, .bool true]
    let s ← subBytes V 0 2 t
    let m ← subBytes V 1 2 t
    let e ← subBytes V 2 2 t
    pure (s == t.take (P.intBytes + 1) && m == (t.drop P.intBytes).take (1 + P.intBytes) && e == (t.drop (P.intBytes + 1)).take (P.intBytes + 1))) = true := by
  decide +kernel

/-- `tuple_DO_serialize_std_array` (test/tuple.cpp:232-239). -/
example : (platforms.all fun P => passed do
    let expected := Val.arr ([0, 1, 2, 3].map .int)
    let V := Tuple.self .little .twosComplement [.arr (int P) 4]
    let t ← Tuple.make P .little .twosComplement V.ts [expected]
    let v ← V.get P 0 t
    pure (same v expected)) = true := by decide +kernel

/-- `tuple_view_DO_bind_to_buffer_EXPECT_reading_correct_value` (test/tuple_view.cpp:5-16). -/
example : (platforms.all fun P => passed do
    let V : View := ⟨.little, .twosComplement, [.sint 2, int P, .sint 8], 0⟩
    let buf ← writeAs P .little .twosComplement (int P) (.int (-0xabc)) (P.junkBytes V.size) 2
    let v ← V.get P 1 buf
    pure (same v (.int (-0xabc)))) = true := by decide +kernel

/-- `tuple_view_DO_set_value_EXPECT_reading_same_value` (test/tuple_view.cpp:18-29). -/
example : (platforms.all fun P => passed do
    let V : View := ⟨.little, .twosComplement, [.sint 2, int P, .sint 8], 0⟩
    let buf ← V.set P 1 (.int (-0xabc)) (P.junkBytes V.size)
    let v ← V.get P 1 buf
    pure (same v (.int (-0xabc)))) = true := by decide +kernel

/-- `tuple_view_DO_bind_to_a_forward_list_EXPECT_correct_behavior` (test/tuple_view.cpp:31-82). -/
example : (platforms.all fun P => passed do
    let V : View := ⟨.little, .twosComplement, [.uint 1, .uint 4], 0⟩
    let list ← V.setIt P 1 (.int 0xabc) (P.junkBytes 5)
    let v ← V.getIt P 1 list
    pure (same v (.int 0xabc))) = true := by decide +kernel

/-- `tuple_view_DO_assign_to_a_tuple_EXPECT_correct_behavior` (test/tuple_view.cpp:84-95). The two tuples are one after the other in the memory. -/
example : (platforms.all fun P => passed do
    let ts : List Ty := [int P, .sint 1, .bool]
    let lhs ← Tuple.default P .little .twosComplement ts
    let rhs ← Tuple.make P .little .twosComplement ts [.int 0xa, .int 0xb, .bool true]
    let V : View := ⟨.little, .twosComplement, ts, 0⟩
    let mem ← V.assign P ⟨.little, .twosComplement, ts, lhs.length⟩ (lhs ++ rhs)
    let vs ← V.gets P [0, 1, 2] mem
    pure (sames vs [.int 0xa, .int 0xb, .bool true])) = true := by decide +kernel

/-- On a big-endian computer with both macros, test/unaligned_data.cpp:73-78 fails: see C10. -/
example : passed (do
    let buf ← writeAs ppcMacros .big .onesComplement (.sint 2) (.int 0xabc) (ppcMacros.junkBytes 8) 2
    let bs ← Mem.rdN buf 2 2
    pure (bs == [0x0a#8, 0xbc#8])) = false := by decide +kernel

/-- test/static.cpp:17-22. -/
example : smallestUnsigned (2 ^ 8 - 1) = 1 ∧ smallestUnsigned (2 ^ 8) = 2 ∧ smallestUnsigned (2 ^ 16 - 1) = 2 ∧ smallestUnsigned (2 ^ 16) = 4 ∧
    smallestUnsigned (2 ^ 32 - 1) = 4 ∧ smallestUnsigned (2 ^ 32) = 8 := by decide +kernel

end Upd.Tests
