import Verif.Lemmas.Decode
import Verif.Props.Demo

/-!
# Integers: round trips, wire format, decoding (C01, C02, C03, C04, C07, C08, C11)

`writeAs P e s t v mem off` is `write_as<e, s>(v, &mem[off])` and `readAs P e s t mem off` is
`read_as<t, e, s>(&mem[off])` on platform `P`.
-/

namespace Upd
open Spec

/-! ## C01 -/

/-- C01. An unsigned integer written at any offset of any large enough buffer is read back unchanged. -/
theorem C01_unsigned_round_trip {P : Platform} (hP : P.Valid) (e : Endian) (s : Mode) {n : Nat} (hn : 1 ≤ n) {z : Int}
    (h0 : 0 ≤ z) (h1 : z < 256 ^ n) {mem : Mem} {off : Nat} (h : off + n ≤ mem.length) :
    ∃ mem', writeAs P e s (.uint n) (.int z) mem off = .ok mem' ∧ readAs P e s (.uint n) mem' off = .ok (.int z) := by
  refine ⟨_, writeUint_ok hP e hn h0 h1 h, ?_⟩
  have hsl := slice_splice_same (m := mem) (off := off) (bs := wireBytes e n z.toNat) (by simpa using h)
  rw [wireBytes_length] at hsl
  rw [readAs, readUint_ok hP e (by rw [splice_length (by simpa using h)]; exact h), hsl, wireValue_wireBytes]
  · rw [except_bind_ok]; congr 2; omega
  · have : ((z.toNat : Nat) : Int) < ((256 ^ n : Nat) : Int) := by
      rw [Int.toNat_of_nonneg h0]; simpa using h1
    exact Int.ofNat_lt.mp this

example : ∃ mem', writeAs ppcEndian .big .twosComplement (.uint 4) (.int 0xdeadbeef) (List.replicate 7 0#8) 2 = .ok mem' ∧
    readAs ppcEndian .big .twosComplement (.uint 4) mem' 2 = .ok (.int 0xdeadbeef) :=
  C01_unsigned_round_trip ppcEndian_valid _ _ (by decide) (by decide) (by decide) (by decide)

/-- C01 for `bool`. -/
theorem C01_bool_round_trip (P : Platform) (e : Endian) (s : Mode) (b : Bool) {mem : Mem} {off : Nat}
    (h : off < mem.length) :
    ∃ mem', writeAs P e s .bool (.bool b) mem off = .ok mem' ∧ readAs P e s .bool mem' off = .ok (.bool b) := by
  refine ⟨mem.set off (if b then 1#8 else 0#8), Mem.wr_ok h, ?_⟩
  rw [readAs, readBool_ok P e (b := b) (List.getElem?_set_self h)]
  rfl

example : ∃ mem', writeAs pcMacros .little .twosComplement .bool (.bool true) [7#8, 8#8] 1 = .ok mem' ∧
    readAs pcMacros .little .twosComplement .bool mem' 1 = .ok (.bool true) :=
  C01_bool_round_trip _ _ _ _ (by decide)

/-! ## C03 -/

/-- C03. The bytes written for an unsigned integer are its base-256 digits in the selected order, and the rest of the
buffer is left as it was. -/
theorem C03_unsigned_wire_format {P : Platform} (hP : P.Valid) (e : Endian) (s : Mode) {n : Nat} (hn : 1 ≤ n) {z : Int}
    (h0 : 0 ≤ z) (h1 : z < 256 ^ n) {mem : Mem} {off : Nat} (h : off + n ≤ mem.length) :
    writeAs P e s (.uint n) (.int z) mem off = .ok (splice mem off (wireBytes e n z.toNat)) :=
  writeUint_ok hP e hn h0 h1 h

example : writeAs pc .big .twosComplement (.uint 2) (.int 0x1234) [0xff#8, 0xff#8, 0xff#8] 1 =
    .ok (splice [0xff#8, 0xff#8, 0xff#8] 1 (wireBytes .big 2 0x1234)) :=
  C03_unsigned_wire_format pc_valid _ _ (by decide) (by decide) (by decide) (by decide)
example : splice [0xff#8, 0xff#8, 0xff#8] 1 (wireBytes .big 2 0x1234) = [0xff#8, 0x12#8, 0x34#8] := by decide
example : splice [0xff#8, 0xff#8, 0xff#8] 0 (wireBytes .little 2 0x1234) = [0x34#8, 0x12#8, 0xff#8] := by decide

/-- C03 for `bool`: one byte, 1 or 0. -/
theorem C03_bool_wire_format (P : Platform) (e : Endian) (s : Mode) (b : Bool) {mem : Mem} {off : Nat}
    (h : off < mem.length) :
    writeAs P e s .bool (.bool b) mem off = .ok (splice mem off [if b then 1#8 else 0#8]) := by
  rw [writeAs, writeBool, Mem.wr_ok h]
  have := overlay_map_some (m := mem) (off := off) (bs := [if b then 1#8 else 0#8]) (by simp; omega)
  rw [← this]
  rfl

example : writeAs pc .big .twosComplement .bool (.bool true) [7#8, 7#8] 1 = .ok [7#8, 1#8] := by
  exact C03_bool_wire_format pc _ _ true (by decide)

/-- C03, the other way round: the unsigned integer read is the value of the bytes in positional notation; reading never
fails. -/
theorem C03_unsigned_decoding {P : Platform} (hP : P.Valid) (e : Endian) (s : Mode) {n : Nat} {mem : Mem} {off : Nat}
    (h : off + n ≤ mem.length) :
    readAs P e s (.uint n) mem off = .ok (.int (wireValue e (slice mem off n))) := by
  rw [readAs, readUint_ok hP e h]; rfl

example : readAs ppc .little .onesComplement (.uint 3) [9#8, 1#8, 2#8, 3#8] 1 =
    .ok (.int (wireValue .little (slice [9#8, 1#8, 2#8, 3#8] 1 3))) :=
  C03_unsigned_decoding ppc_valid _ _ (by decide)
example : wireValue .little (slice [9#8, 1#8, 2#8, 3#8] 1 3) = 0x030201 := by decide

/-! ## C02 -/

/-- Full statement of C02: every representable value round trips. -/
def C02_Statement : Prop :=
  ∀ (P : Platform) (e : Endian) (s : Mode) (k : Nat) (z : Int) (mem : Mem) (off : Nat), P.Valid → Supported P e s →
    1 ≤ k → k ≤ 8 → Representable s k z → off + k ≤ mem.length →
    ∃ mem', writeAs P e s (.sint k) (.int z) mem off = .ok mem' ∧ readAs P e s (.sint k) mem' off = .ok (.int z)

/-- The full statement is false: writing the least 32-bit integer in two's complement, without the macros, evaluates
`-value` in `int`, which overflows (include/upd/detail/signed_representation.hpp:58). -/
theorem C02_full_statement_is_false : ¬ C02_Statement := by
  intro h
  obtain ⟨_, hw, _⟩ := h pc .little .twosComplement 4 (-2147483648) [0#8, 0#8, 0#8, 0#8] 0 pc_valid (pc_supported _ _)
    (by decide) (by decide) (by simp only [Representable, InRange]; decide) (by decide)
  have herr : writeAs pc .little .twosComplement (.sint 4) (.int (-2147483648)) [0#8, 0#8, 0#8, 0#8] 0 =
    .error .signedOverflow := by rfl
  rw [herr] at hw
  cases hw

/-- C02 without the overflowing case: every representable value round trips, except the least value of a type at least
as wide as `int` in two's complement through the generic path (see `Safe`, `C11_*`). Missing: that case only. -/
theorem C02_signed_round_trip_partial {P : Platform} (hP : P.Valid) {e : Endian} {s : Mode} (hs : Supported P e s)
    {k : Nat} (hk1 : 1 ≤ k) (hk8 : k ≤ 8) {z : Int} (hz : Representable s k z)
    (hmin : P.signedMacro = some s ∨ s ≠ .twosComplement ∨ k < P.intBytes ∨ z ≠ -(2 ^ (8 * k - 1) : Int))
    {mem : Mem} {off : Nat} (h : off + k ≤ mem.length) :
    ∃ mem', writeAs P e s (.sint k) (.int z) mem off = .ok mem' ∧ readAs P e s (.sint k) mem' off = .ok (.int z) := by
  have hsafe : Safe P s k z := by
    refine ⟨hz, ?_⟩
    rcases hmin with h | h | h | h
    · exact Or.inl (Or.inl h)
    · cases s
      · right; have := hz.1; omega
      · right; have := hz.1; omega
      · exact absurd rfl h
      · exact Or.inl (Or.inr (Or.inl rfl))
    · exact Or.inl (Or.inr (Or.inr h))
    · exact Or.inr h
  refine ⟨_, writeSint_ok hP hs ⟨hk1, hk8⟩ hsafe h, ?_⟩
  have hsl := slice_splice_same (m := mem) (off := off) (bs := wireBytes e k (signedCode s k z)) (by simpa using h)
  rw [wireBytes_length] at hsl
  rw [readAs, readSint_ok hP hs ⟨hk1, hk8⟩ hsafe (by rw [splice_length (by simpa using h)]; exact h) hsl]
  rfl

example : ∃ mem', writeAs avr .big .onesComplement (.sint 2) (.int (-12345)) [0#8, 0#8, 0#8] 1 = .ok mem' ∧
    readAs avr .big .onesComplement (.sint 2) mem' 1 = .ok (.int (-12345)) :=
  C02_signed_round_trip_partial avr_valid (avr_supported _ _) (by decide) (by decide)
    (by simp only [Representable]; decide) (Or.inr (Or.inl (by decide))) (by decide)

/-! ## C04 -/

/-- Full statement of C04: the bytes of every representable value are the digits of its code. -/
def C04_Statement : Prop :=
  ∀ (P : Platform) (e : Endian) (s : Mode) (k : Nat) (z : Int) (mem : Mem) (off : Nat), P.Valid → Supported P e s →
    1 ≤ k → k ≤ 8 → Representable s k z → off + k ≤ mem.length →
    writeAs P e s (.sint k) (.int z) mem off = .ok (splice mem off (wireBytes e k (signedCode s k z)))

/-- The full statement is false, for the same reason as C02. -/
theorem C04_full_statement_is_false : ¬ C04_Statement := by
  intro h
  have hw := h pc .little .twosComplement 4 (-2147483648) [0#8, 0#8, 0#8, 0#8] 0 pc_valid (pc_supported _ _)
    (by decide) (by decide) (by simp only [Representable, InRange]; decide) (by decide)
  have herr : writeAs pc .little .twosComplement (.sint 4) (.int (-2147483648)) [0#8, 0#8, 0#8, 0#8] 0 =
    .error .signedOverflow := by rfl
  rw [herr] at hw
  cases hw

/-- C04 on the values for which the code has no undefined behaviour. Missing: the least value of a type at least as wide
as `int` in two's complement through the generic path. -/
theorem C04_signed_wire_format_partial {P : Platform} (hP : P.Valid) {e : Endian} {s : Mode} (hs : Supported P e s)
    {k : Nat} (hk1 : 1 ≤ k) (hk8 : k ≤ 8) {z : Int} (hz : Safe P s k z) {mem : Mem} {off : Nat}
    (h : off + k ≤ mem.length) :
    writeAs P e s (.sint k) (.int z) mem off = .ok (splice mem off (wireBytes e k (signedCode s k z))) :=
  writeSint_ok hP hs ⟨hk1, hk8⟩ hz h

example : writeAs ppcMacros .big .twosComplement (.sint 2) (.int (-2)) [0#8, 0#8] 0 =
    .ok (splice [0#8, 0#8] 0 (wireBytes .big 2 (signedCode .twosComplement 2 (-2)))) :=
  C04_signed_wire_format_partial ppcMacros_valid ppcMacros_supported (by decide) (by decide)
    ⟨by simp only [Representable, InRange]; decide, Or.inr (by decide)⟩ (by decide)
example : splice [0#8, 0#8] 0 (wireBytes .big 2 (signedCode .twosComplement 2 (-2))) = [0xff#8, 0xfe#8] := by decide
example : wireBytes .little 2 (signedCode .signMagnitude 2 (-2)) = [0x02#8, 0x80#8] := by decide
example : wireBytes .little 2 (signedCode .onesComplement 2 (-2)) = [0xfd#8, 0xff#8] := by decide
example : wireBytes .little 2 (signedCode .offsetBinary 2 (-2)) = [0xfe#8, 0x7f#8] := by decide

/-! ## C07 -/

/-- Full statement of C07: whatever the bytes, reading an integer yields a value in the range of its type. -/
def C07_Statement : Prop :=
  ∀ (P : Platform) (e : Endian) (s : Mode) (mem : Mem) (off : Nat), P.Valid → Supported P e s →
    (∀ n, off + n ≤ mem.length → ∃ z : Int, readAs P e s (.uint n) mem off = .ok (.int z) ∧ 0 ≤ z ∧ z < 256 ^ n) ∧
    (∀ k, 1 ≤ k → k ≤ 8 → off + k ≤ mem.length →
      ∃ z, readAs P e s (.sint k) mem off = .ok (.int z) ∧ InRange k z) ∧
    (off < mem.length → ∃ b, readAs P e s .bool mem off = .ok (.bool b))

/-- The full statement is false: the bytes of the least 32-bit integer in two's complement, read without the macros, make
`-T(~value + 1)` overflow (include/upd/detail/signed_representation.hpp:27). -/
theorem C07_full_statement_is_false : ¬ C07_Statement := by
  intro h
  obtain ⟨z, hz, _⟩ := (h pc .little .twosComplement [0#8, 0#8, 0#8, 0x80#8] 0 pc_valid (pc_supported _ _)).2.1 4
    (by decide) (by decide) (by decide)
  have herr : readAs pc .little .twosComplement (.sint 4) [0#8, 0#8, 0#8, 0x80#8] 0 = .error .signedOverflow := by rfl
  rw [herr] at hz
  cases hz

/-- Second reason for C07 to be false: with the endianess macro, a byte other than 0 and 1 is copied into a `bool` object
(include/upd/detail/endianess.hpp:42-45). -/
theorem C07_bool_counterexample :
    readAs pcMacros .little .twosComplement .bool [2#8] 0 = .error .badBool := by rfl

/-- C07 for unsigned integers, without restriction. -/
theorem C07_unsigned_decoding_total {P : Platform} (hP : P.Valid) (e : Endian) (s : Mode) {n : Nat} {mem : Mem}
    {off : Nat} (h : off + n ≤ mem.length) :
    ∃ z : Int, readAs P e s (.uint n) mem off = .ok (.int z) ∧ 0 ≤ z ∧ z < 256 ^ n := by
  refine ⟨_, C03_unsigned_decoding hP e s h, by omega, ?_⟩
  have := wireValue_lt e (slice mem off n)
  rw [slice_length h] at this
  have := Int.ofNat_lt.mpr this
  simpa using this

example : ∃ z : Int, readAs avr .big .twosComplement (.uint 8) (List.replicate 8 0xff#8) 0 = .ok (.int z) ∧
    0 ≤ z ∧ z < 256 ^ 8 := C07_unsigned_decoding_total avr_valid _ _ (by decide)

/-- C07 for signed integers, exactly: the value read is the one denoted by the bytes in the selected representation; the
only undefined case is the code of the least value in two's complement, read through the generic path, for a type at
least as wide as `int`. -/
theorem C07_signed_decoding_exact {P : Platform} (hP : P.Valid) {e : Endian} {s : Mode} (hs : Supported P e s) {k : Nat}
    (hk1 : 1 ≤ k) (hk8 : k ≤ 8) {mem : Mem} {off : Nat} (h : off + k ≤ mem.length) :
    readAs P e s (.sint k) mem off =
      if P.signedMacro ≠ some s ∧ s = .twosComplement ∧ wireValue e (slice mem off k) = 2 ^ (8 * k - 1) ∧
          P.intBytes ≤ k then
        .error .signedOverflow
      else .ok (.int (signedValue s k (wireValue e (slice mem off k)))) := by
  rw [readAs, readSint_spec hP hs ⟨hk1, hk8⟩ h]
  split <;> rfl

example : readAs pc .little .signMagnitude (.sint 2) [0x05#8, 0x80#8] 0 = .ok (.int (-5)) := by
  rw [C07_signed_decoding_exact pc_valid (pc_supported _ _) (by decide) (by decide) (by decide)]
  rfl

/-- C07 for `bool`, exactly: any byte but 0 is read as true, except that with the endianess macro, bytes other than 0 and 1 make a `bool` object
which holds neither. -/
theorem C07_bool_decoding_exact {P : Platform} (e : Endian) (s : Mode) {mem : Mem} {off : Nat} (h : off < mem.length) :
    readAs P e s .bool mem off =
      if P.endianMacro = some e ∧ mem[off] ≠ 0#8 ∧ mem[off] ≠ 1#8 then .error .badBool else .ok (.bool (decide (mem[off] ≠ 0#8))) := by
  rw [readAs, readBool, Mem.rd_ok h, except_bind_ok]
  by_cases he : P.endianMacro = some e
  · by_cases h0 : mem[off] = 0#8
    · simp [he, h0]; rfl
    · by_cases h1 : mem[off] = 1#8
      · simp [he, h1]; rfl
      · simp [he, h0, h1]; rfl
  · simp [he]; rfl

example : readAs pc .little .twosComplement .bool [7#8, 2#8] 1 = .ok (.bool true) := by
  rw [C07_bool_decoding_exact _ _ (by decide)]
  rfl

/-- C07 for every type made of the previous ones, from arbitrary bytes. `DecodeSafe` is what is missing from the full
statement: signed integers at least as wide as `int` in two's complement without the macro, and `bool` with the macro. -/
theorem C07_decoding_total_partial {P : Platform} (hP : P.Valid) {e : Endian} {s : Mode} (hs : Supported P e s) {t : Ty}
    (hw : t.WF) (hl : Loose t) (hd : DecodeSafe P e s t) {mem : Mem} {off : Nat} (h : off + t.serSize ≤ mem.length) :
    ∃ v, readAs P e s t mem off = .ok v ∧ v.Fits InRange t := by
  obtain ⟨v, hv, hf⟩ := readAs_total hP hs t mem off hw hl hd h
  exact ⟨v, hv, fits_mono (fun k z hz => representable_inRange hz.1) t v hf⟩

example (mem : Mem) (h : mem.length = 12) :
    ∃ v, readAs pc .big .signMagnitude (.arr (.user 8 [.sint 4, .bool]) 1) mem 4 = .ok v ∧
      v.Fits InRange (.arr (.user 8 [.sint 4, .bool]) 1) :=
  C07_decoding_total_partial pc_valid (pc_supported _ _) (by simp [Ty.WF, Ty.WFs])
    (by simp [Loose, LooseAll, Ty.serSize, Ty.serSizes, Ty.sizeof])
    (by simp [DecodeSafe, DecodeSafeAll, pc]) (by simp [Ty.serSize, Ty.sizeof, h])

/-! ## C08 -/

/-- C08. Decoding bytes, then encoding the value anywhere else, writes these bytes, or zeros if they were the code of
"negative zero". -/
theorem C08_reencoding {P : Platform} (hP : P.Valid) {e : Endian} {s : Mode} (hs : Supported P e s) {k : Nat}
    (hk1 : 1 ≤ k) (hk8 : k ≤ 8) {mem : Mem} {off : Nat} (h : off + k ≤ mem.length) {v : Val}
    (hr : readAs P e s (.sint k) mem off = .ok v) {dst : Mem} {doff : Nat} (hd : doff + k ≤ dst.length) :
    (¬ NegZero s k (wireValue e (slice mem off k)) →
      writeAs P e s (.sint k) v dst doff = .ok (splice dst doff (slice mem off k))) ∧
    (NegZero s k (wireValue e (slice mem off k)) →
      writeAs P e s (.sint k) v dst doff = .ok (splice dst doff (List.replicate k 0#8))) := by
  have hk : SizeOk k := ⟨hk1, hk8⟩
  rw [readAs] at hr
  obtain ⟨z, hz, hr⟩ := except_bind_eq_ok hr
  injection hr with hr
  subst hr
  obtain ⟨hv, hsafe⟩ := readSint_safe hP hs hk h hz
  have hc : wireValue e (slice mem off k) < 256 ^ k := by
    have := wireValue_lt e (slice mem off k)
    rwa [slice_length h] at this
  have hcode := signedCode_signedValue (s := s) hk hc
  rw [← hv] at hcode
  constructor
  · intro hn
    rw [writeAs, writeSint_ok hP hs hk hsafe hd, hcode, if_neg hn, slice_wireBytes e h]
  · intro hn
    rw [writeAs, writeSint_ok hP hs hk hsafe hd, hcode, if_pos hn, wireBytes_zero]

example : writeAs pc .big .onesComplement (.sint 2) (.int (-2)) [0#8, 0#8] 0 =
    .ok (splice [0#8, 0#8] 0 (slice [7#8, 0xff#8, 0xfd#8] 1 2)) :=
  (C08_reencoding (mem := [7#8, 0xff#8, 0xfd#8]) (off := 1) pc_valid (pc_supported _ _) (by decide) (by decide)
    (by decide) rfl (by decide)).1 (by decide)
example : writeAs pc .little .signMagnitude (.sint 2) (.int 0) [1#8, 1#8] 0 =
    .ok (splice [1#8, 1#8] 0 (List.replicate 2 0#8)) :=
  (C08_reencoding (mem := [0#8, 0x80#8]) (off := 0) pc_valid (pc_supported _ _) (by decide) (by decide)
    (by decide) rfl (by decide)).2 (by decide)

/-- C08 for unsigned integers. -/
theorem C08_reencoding_unsigned {P : Platform} (hP : P.Valid) (e : Endian) (s : Mode) {n : Nat} (hn : 1 ≤ n) {mem : Mem}
    {off : Nat} (h : off + n ≤ mem.length) {v : Val} (hr : readAs P e s (.uint n) mem off = .ok v) {dst : Mem}
    {doff : Nat} (hd : doff + n ≤ dst.length) :
    writeAs P e s (.uint n) v dst doff = .ok (splice dst doff (slice mem off n)) := by
  rw [C03_unsigned_decoding hP e s h] at hr
  injection hr with hr
  subst hr
  have hc := wireValue_lt e (slice mem off n)
  rw [slice_length h] at hc
  have := Int.ofNat_lt.mpr hc
  rw [C03_unsigned_wire_format hP e s hn (by omega) (by simpa using this) hd]
  rw [Int.toNat_natCast, slice_wireBytes e h]

example : writeAs pc .big .twosComplement (.uint 2) (.int 0xabcd) [0#8, 0#8] 0 =
    .ok (splice [0#8, 0#8] 0 (slice [0xab#8, 0xcd#8] 0 2)) :=
  C08_reencoding_unsigned (mem := [0xab#8, 0xcd#8]) (off := 0) pc_valid _ _ (by decide) (by decide) rfl (by decide)

/-- C08 for `bool`: the byte written is 0 if the byte read was 0, and 1 otherwise; it is the byte read whenever a `bool` had been written. -/
theorem C08_reencoding_bool {P : Platform} (e : Endian) (s : Mode) {mem : Mem} {off : Nat} (h : off < mem.length) {v : Val}
    (hr : readAs P e s .bool mem off = .ok v) {dst : Mem} {doff : Nat} (hd : doff < dst.length) :
    writeAs P e s .bool v dst doff = .ok (splice dst doff [if mem[off] = 0#8 then 0#8 else 1#8]) := by
  rw [C07_bool_decoding_exact e s h] at hr
  split at hr
  · cases hr
  · injection hr with hr
    subst hr
    rw [writeAs, writeBool, Mem.wr, if_pos hd, ← splice_set_cons (by simp; omega), splice_nil]
    by_cases h0 : mem[off] = 0#8 <;> simp [h0]

example : writeAs pc .little .twosComplement .bool (.bool true) [9#8, 9#8] 1 = .ok (splice [9#8, 9#8] 1 [1#8]) :=
  C08_reencoding_bool (P := pc) (mem := [0x40#8]) (off := 0) .little .twosComplement (by decide) rfl (by decide)

/-! ## C11 -/

/-- C11. Every value of the type but its least one is encoded without fault and read back unchanged. -/
theorem C11_other_values_round_trip {P : Platform} (hP : P.Valid) {e : Endian} {s : Mode} (hs : Supported P e s)
    {k : Nat} (hk1 : 1 ≤ k) (hk8 : k ≤ 8) {z : Int} (hz : InRange k z) (hmin : z ≠ -(2 ^ (8 * k - 1) : Int))
    {mem : Mem} {off : Nat} (h : off + k ≤ mem.length) :
    ∃ mem', writeAs P e s (.sint k) (.int z) mem off = .ok mem' ∧ readAs P e s (.sint k) mem' off = .ok (.int z) := by
  apply C02_signed_round_trip_partial hP hs hk1 hk8 _ (Or.inr (Or.inr (Or.inr hmin))) h
  unfold InRange at hz
  cases s <;> simp only [Representable, InRange] <;> omega

example : ∃ mem', writeAs pc .big .signMagnitude (.sint 8) (.int (-9223372036854775807)) (List.replicate 8 0#8) 0 =
    .ok mem' ∧ readAs pc .big .signMagnitude (.sint 8) mem' 0 = .ok (.int (-9223372036854775807)) :=
  C11_other_values_round_trip pc_valid (pc_supported _ _) (by decide) (by decide) (by simp only [InRange]; decide)
    (by decide) (by decide)

/-- C11, types at least as wide as `int`: encoding the least value is undefined in every mode but offset binary (unless
the native conversion is used). -/
theorem C11_least_value_of_wide_type {P : Platform} (hP : P.Valid) {e : Endian} {s : Mode} (hs : Supported P e s)
    {k : Nat} (hk8 : k ≤ 8) (hi : P.intBytes ≤ k) (hm : P.signedMacro ≠ some s)
    (ho : s ≠ .offsetBinary) {mem : Mem} {off : Nat} (h : off + k ≤ mem.length) :
    writeAs P e s (.sint k) (.int (-(2 ^ (8 * k - 1) : Int))) mem off = .error .signedOverflow := by
  have := hP.int_ge
  rw [writeAs, writeSint_min hP hs ⟨by omega, hk8⟩ hm h, if_neg]
  rintro (h | h)
  · exact ho h
  · omega

example : writeAs avr .little .twosComplement (.sint 2) (.int (-(2 ^ (8 * 2 - 1) : Int))) [0#8, 0#8] 0 =
    .error .signedOverflow :=
  C11_least_value_of_wide_type avr_valid (avr_supported _ _) (by decide) (by decide) (by decide) (by decide) (by decide)

/-- C11, types narrower than `int`, sign-magnitude: the least value is written as the code of negative zero, so that it is
read back as 0. -/
theorem C11_least_value_sign_magnitude {P : Platform} (hP : P.Valid) {e : Endian} (hs : Supported P e .signMagnitude)
    {k : Nat} (hk1 : 1 ≤ k) (hi : k < P.intBytes) {mem : Mem} {off : Nat} (h : off + k ≤ mem.length) :
    ∃ mem', writeAs P e .signMagnitude (.sint k) (.int (-(2 ^ (8 * k - 1) : Int))) mem off = .ok mem' ∧
      mem' = splice mem off (wireBytes e k (2 ^ (8 * k - 1))) ∧
      readAs P e .signMagnitude (.sint k) mem' off = .ok (.int 0) := by
  have := hP.int_le
  have hk : SizeOk k := ⟨hk1, by omega⟩
  have hm : P.signedMacro ≠ some .signMagnitude := fun h => by have := hP.signed _ h; cases this
  refine ⟨_, by rw [writeAs, writeSint_min hP hs hk hm h, if_pos (Or.inr hi), if_pos rfl], rfl, ?_⟩
  have hlen : off + (wireBytes e k (2 ^ (8 * k - 1))).length ≤ mem.length := by simpa using h
  have hsl := slice_splice_same hlen
  rw [wireBytes_length] at hsl
  rw [C07_signed_decoding_exact hP hs hk1 (by omega) (by rw [splice_length hlen]; exact h), hsl, wireValue_wireBytes]
  · rw [if_neg (by simp)]
    obtain ⟨H, B, hH, hB, e1, e2, e3, e4, e5, e6⟩ := pows hk
    simp [signedValue]
  · obtain ⟨H, B, hH, hB, e1, e2, e3, e4, e5, e6⟩ := pows hk
    omega

example : ∃ mem', writeAs pc .little .signMagnitude (.sint 1) (.int (-(2 ^ (8 * 1 - 1) : Int))) [0#8] 0 = .ok mem' ∧
      mem' = splice [0#8] 0 (wireBytes .little 1 (2 ^ (8 * 1 - 1))) ∧
      readAs pc .little .signMagnitude (.sint 1) mem' 0 = .ok (.int 0) :=
  C11_least_value_sign_magnitude pc_valid (pc_supported _ _) (by decide) (by decide) (by decide)

/-- C11, types narrower than `int`, ones' complement: the least value is written as, and read back as, the greatest one. -/
theorem C11_least_value_ones_complement {P : Platform} (hP : P.Valid) {e : Endian} (hs : Supported P e .onesComplement)
    {k : Nat} (hk1 : 1 ≤ k) (hi : k < P.intBytes) {mem : Mem} {off : Nat} (h : off + k ≤ mem.length) :
    ∃ mem', writeAs P e .onesComplement (.sint k) (.int (-(2 ^ (8 * k - 1) : Int))) mem off = .ok mem' ∧
      mem' = splice mem off (wireBytes e k (2 ^ (8 * k - 1) - 1)) ∧
      readAs P e .onesComplement (.sint k) mem' off = .ok (.int (2 ^ (8 * k - 1) - 1)) := by
  have := hP.int_le
  have hk : SizeOk k := ⟨hk1, by omega⟩
  have hm : P.signedMacro ≠ some .onesComplement := fun h => by have := hP.signed _ h; cases this
  have hcode : signedCode .onesComplement k (-(2 ^ (8 * k - 1) : Int)) = 2 ^ (8 * k - 1) - 1 := by
    obtain ⟨H, B, hH, hB, e1, e2, e3, e4, e5, e6⟩ := pows hk
    simp only [signedCode, e1, e2, e3]
    split <;> omega
  refine ⟨_, by rw [writeAs, writeSint_min hP hs hk hm h, if_pos (Or.inr hi), if_neg (by decide), hcode], rfl, ?_⟩
  have hlen : off + (wireBytes e k (2 ^ (8 * k - 1) - 1)).length ≤ mem.length := by simpa using h
  have hsl := slice_splice_same hlen
  rw [wireBytes_length] at hsl
  obtain ⟨H, B, hH, hB, e1, e2, e3, e4, e5, e6⟩ := pows hk
  rw [C07_signed_decoding_exact hP hs hk1 (by omega) (by rw [splice_length hlen]; exact h), hsl, wireValue_wireBytes]
  · rw [if_neg (by simp)]
    simp only [signedValue, e1, e3]
    rw [if_pos (by omega)]
    congr 2
    omega
  · omega

example : ∃ mem', writeAs pc .little .onesComplement (.sint 2) (.int (-(2 ^ (8 * 2 - 1) : Int))) [0#8, 0#8] 0 = .ok mem' ∧
      mem' = splice [0#8, 0#8] 0 (wireBytes .little 2 (2 ^ (8 * 2 - 1) - 1)) ∧
      readAs pc .little .onesComplement (.sint 2) mem' 0 = .ok (.int (2 ^ (8 * 2 - 1) - 1)) :=
  C11_least_value_ones_complement pc_valid (pc_supported _ _) (by decide) (by decide) (by decide)

/-- C11, where the least value is representable and reached without overflow, it round trips like any other. -/
theorem C11_least_value_representable {P : Platform} (hP : P.Valid) {e : Endian} {s : Mode} (hs : Supported P e s)
    {k : Nat} (hk1 : 1 ≤ k) (hk8 : k ≤ 8)
    (hc : s = .offsetBinary ∨ (s = .twosComplement ∧ (P.signedMacro = some s ∨ k < P.intBytes)))
    {mem : Mem} {off : Nat} (h : off + k ≤ mem.length) :
    ∃ mem', writeAs P e s (.sint k) (.int (-(2 ^ (8 * k - 1) : Int))) mem off = .ok mem' ∧
      readAs P e s (.sint k) mem' off = .ok (.int (-(2 ^ (8 * k - 1) : Int))) := by
  have hr : InRange k (-(2 ^ (8 * k - 1) : Int)) := by
    obtain ⟨H, B, hH, hB, e1, e2, e3, e4, e5, e6⟩ := pows ⟨hk1, hk8⟩
    simp only [InRange, e3]; omega
  rcases hc with rfl | ⟨rfl, hc⟩
  · exact C02_signed_round_trip_partial hP hs hk1 hk8 hr (Or.inr (Or.inl (by decide))) h
  · refine C02_signed_round_trip_partial hP hs hk1 hk8 hr ?_ h
    rcases hc with hc | hc
    · exact Or.inl hc
    · exact Or.inr (Or.inr (Or.inl hc))

example : ∃ mem', writeAs pcMacros .big .twosComplement (.sint 4) (.int (-(2 ^ (8 * 4 - 1) : Int)))
      (List.replicate 4 0#8) 0 = .ok mem' ∧
      readAs pcMacros .big .twosComplement (.sint 4) mem' 0 = .ok (.int (-(2 ^ (8 * 4 - 1) : Int))) :=
  C11_least_value_representable pcMacros_valid (pcMacros_supported _ _) (by decide) (by decide)
    (Or.inr ⟨rfl, Or.inl rfl⟩) (by decide)

end Upd
