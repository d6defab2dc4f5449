import Verif.Props.Types

/-!
# C02 and C10: what happens outside of the hypotheses of the partial theorems

`C02_signed_round_trip_partial` and `C10_macros_transparent_*_partial` leave cases aside. The theorems of this file say
what the code does in these cases.
-/

namespace Upd
open Spec

/-! ## C02 -/

/-- C02, exactly. A value of a signed type of `k` bytes round trips if and only if its encoding is `Safe`: it is
representable in the mode, and it is not the least value of a type at least as wide as `int` in two's complement through
the generic path. -/
theorem C02_round_trip_iff {P : Platform} (hP : P.Valid) {e : Endian} {s : Mode} (hs : Supported P e s)
    {k : Nat} (hk1 : 1 ≤ k) (hk8 : k ≤ 8) {z : Int} (hz : InRange k z) {mem : Mem} {off : Nat}
    (h : off + k ≤ mem.length) :
    (∃ mem', writeAs P e s (.sint k) (.int z) mem off = .ok mem' ∧ readAs P e s (.sint k) mem' off = .ok (.int z)) ↔
      Safe P s k z := by
  constructor
  · rintro ⟨mem', hw, hr⟩
    by_cases hmin : z = -(2 ^ (8 * k - 1) : Int)
    · subst hmin
      by_cases hm : P.signedMacro = some s
      · have := hP.signed s hm
        subst this
        exact ⟨hz, Or.inl (Or.inl hm)⟩
      · by_cases ho : s = .offsetBinary
        · subst ho
          exact ⟨hz, Or.inl (Or.inr (Or.inl rfl))⟩
        · by_cases hi : P.intBytes ≤ k
          · rw [C11_least_value_of_wide_type hP hs hk8 hi hm ho h] at hw
            cases hw
          · cases s
            · obtain ⟨m, hw', _, hr'⟩ := C11_least_value_sign_magnitude hP hs hk1 (by omega) h
              rw [hw] at hw'
              injection hw' with hw'
              subst hw'
              rw [hr] at hr'
              injection hr' with hr'
              injection hr' with hr'
              obtain ⟨H, B, hH, hB, e1, e2, e3, e4, e5, e6⟩ := pows ⟨hk1, hk8⟩
              rw [e3] at hr'
              omega
            · obtain ⟨m, hw', _, hr'⟩ := C11_least_value_ones_complement hP hs hk1 (by omega) h
              rw [hw] at hw'
              injection hw' with hw'
              subst hw'
              rw [hr] at hr'
              injection hr' with hr'
              injection hr' with hr'
              obtain ⟨H, B, hH, hB, e1, e2, e3, e4, e5, e6⟩ := pows ⟨hk1, hk8⟩
              rw [e3] at hr'
              omega
            · exact ⟨hz, Or.inl (Or.inr (Or.inr (by omega)))⟩
            · exact absurd rfl ho
    · refine ⟨?_, Or.inr hmin⟩
      unfold InRange at hz
      cases s <;> simp only [Representable, InRange] <;> omega
  · intro hsafe
    refine C02_signed_round_trip_partial hP hs hk1 hk8 hsafe.1 ?_ h
    rcases hsafe.2 with (h | h | h) | h
    · exact Or.inl h
    · exact Or.inr (Or.inl (by rw [h]; decide))
    · exact Or.inr (Or.inr (Or.inl h))
    · exact Or.inr (Or.inr (Or.inr h))

example : ¬ ∃ mem', writeAs pc .big .twosComplement (.sint 4) (.int (-2147483648)) [0#8, 0#8, 0#8, 0#8] 0 = .ok mem' ∧
    readAs pc .big .twosComplement (.sint 4) mem' 0 = .ok (.int (-2147483648)) := by
  rw [C02_round_trip_iff pc_valid (pc_supported _ _) (by decide) (by decide) (by simp only [InRange]; decide) (by decide)]
  rintro ⟨_, (h | h | h) | h⟩
  · cases h
  · cases h
  · exact absurd h (by decide)
  · exact h (by decide)

/-! ## C10 -/

/-- The bytes copied from the start of an `unsigned long long` on a big-endian host are its high bytes. -/
theorem high_bytes {k x : Nat} (hk : k ≤ 8) :
    slice (wireBytes .big 8 x) 0 k = wireBytes .big k (x / 256 ^ (8 - k)) := by
  simp only [wireBytes, slice, List.drop_zero]
  rw [List.take_reverse, leDigits_length, leDigits_drop]
  congr 2
  omega

/-- C10 for integers of eight bytes: every combination of macros works on every host. -/
theorem C10_eight_bytes {P : Platform} (hP : P.Valid) (e : Endian) {s : Mode} {z : Int} (hz : Safe P.bare s 8 z)
    {mem : Mem} {off : Nat} (h : off + 8 ≤ mem.length) :
    writeAs P e s (.sint 8) (.int z) mem off = writeAs P.bare e s (.sint 8) (.int z) mem off := by
  have h8 : SizeOk 8 := ⟨by decide, by decide⟩
  have key : writeAs P e s (.sint 8) (.int z) mem off = .ok (splice mem off (wireBytes e 8 (signedCode s 8 z))) := by
    rw [writeAs, writeSint]
    obtain ⟨x, hx, hv⟩ := toSignedMode_ok hP h8 (bare_safe 8 z hz) (fun _ => Or.inr rfl)
    rw [hx, except_bind_ok, toEndianess_ok hP (by decide) e mem off x 8 (by decide) (fun _ => Or.inr rfl) h,
      ← wireBytes_mod, hv]
  rw [key, C04_signed_wire_format_partial (bare_valid hP) (bare_supported P e s) (by decide) (by decide) hz h]

example : writeAs ppcEndian .big .twosComplement (.sint 8) (.int (-5)) (List.replicate 8 0#8) 0 =
    .ok [255#8, 255#8, 255#8, 255#8, 255#8, 255#8, 255#8, 251#8] := by
  rw [C10_eight_bytes ppcEndian_valid _ ⟨by simp only [Representable, InRange]; decide, Or.inr (by decide)⟩ (by decide)]
  rfl

/-- C10 for integers of eight bytes, reading, exactly: the value does not depend on the macros; they only decide whether
the least value in two's complement overflows. -/
theorem C10_eight_bytes_read {P : Platform} (hP : P.Valid) (e : Endian) (s : Mode) {mem : Mem} {off : Nat}
    (h : off + 8 ≤ mem.length) :
    readAs P e s (.sint 8) mem off =
      if P.signedMacro ≠ some s ∧ s = .twosComplement ∧ wireValue e (slice mem off 8) = 2 ^ 63 then
        .error .signedOverflow
      else .ok (.int (signedValue s 8 (wireValue e (slice mem off 8)))) := by
  have hlt := wireValue_lt e (slice mem off 8)
  rw [slice_length h] at hlt
  have hi := hP.int_le
  rw [readAs, readSint, fromEndianess_ok hP 64 e mem off 8 (by decide) (fun _ => Or.inr rfl) h, except_bind_ok,
    fromSignedMode_spec hP s ⟨by decide, by decide⟩ hlt (fun _ => Or.inr rfl)]
  simp only [hi, and_true]
  split <;> rfl

example : readAs ppcSigned .little .twosComplement (.sint 8) [0xfe#8, 255#8, 255#8, 255#8, 255#8, 255#8, 255#8, 255#8] 0 =
    .ok (.int (-2)) := by
  rw [C10_eight_bytes_read ⟨by decide, by decide, (by intro e h; cases h), by intro e h; cases h; rfl⟩ _ _ (by decide)]
  rfl

/-- C10, outside of the partial theorem: on a big-endian host with the macro for the byte order only, an integer of at
most four bytes written in big-endian order loses everything but (in two modes out of four) its sign. -/
theorem C10_byte_order_macro_only_write {P : Platform} (hb : P.host = .big)
    (he : P.endianMacro = some .big) {s : Mode} (hm : P.signedMacro ≠ some s) {k : Nat} (hk1 : 1 ≤ k) (hk4 : k ≤ 4)
    {z : Int} (hz : Safe P s k z) {mem : Mem} {off : Nat} (h : off + k ≤ mem.length) :
    writeAs P .big s (.sint k) (.int z) mem off =
      .ok (splice mem off (List.replicate k
        (if z < 0 ∧ (s = .onesComplement ∨ s = .twosComplement) then 0xff#8 else 0x00#8))) := by
  have hk : SizeOk k := ⟨hk1, by omega⟩
  have hr := representable_inRange hz.1
  have hneg : s ≠ .offsetBinary → cNeg P k z = .ok (-z) := by
    intro hso
    by_cases hmin : z = -(2 ^ (8 * k - 1) : Int)
    · rw [hmin, cNeg_min hk, if_neg, Int.neg_neg]
      rcases hz.2 with (h | h | h) | h
      · exact absurd h hm
      · exact absurd h hso
      · omega
      · exact absurd hmin h
    · exact cNeg_ok hk (by obtain ⟨h1, _⟩ := hr; omega)
  have hsm := signMask_toNat hk
  have key : ∃ x, toSignedMode P s k z = .ok x ∧ x.toNat / 256 ^ (8 - k) =
      if z < 0 ∧ (s = .onesComplement ∨ s = .twosComplement) then 256 ^ k - 1 else 0 := by
    unfold toSignedMode
    rw [if_neg hm]
    have hrep := hz.1
    have hk' : k = 1 ∨ k = 2 ∨ k = 3 ∨ k = 4 := by omega
    by_cases h0 : 0 ≤ z
    · rw [if_neg (by omega)]
      cases s <;> simp only [toSignedModeImpl, if_pos h0]
      · refine ⟨_, rfl, ?_⟩
        unfold InRange at hr
        rw [ofInt_nonneg_toNat h0 (by rcases hk' with rfl | rfl | rfl | rfl <;> simp at hr ⊢ <;> omega)]
        rcases hk' with rfl | rfl | rfl | rfl <;> simp at hr ⊢ <;> omega
      · refine ⟨_, rfl, ?_⟩
        unfold InRange at hr
        rw [ofInt_nonneg_toNat h0 (by rcases hk' with rfl | rfl | rfl | rfl <;> simp at hr ⊢ <;> omega)]
        rcases hk' with rfl | rfl | rfl | rfl <;> simp at hr ⊢ <;> omega
      · refine ⟨_, rfl, ?_⟩
        unfold InRange at hr
        rw [ofInt_nonneg_toNat h0 (by rcases hk' with rfl | rfl | rfl | rfl <;> simp at hr ⊢ <;> omega)]
        rcases hk' with rfl | rfl | rfl | rfl <;> simp at hr ⊢ <;> omega
      · refine ⟨_, rfl, ?_⟩
        unfold InRange at hr
        rw [BitVec.toNat_add, hsm,
          ofInt_nonneg_toNat h0 (by rcases hk' with rfl | rfl | rfl | rfl <;> simp at hr ⊢ <;> omega)]
        rcases hk' with rfl | rfl | rfl | rfl <;> simp at hr ⊢ <;> omega
    · have hn : (BitVec.ofInt 64 (-z)).toNat = z.natAbs := by
        unfold InRange at hr
        rw [ofInt_nonneg_toNat (by omega) (by rcases hk' with rfl | rfl | rfl | rfl <;> simp at hr ⊢ <;> omega)]
        omega
      have hzn : (BitVec.ofInt 64 z).toNat = 2 ^ 64 - z.natAbs := by
        unfold InRange at hr
        rw [ofInt_neg_toNat (by omega) (by rcases hk' with rfl | rfl | rfl | rfl <;> simp at hr ⊢ <;> omega)]
      cases s <;> simp only [toSignedModeImpl, if_neg h0, reduceCtorEq, or_self, or_false, or_true, and_false, and_true,
        if_false, if_pos (by omega : z < 0)]
      · rw [hneg (by simp)]
        refine ⟨_, rfl, ?_⟩
        rw [BitVec.toNat_or, hn, hsm]
        have h1 : z.natAbs < 2 ^ (8 * k) := by
          unfold InRange at hr
          rcases hk' with rfl | rfl | rfl | rfl <;> simp at hr ⊢ <;> omega
        have h2 : (2 : Nat) ^ (8 * k - 1) < 2 ^ (8 * k) := Nat.pow_lt_pow_right (by decide) (by omega)
        have := Nat.or_lt_two_pow h1 h2
        rcases hk' with rfl | rfl | rfl | rfl <;> simp at this ⊢ <;> omega
      · rw [hneg (by simp)]
        refine ⟨_, rfl, ?_⟩
        rw [BitVec.toNat_not, hn]
        unfold InRange at hr
        rcases hk' with rfl | rfl | rfl | rfl <;> simp at hr ⊢ <;> omega
      · rw [hneg (by simp)]
        refine ⟨_, rfl, ?_⟩
        have : -(-z - 1) - 1 = z := by omega
        rw [this, hzn]
        unfold InRange at hr
        rcases hk' with rfl | rfl | rfl | rfl <;> simp at hr ⊢ <;> omega
      · refine ⟨_, rfl, ?_⟩
        rw [BitVec.toNat_add, hzn, hsm]
        unfold InRange at hr
        rcases hk' with rfl | rfl | rfl | rfl <;> simp at hr ⊢ <;> omega
  obtain ⟨x, hx, hv⟩ := key
  rw [writeAs, writeSint, hx, except_bind_ok, toEndianess, if_pos he, hb, objBytes_eq,
    Mem.rdN_ok (by simp; omega), except_bind_ok, high_bytes (by omega), hv, Mem.wrN_ok (by simpa using h)]
  congr 2
  have hk' : k = 1 ∨ k = 2 ∨ k = 3 ∨ k = 4 := by omega
  split <;> rcases hk' with rfl | rfl | rfl | rfl <;> decide

example : writeAs ppcEndian .big .twosComplement (.sint 2) (.int (-300)) [9#8, 9#8, 9#8] 1 = .ok [9#8, 0xff#8, 0xff#8] :=
  C10_byte_order_macro_only_write rfl rfl (by decide) (by decide) (by decide)
    ⟨by simp only [Representable, InRange]; decide, Or.inr (by decide)⟩ (by decide)

/-- C10, outside of the partial theorem, reading: on the same host, with the macro for the byte order only, the integer
read does not depend on the bytes. -/
theorem C10_byte_order_macro_only_read {P : Platform} (hb : P.host = .big)
    (he : P.endianMacro = some .big) {s : Mode} (hm : P.signedMacro ≠ some s) {k : Nat} (hk1 : 1 ≤ k) (hk4 : k ≤ 4)
    {mem : Mem} {off : Nat} (h : off + k ≤ mem.length) :
    readAs P .big s (.sint k) mem off =
      .ok (.int (if s = .offsetBinary then -(2 ^ (8 * k - 1) : Int) else 0)) := by
  have hk : SizeOk k := ⟨hk1, by omega⟩
  have hk' : k = 1 ∨ k = 2 ∨ k = 3 ∨ k = 4 := by omega
  have hl := slice_length h
  have hlt := wireValue_lt .big (slice mem off k)
  rw [hl] at hlt
  have key : fromEndianess P 64 .big mem off k =
      .ok (BitVec.ofNat 64 (256 ^ (8 - k) * wireValue .big (slice mem off k))) := by
    unfold fromEndianess
    rw [if_pos he, Mem.rdN_ok h, except_bind_ok, hb, objBytes_eq, Mem.wrN_ok (by simp [hl]; omega), except_bind_ok,
      ofObjBytes_eq]
    congr 2
    simp only [wireValue, wireBytes, splice, List.take_zero, List.nil_append, List.reverse_append]
    rw [leValue_append, hl]
    have h0 : List.drop (0 + k) (leDigits (64 / 8) 0).reverse = List.replicate (8 - k) 0#8 := by
      rw [leDigits_zero, List.reverse_replicate, List.drop_replicate, Nat.zero_add]
    rw [h0, List.reverse_replicate, leValue_replicate_zero]
    simp
  generalize hc : wireValue .big (slice mem off k) = c at key hlt
  rw [readAs, readSint, key, except_bind_ok, fromSignedMode, if_neg hm]
  have htest : BitVec.ofNat 64 (256 ^ (8 - k) * c) &&& signMask k = 0#64 := by
    apply BitVec.eq_of_toNat_eq
    rw [BitVec.toNat_and, signMask_toNat hk, BitVec.toNat_ofNat]
    have h64 : 256 ^ (8 - k) * c < 2 ^ 64 := by
      rcases hk' with rfl | rfl | rfl | rfl <;> simp at hlt ⊢ <;> omega
    rw [Nat.mod_eq_of_lt h64]
    apply Nat.eq_of_testBit_eq
    intro i
    rw [Nat.testBit_and, Nat.testBit_two_pow]
    by_cases hi : 8 * k - 1 = i
    · subst hi
      have : (256 ^ (8 - k) * c).testBit (8 * k - 1) = false := by
        rw [pow256, Nat.mul_comm, Nat.testBit_mul_two_pow]
        simp
        omega
      rw [this]
      simp
    · simp [hi]
  have hull : ∀ y : BitVec 64, y.toNat % 2 ^ (8 * k) = 0 → ullToSigned k y = 0 := by
    intro y hy
    unfold ullToSigned
    rw [toSigned_unique hk (y := 0) (q := (y.toNat / 2 ^ (8 * k) : Nat))]
    · unfold InRange
      rcases hk' with rfl | rfl | rfl | rfl <;> decide
    · have := Nat.div_add_mod y.toNat (2 ^ (8 * k))
      rw [hy] at this
      have := congrArg (Int.ofNat ·) this
      simp at this ⊢
      omega
  have hzero : ullToSigned k (BitVec.ofNat 64 (256 ^ (8 - k) * c)) = 0 := by
    apply hull
    rw [BitVec.toNat_ofNat]
    rcases hk' with rfl | rfl | rfl | rfl <;> simp <;> omega
  cases s
  · simp only [fromSignedModeImpl, htest]
    simp [hzero]; rfl
  · simp only [fromSignedModeImpl, htest]
    simp [hzero]; rfl
  · simp only [fromSignedModeImpl, htest]
    simp [hzero]; rfl
  · simp only [fromSignedModeImpl, if_true]
    have : ullToSigned k (BitVec.ofNat 64 (256 ^ (8 - k) * c) - signMask k) = -(2 ^ (8 * k - 1) : Int) := by
      unfold ullToSigned
      rw [BitVec.toNat_sub, signMask_toNat hk, BitVec.toNat_ofNat]
      refine toSigned_unique hk (q := ((2 ^ 64 - 2 ^ (8 * k - 1) + 256 ^ (8 - k) * c % 2 ^ 64) % 2 ^ 64 / 2 ^ (8 * k) + 1 : Nat))
        ?_ ?_
      · unfold InRange
        rcases hk' with rfl | rfl | rfl | rfl <;> decide
      · rcases hk' with rfl | rfl | rfl | rfl <;> simp <;> omega
    rw [this]
    rfl

example : readAs ppcEndian .big .twosComplement (.sint 2) [0x12#8, 0x34#8] 0 = .ok (.int 0) :=
  C10_byte_order_macro_only_read rfl rfl (by decide) (by decide) (by decide) (by decide)

/-- C10, outside of the partial theorem: on a big-endian host with the macro for the signed mode only, the bytes written
for an integer of at most four bytes are not a function of the integer: they come from an uninitialised variable. -/
theorem C10_signed_macro_only_write {P : Platform} (hP : P.Valid) (hb : P.host = .big) {e : Endian}
    (he : P.endianMacro ≠ some e) {s : Mode} (hm : P.signedMacro = some s) {k : Nat} (hk1 : 1 ≤ k) (hk4 : k ≤ 4)
    (z : Int) {mem : Mem} {off : Nat} (h : off + k ≤ mem.length) :
    writeAs P e s (.sint k) (.int z) mem off =
      .ok (splice mem off (wireBytes e k (wireValue .big ((P.junkBytes 8).drop (8 - k))))) := by
  rw [writeAs, writeSint, toSignedMode, if_pos hm, hb, objBytes_eq,
    Mem.wrN_ok (by simp [junkBytes_length]; omega), except_bind_ok, except_bind_ok, ofObjBytes_eq,
    toEndianess, if_neg he, toEndianessImpl_ok hP (by decide) e mem off _ k h, ← wireBytes_mod]
  congr 3
  rw [BitVec.toNat_ofNat]
  have hj : splice (P.junkBytes 8) 0 (wireBytes .big k (BitVec.ofInt (8 * k) z).toNat) =
      (wireBytes .big k (BitVec.ofInt (8 * k) z).toNat ++ ((P.junkBytes 8).drop k).take (8 - k - k)) ++
        (P.junkBytes 8).drop (8 - k) := by
    simp only [splice, List.take_zero, List.nil_append, wireBytes_length, Nat.zero_add]
    rw [List.append_assoc]
    congr 1
    have := List.take_append_drop (8 - k - k) ((P.junkBytes 8).drop k)
    rw [List.drop_drop] at this
    rw [show k + (8 - k - k) = 8 - k by omega] at this
    exact this.symm
  rw [hj]
  generalize wireBytes .big k (BitVec.ofInt (8 * k) z).toNat ++ ((P.junkBytes 8).drop k).take (8 - k - k) = A
  have hlen : ((P.junkBytes 8).drop (8 - k)).length = k := by simp [junkBytes_length]; omega
  have hlt := wireValue_lt .big ((P.junkBytes 8).drop (8 - k))
  rw [hlen] at hlt
  have hd : (256 : Nat) ^ k ∣ 2 ^ 64 := by
    obtain ⟨H, B, _, _, _, _, _, _, e5, e6⟩ := pows (k := k) ⟨hk1, by omega⟩
    rw [e5, e6]; exact Nat.dvd_mul_right _ _
  rw [Nat.mod_mod_of_dvd _ hd]
  simp only [wireValue, List.reverse_append] at hlt ⊢
  rw [leValue_append, List.length_reverse, hlen, Nat.add_mul_mod_self_left, Nat.mod_eq_of_lt hlt]

example : writeAs ppcSigned .big .twosComplement (.sint 2) (.int (-300)) [9#8, 9#8, 9#8] 1 =
    .ok [9#8, 0xaa#8, 0xaa#8] := by
  rw [C10_signed_macro_only_write ⟨by decide, by decide, (by intro e h; cases h), by intro e h; cases h; rfl⟩ rfl
    (by decide) rfl (by decide) (by decide) _ (by decide)]
  rfl

/-- C10, outside of the partial theorem, reading: on a big-endian host with the macro for the signed mode only, the
integer read is 0 whatever the bytes. -/
theorem C10_signed_macro_only_read {P : Platform} (hP : P.Valid) (hb : P.host = .big) {e : Endian}
    (he : P.endianMacro ≠ some e) {s : Mode} (hm : P.signedMacro = some s) {k : Nat} (hk1 : 1 ≤ k) (hk4 : k ≤ 4)
    {mem : Mem} {off : Nat} (h : off + k ≤ mem.length) :
    readAs P e s (.sint k) mem off = .ok (.int 0) := by
  have hk : SizeOk k := ⟨hk1, by omega⟩
  have hk' : k = 1 ∨ k = 2 ∨ k = 3 ∨ k = 4 := by omega
  have hlt := wireValue_lt e (slice mem off k)
  rw [slice_length h] at hlt
  rw [readAs, readSint, fromEndianess_ok hP 64 e mem off k (by omega) (fun h' => absurd h' he) h, except_bind_ok,
    fromSignedMode, if_pos hm, hb, objBytes_eq, Mem.rdN_ok (by simp; omega), except_bind_ok, except_bind_ok,
    ofObjBytes_eq, high_bytes (by omega)]
  generalize wireValue e (slice mem off k) = c at hlt
  have : (BitVec.ofNat 64 c).toNat / 256 ^ (8 - k) = 0 := by
    rw [BitVec.toNat_ofNat]
    rcases hk' with rfl | rfl | rfl | rfl <;> simp at hlt ⊢ <;> omega
  rw [this]
  rcases hk' with rfl | rfl | rfl | rfl <;> rfl

example : readAs ppcSigned .little .twosComplement (.sint 4) [1#8, 2#8, 3#8, 4#8] 0 = .ok (.int 0) :=
  C10_signed_macro_only_read ⟨by decide, by decide, (by intro e h; cases h), by intro e h; cases h; rfl⟩ rfl
    (by decide) rfl (by decide) (by decide) (by decide)

end Upd
