import Verif.Lemmas.Endian
import Verif.Model.Signed

/-! Helper lemmas: the model of signed_representation.hpp computes the textbook codes. -/

namespace Upd
open Spec

/-- Sizes of the signed integer types. -/
def SizeOk (k : Nat) : Prop := 1 ≤ k ∧ k ≤ 8

instance (k : Nat) : Decidable (SizeOk k) := inferInstanceAs (Decidable (_ ∧ _))

theorem SizeOk.cases {k : Nat} (h : SizeOk k) :
    k = 1 ∨ k = 2 ∨ k = 3 ∨ k = 4 ∨ k = 5 ∨ k = 6 ∨ k = 7 ∨ k = 8 := by
  obtain ⟨h1, h2⟩ := h; omega

theorem signMask_toNat {k : Nat} (h : SizeOk k) : (signMask k).toNat = 2 ^ (8 * k - 1) := by
  rcases h.cases with rfl | rfl | rfl | rfl | rfl | rfl | rfl | rfl <;> rfl

theorem magnitudeMask_toNat {k : Nat} (h : SizeOk k) : (magnitudeMask k).toNat = 2 ^ (8 * k - 1) - 1 := by
  rcases h.cases with rfl | rfl | rfl | rfl | rfl | rfl | rfl | rfl <;> rfl

theorem toSigned_eq (k : Nat) (z : Int) : toSigned k z = Int.bmod z (2 ^ (8 * k)) := by
  simp [toSigned, BitVec.toInt_ofInt]

/-- Powers of two attached to a size: `H` the half range, `2 * H` the number of codes, `2 ^ 64 = 2 * H * B`. -/
theorem pows {k : Nat} (h : SizeOk k) : ∃ H B : Nat, 1 ≤ H ∧ 1 ≤ B ∧ (2 : Nat) ^ (8 * k - 1) = H ∧
    (2 : Nat) ^ (8 * k) = 2 * H ∧ (2 : Int) ^ (8 * k - 1) = (H : Int) ∧ (2 : Int) ^ (8 * k) = 2 * (H : Int) ∧
    (256 : Nat) ^ k = 2 * H ∧ 2 ^ 64 = 2 * H * B := by
  obtain ⟨h1, h2⟩ := h
  have e1 : (2 : Nat) ^ (8 * k) = 2 * 2 ^ (8 * k - 1) := by
    rw [← Nat.pow_succ']; congr 1; omega
  refine ⟨2 ^ (8 * k - 1), 2 ^ (64 - 8 * k), Nat.two_pow_pos _, Nat.two_pow_pos _, rfl, e1, ?_, ?_, ?_, ?_⟩
  · simp
  · have := congrArg (Nat.cast : Nat → Int) e1
    simpa using this
  · rw [← e1, Nat.pow_mul]
  · rw [← e1, ← Nat.pow_add]; congr 1; omega

theorem toSigned_unique {k : Nat} (h : SizeOk k) {y z q : Int} (hy : InRange k y) (hz : z = y + 2 ^ (8 * k) * q) :
    toSigned k z = y := by
  obtain ⟨H, B, hH, hB, e1, e2, e3, e4, e5, e6⟩ := pows h
  unfold InRange at hy
  rw [e3] at hy
  rw [toSigned_eq, hz]
  have hc : (2 : Int) ^ (8 * k) = ((2 ^ (8 * k) : Nat) : Int) := by simp
  rw [hc, Int.add_mul_bmod_self_left]
  apply Int.bmod_eq_of_le_mul_two
  · rw [e2]; omega
  · rw [e2]; omega

theorem toSigned_of_inRange {k : Nat} (h : SizeOk k) {z : Int} (hz : InRange k z) : toSigned k z = z :=
  toSigned_unique h (q := 0) hz (by simp)

theorem and_pow_ne_zero {x i : Nat} (h : x < 2 * 2 ^ i) : x &&& 2 ^ i ≠ 0 ↔ 2 ^ i ≤ x := by
  constructor
  · intro hne
    apply Nat.le_of_not_lt
    intro hlt
    apply hne
    apply Nat.eq_of_testBit_eq
    intro j
    rw [Nat.testBit_and, Nat.testBit_two_pow, Nat.zero_testBit]
    by_cases hj : i = j
    · subst hj; simp [Nat.testBit_lt_two_pow hlt]
    · simp [hj]
  · intro hle h0
    have hx : x = 2 ^ i + (x - 2 ^ i) := by omega
    have : (x &&& 2 ^ i).testBit i = true := by
      rw [Nat.testBit_and, Nat.testBit_two_pow_self, Bool.and_true, hx, Nat.testBit_two_pow_add_eq,
        Nat.testBit_lt_two_pow (by omega)]
      rfl
    rw [h0] at this
    simp at this

theorem sign_test {k c : Nat} (h : SizeOk k) (hc : c < 2 ^ (8 * k)) :
    (BitVec.ofNat 64 c &&& signMask k ≠ 0#64) ↔ 2 ^ (8 * k - 1) ≤ c := by
  obtain ⟨H, B, hH, hB, e1, e2, e3, e4, e5, e6⟩ := pows h
  have hc64 : c < 2 ^ 64 := by
    rw [e6, ← e2]; exact Nat.lt_of_lt_of_le hc (Nat.le_mul_of_pos_right _ hB)
  rw [← and_pow_ne_zero (x := c) (i := 8 * k - 1) (by rw [e1, ← e2]; exact hc)]
  apply not_congr
  constructor
  · intro he
    have := congrArg BitVec.toNat he
    rw [BitVec.toNat_and, signMask_toNat h, BitVec.toNat_ofNat, Nat.mod_eq_of_lt hc64] at this
    simpa using this
  · intro he
    apply BitVec.eq_of_toNat_eq
    rw [BitVec.toNat_and, signMask_toNat h, BitVec.toNat_ofNat, Nat.mod_eq_of_lt hc64, he]
    simp

theorem cNeg_ok {P : Platform} {k : Nat} {z : Int} (h : SizeOk k) (hz : -(2 ^ (8 * k - 1) : Int) < z) :
    cNeg P k z = .ok (-z) := by
  unfold cNeg
  rw [if_neg]
  have hle : (2 : Nat) ^ (8 * k - 1) ≤ 2 ^ (8 * max k P.intBytes - 1) :=
    Nat.pow_le_pow_right (by decide) (by have := h.1; omega)
  have hle' : (2 : Int) ^ (8 * k - 1) ≤ 2 ^ (8 * max k P.intBytes - 1) := by
    have := Int.ofNat_le.mpr hle
    simpa using this
  omega

theorem cNeg_min {P : Platform} {k : Nat} (h : SizeOk k) :
    cNeg P k (-(2 ^ (8 * k - 1) : Int)) =
      if P.intBytes ≤ k then .error .signedOverflow else .ok (2 ^ (8 * k - 1) : Int) := by
  unfold cNeg
  rw [Int.neg_neg]
  by_cases hk : P.intBytes ≤ k
  · rw [if_pos hk, if_pos]
    rw [Nat.max_eq_left hk]
    exact Int.le_refl _
  · rw [if_neg hk, if_neg]
    have hlt : (2 : Nat) ^ (8 * k - 1) < 2 ^ (8 * max k P.intBytes - 1) :=
      Nat.pow_lt_pow_right (by decide) (by have := h.1; omega)
    have := Int.ofNat_lt.mpr hlt
    simp at this
    omega

theorem fromSignedModeImpl_spec (P : Platform) (s : Mode) {k c : Nat} (h : SizeOk k) (hc : c < 2 ^ (8 * k)) :
    fromSignedModeImpl P s k (BitVec.ofNat 64 c) =
      if s = .twosComplement ∧ c = 2 ^ (8 * k - 1) ∧ P.intBytes ≤ k then .error .signedOverflow
      else .ok (signedValue s k c) := by
  have hsign := sign_test h hc
  have hmm := magnitudeMask_toNat h
  have hsm := signMask_toNat h
  have hcneg := @cNeg_ok P k
  have hcmin := @cNeg_min P k h
  have huniq := @toSigned_unique k h
  have hself := @toSigned_of_inRange k h
  have hand : c &&& (2 ^ (8 * k - 1) - 1) = c % 2 ^ (8 * k - 1) := Nat.and_two_pow_sub_one_eq_mod _ _
  obtain ⟨H, B, hH, hB, e1, e2, e3, e4, e5, e6⟩ := pows h
  unfold InRange at huniq hself
  rw [e1] at hsign hmm hsm hand
  rw [e2] at hc
  rw [e3] at hcmin huniq hself
  rw [e4] at huniq
  rw [e3] at hcneg
  have hHB : H ≤ H * B := Nat.le_mul_of_pos_right _ hB
  have hc64 : c < 2 ^ 64 := by rw [e6, Nat.mul_assoc]; omega
  have hcn : (BitVec.ofNat 64 c).toNat = c := by rw [BitVec.toNat_ofNat, Nat.mod_eq_of_lt hc64]
  cases s <;> simp only [fromSignedModeImpl, signedValue, e1, e3, e4, ullToSigned, hcn, reduceCtorEq, false_and, if_false,
    true_and]
  · -- sign-magnitude
    by_cases hs : H ≤ c
    · rw [if_pos (hsign.mpr hs), if_neg (by omega), BitVec.toNat_and, hcn, hmm, hand]
      have hmod : c % H = c - H := by
        rw [Nat.mod_eq_sub_mod hs, Nat.mod_eq_of_lt (by omega)]
      rw [hmod, hself (by omega), hcneg h (by omega)]
      show Except.ok _ = _
      rw [hself (by omega)]
      congr 1
      omega
    · rw [if_neg (fun hh => hs (hsign.mp hh)), if_pos (by omega), hself (by omega)]
  · -- ones' complement
    by_cases hs : H ≤ c
    · rw [if_pos (hsign.mpr hs), if_neg (by omega), BitVec.toNat_not, hcn]
      rw [huniq (y := 2 * H - 1 - c) (q := (B : Int) - 1) (by omega)
        (by rw [e6, Int.mul_sub]
            have : ((2 * H * B - 1 - c : Nat) : Int) = 2 * (H : Int) * B - 1 - c := by
              rw [Nat.mul_assoc] at *
              have hx : c + 1 ≤ 2 * (H * B) := by omega
              rw [Int.ofNat_sub (by omega), Int.ofNat_sub (by omega)]
              simp [Int.mul_assoc]
            rw [this]; omega)]
      rw [hcneg h (by omega)]
      show Except.ok _ = _
      rw [hself (by omega)]
    · rw [if_neg (fun hh => hs (hsign.mp hh)), if_pos (by omega), hself (by omega)]
  · -- two's complement
    by_cases hs : H ≤ c
    · rw [if_pos (hsign.mpr hs), if_neg (by omega : ¬ c < H)]
      have hval : (~~~BitVec.ofNat 64 c + 1#64).toNat = 2 * H * B - c := by
        rw [BitVec.toNat_add, BitVec.toNat_not, hcn]
        have hx : 2 ^ 64 - 1 - c + (1#64).toNat = 2 ^ 64 - c := by
          have : (1#64).toNat = 1 := rfl
          omega
        rw [hx, e6, Nat.mod_eq_of_lt]
        rw [Nat.mul_assoc] at *
        omega
      have hcast : ((2 * H * B - c : Nat) : Int) = 2 * (H : Int) * B - c := by
        rw [Nat.mul_assoc]
        rw [Int.ofNat_sub (by omega)]
        simp [Int.mul_assoc]
      rw [hval, hcast]
      by_cases hmin : c = H
      · rw [huniq (y := -(H : Int)) (q := (B : Int)) (by omega) (by rw [hmin]; omega), hcmin]
        by_cases hk : P.intBytes ≤ k
        · rw [if_pos hk, if_pos ⟨hmin, hk⟩]; rfl
        · rw [if_neg hk, if_neg (fun hh => hk hh.2)]
          show Except.ok _ = _
          rw [huniq (y := -(H : Int)) (q := 1) (by omega) (by omega)]
          congr 1
          omega
      · rw [if_neg (fun hh => hmin hh.1)]
        rw [huniq (y := 2 * H - c) (q := (B : Int) - 1) (by omega) (by rw [Int.mul_sub]; omega)]
        rw [hcneg h (by omega)]
        show Except.ok _ = _
        rw [hself (by omega)]
        congr 1
        omega
    · rw [if_neg (fun hh => hs (hsign.mp hh)), if_neg (by omega), if_pos (by omega), hself (by omega)]
  · -- offset binary
    congr 1
    have hsub : (BitVec.ofNat 64 c - signMask k).toNat = (2 * H * B - H + c) % (2 * H * B) := by
      rw [BitVec.toNat_sub, hcn, hsm, e6]
    rw [hsub]
    rw [Nat.mul_assoc]
    by_cases hs : H ≤ c
    · have : (2 * (H * B) - H + c) % (2 * (H * B)) = c - H := by
        rw [Nat.mod_eq_sub_mod (by omega), Nat.mod_eq_of_lt (by omega)]
        omega
      rw [this, hself (by omega)]
      omega
    · rw [Nat.mod_eq_of_lt (by omega)]
      rw [huniq (y := (c : Int) - H) (q := (B : Int)) (by omega)
        (by have : ((2 * (H * B) - H + c : Nat) : Int) = 2 * ((H : Int) * B) - H + c := by
              rw [Int.natCast_add, Int.ofNat_sub (by omega)]
              simp
            rw [this, Int.mul_assoc]; omega)]

theorem mod_unique {n r q x : Nat} (hr : r < n) (hx : x = r + n * q) : x % n = r := by
  rw [hx, Nat.add_mul_mod_self_left, Nat.mod_eq_of_lt hr]

theorem ofInt_nonneg_toNat {z : Int} (h0 : 0 ≤ z) (h1 : z < 2 ^ 64) : (BitVec.ofInt 64 z).toNat = z.natAbs := by
  rw [BitVec.toNat_ofInt]
  simp only [Nat.reducePow] at *
  omega

theorem ofInt_neg_toNat {z : Int} (h0 : z < 0) (h1 : -(2 ^ 64) ≤ z) :
    (BitVec.ofInt 64 z).toNat = 2 ^ 64 - z.natAbs := by
  rw [BitVec.toNat_ofInt]
  simp only [Nat.reducePow] at *
  omega

theorem toSignedModeImpl_err (P : Platform) {s : Mode} {k : Nat} (h : SizeOk k) (hs : s ≠ .offsetBinary)
    (hk : P.intBytes ≤ k) : toSignedModeImpl P s k (-(2 ^ (8 * k - 1) : Int)) = .error .signedOverflow := by
  have hcmin := @cNeg_min P k h
  rw [if_pos hk] at hcmin
  obtain ⟨H, B, hH, hB, e1, e2, e3, e4, e5, e6⟩ := pows h
  rw [e3] at hcmin
  cases s <;> simp only [toSignedModeImpl, e3]
  · rw [if_neg (by omega), hcmin]; rfl
  · rw [if_neg (by omega), hcmin]; rfl
  · rw [if_neg (by omega), hcmin]; rfl
  · exact absurd rfl hs

theorem toSignedModeImpl_ok (P : Platform) (s : Mode) {k : Nat} {z : Int} (h : SizeOk k) (hz : InRange k z)
    (hs : s = .offsetBinary ∨ z ≠ -(2 ^ (8 * k - 1) : Int) ∨ k < P.intBytes) :
    ∃ x, toSignedModeImpl P s k z = .ok x ∧ x.toNat % 256 ^ k =
      if s = .signMagnitude ∧ z = -(2 ^ (8 * k - 1) : Int) then 2 ^ (8 * k - 1) else signedCode s k z := by
  have hsm := signMask_toNat h
  have hneg : s ≠ .offsetBinary → cNeg P k z = .ok (-z) := by
    intro hso
    by_cases hmin : z = -(2 ^ (8 * k - 1) : Int)
    · rw [hmin, cNeg_min h, if_neg, Int.neg_neg]
      rcases hs with hs | hs | hs
      · exact absurd hs hso
      · exact absurd hmin hs
      · omega
    · exact cNeg_ok h (by obtain ⟨h1, _⟩ := hz; omega)
  have hor : ∀ n : Nat, n < 2 ^ (8 * k - 1) → n ||| 2 ^ (8 * k - 1) = 2 ^ (8 * k - 1) + n := by
    intro n hn
    have := Nat.two_pow_add_eq_or_of_lt hn 1
    rw [Nat.mul_one] at this
    rw [this, Nat.or_comm]
  obtain ⟨H, B, hH, hB, e1, e2, e3, e4, e5, e6⟩ := pows h
  unfold InRange at hz
  rw [e3] at hz
  have hHB : H ≤ H * B := Nat.le_mul_of_pos_right _ hB
  have e6' : 2 ^ 64 = 2 * (H * B) := by rw [e6, Nat.mul_assoc]
  have hH64 : (H : Int) < 2 ^ 64 := by
    have : ((2 ^ 64 : Nat) : Int) = 2 * ((H * B : Nat) : Int) := by rw [e6']; simp
    have h2 := Int.ofNat_le.mpr hHB
    simp only [Nat.reducePow] at this
    omega
  clear hs
  simp only [e1] at hsm hor
  simp only [e1, e3, e5]
  have hpos : 0 ≤ z → (BitVec.ofInt 64 z).toNat % (2 * H) = z.natAbs := by
    intro h0
    rw [ofInt_nonneg_toNat h0 (by omega), Nat.mod_eq_of_lt (by omega)]
  by_cases h0 : 0 ≤ z
  · cases s <;> simp only [toSignedModeImpl, if_pos h0, signedCode, if_neg (by omega : ¬ z < 0), e3, reduceCtorEq, false_and, true_and, if_false]
    · rw [if_neg (by omega)]
      exact ⟨_, rfl, hpos h0⟩
    · exact ⟨_, rfl, hpos h0⟩
    · exact ⟨_, rfl, hpos h0⟩
    · refine ⟨_, rfl, ?_⟩
      rw [BitVec.toNat_add, ofInt_nonneg_toNat h0 (by omega), hsm, e6', Nat.mod_eq_of_lt (by omega : z.natAbs + H < _),
        Nat.mod_eq_of_lt (by omega)]
      omega
  · have hn : (BitVec.ofInt 64 (-z)).toNat = z.natAbs := by
      rw [ofInt_nonneg_toNat (by omega) (by omega)]; omega
    have hzn : (BitVec.ofInt 64 z).toNat = 2 * (H * B) - z.natAbs := by
      rw [ofInt_neg_toNat (by omega) (by omega), e6']
    cases s <;> simp only [toSignedModeImpl, if_neg h0, signedCode, if_pos (by omega : z < 0), e1, e2, e3, reduceCtorEq, false_and, true_and, if_false]
    · rw [hneg (by simp)]
      refine ⟨_, rfl, ?_⟩
      rw [BitVec.toNat_or, hn, hsm]
      by_cases hmin : z = -(H : Int)
      · rw [if_pos hmin]
        have : z.natAbs = H := by omega
        rw [this, Nat.or_self, Nat.mod_eq_of_lt (by omega)]
      · rw [if_neg hmin, hor _ (by omega), Nat.mod_eq_of_lt (by omega)]
    · rw [hneg (by simp)]
      refine ⟨_, rfl, ?_⟩
      rw [BitVec.toNat_not, hn, e6']
      apply mod_unique (q := B - 1) (by omega)
      rw [Nat.mul_assoc, Nat.mul_sub]
      omega
    · rw [hneg (by simp)]
      refine ⟨_, rfl, ?_⟩
      have : -(-z - 1) - 1 = z := by omega
      rw [this, hzn]
      apply mod_unique (q := B - 1) (by omega)
      rw [Nat.mul_assoc, Nat.mul_sub]
      omega
    · refine ⟨_, rfl, ?_⟩
      rw [BitVec.toNat_add, hzn, hsm, e6']
      rw [mod_unique (n := 2 * (H * B)) (r := H - z.natAbs) (q := 1) (by omega) (by omega),
        Nat.mod_eq_of_lt (by omega)]
      omega

theorem ofInt_small_toNat {k : Nat} {z : Int} (h : SizeOk k) (hz : InRange k z) :
    (BitVec.ofInt (8 * k) z).toNat = signedCode .twosComplement k z := by
  obtain ⟨H, B, hH, hB, e1, e2, e3, e4, e5, e6⟩ := pows h
  unfold InRange at hz
  rw [e3] at hz
  rw [BitVec.toNat_ofInt, e2]
  simp only [signedCode, e2]
  by_cases h0 : 0 ≤ z
  · rw [if_neg (by omega), Int.emod_eq_of_lt h0 (by omega)]
    omega
  · rw [if_pos (by omega)]
    have : z % ((2 * H : Nat) : Int) = z + 2 * H := by
      rw [← Int.add_emod_right, Int.emod_eq_of_lt (by omega) (by omega)]
      omega
    rw [this]
    omega

theorem signedCode_lt {s : Mode} {k : Nat} {z : Int} (h : SizeOk k) (hz : Representable s k z) :
    signedCode s k z < 256 ^ k := by
  obtain ⟨H, B, hH, hB, e1, e2, e3, e4, e5, e6⟩ := pows h
  cases s <;> simp only [Representable, InRange, signedCode, e1, e2, e3, e5] at hz ⊢
  · split <;> omega
  · split <;> omega
  · split <;> omega
  · omega

theorem signedValue_signedCode {s : Mode} {k : Nat} {z : Int} (h : SizeOk k) (hz : Representable s k z) :
    signedValue s k (signedCode s k z) = z := by
  obtain ⟨H, B, hH, hB, e1, e2, e3, e4, e5, e6⟩ := pows h
  cases s <;> simp only [Representable, InRange, signedCode, signedValue, e1, e2, e3, e4] at hz ⊢
  · split <;> split <;> omega
  · split <;> split <;> omega
  · split <;> split <;> omega
  · omega

theorem signedValue_inRange {s : Mode} {k c : Nat} (h : SizeOk k) (hc : c < 256 ^ k) :
    Representable s k (signedValue s k c) := by
  obtain ⟨H, B, hH, hB, e1, e2, e3, e4, e5, e6⟩ := pows h
  cases s <;> simp only [Representable, InRange, signedValue, e1, e3, e4, e5] at hc ⊢
  · split <;> omega
  · split <;> omega
  · split <;> omega
  · omega

theorem representable_inRange {s : Mode} {k : Nat} {z : Int} (hz : Representable s k z) : InRange k z := by
  cases s <;> simp only [Representable, InRange] at hz ⊢ <;> omega

/-- The native path of the signed conversions is right if the host is little-endian or if the type is as wide as
`unsigned long long`. -/
def NativeSOk (P : Platform) (s : Mode) (k : Nat) : Prop := P.signedMacro = some s → P.host = .little ∨ k = 8

theorem fromSignedMode_native {P : Platform} (hP : P.Valid) {s : Mode} {k c : Nat} (h : SizeOk k)
    (hm : P.signedMacro = some s) (hn : P.host = .little ∨ k = 8) (hc : c < 256 ^ k) :
    fromSignedMode P s k (BitVec.ofNat 64 c) = .ok (signedValue s k c) := by
  have hs := hP.signed s hm
  subst hs
  unfold fromSignedMode
  rw [if_pos hm]
  have huniq := @toSigned_unique k h
  have hself := @toSigned_of_inRange k h
  have hk8 := h.2
  obtain ⟨H, B, hH, hB, e1, e2, e3, e4, e5, e6⟩ := pows h
  unfold InRange at huniq hself
  rw [e3] at huniq hself
  rw [e4] at huniq
  have hHB : H ≤ H * B := Nat.le_mul_of_pos_right _ hB
  have hc64 : c < 2 ^ 64 := by rw [e6, Nat.mul_assoc]; omega
  rw [BitVec.toNat_ofNat, Nat.mod_eq_of_lt hc64, objBytes_eq, Mem.rdN_ok (by simp; omega)]
  show Except.ok _ = _
  congr 1
  rw [ofObjBytes_eq]
  have hv : wireValue P.host (slice (wireBytes P.host 8 c) 0 k) = c := by
    rcases hn with hl | hl
    · rw [hl]
      simp only [wireValue, wireBytes, slice, List.drop_zero]
      rw [leDigits_take hk8, leValue_leDigits hc]
    · subst hl
      rw [slice_all (by simp), wireValue_wireBytes hc]
  rw [hv]
  simp only [signedValue, e1, e4]
  by_cases hlt : c < H
  · rw [if_pos hlt, hself (by omega)]
  · rw [if_neg hlt, huniq (y := (c : Int) - 2 * H) (q := 1) (by omega) (by omega)]

theorem fromSignedMode_spec {P : Platform} (hP : P.Valid) (s : Mode) {k c : Nat} (h : SizeOk k) (hc : c < 256 ^ k)
    (hn : NativeSOk P s k) :
    fromSignedMode P s k (BitVec.ofNat 64 c) =
      if P.signedMacro ≠ some s ∧ s = .twosComplement ∧ c = 2 ^ (8 * k - 1) ∧ P.intBytes ≤ k then
        .error .signedOverflow
      else .ok (signedValue s k c) := by
  by_cases hm : P.signedMacro = some s
  · rw [fromSignedMode_native hP h hm (hn hm) hc, if_neg (fun hh => hh.1 hm)]
  · have h2 : (2 : Nat) ^ (8 * k) = 256 ^ k := by rw [Nat.pow_mul]
    unfold fromSignedMode
    rw [if_neg hm, fromSignedModeImpl_spec P s h (by rw [h2]; exact hc)]
    simp [hm]

theorem junkBytes_length (P : Platform) (n : Nat) : (P.junkBytes n).length = n := by
  simp [Platform.junkBytes]

theorem toSignedMode_native {P : Platform} (hP : P.Valid) {s : Mode} {k : Nat} {z : Int} (h : SizeOk k)
    (hm : P.signedMacro = some s) (hn : P.host = .little ∨ k = 8) (hz : InRange k z) :
    ∃ x, toSignedMode P s k z = .ok x ∧ x.toNat % 256 ^ k = signedCode s k z := by
  have hs := hP.signed s hm
  subst hs
  have hlt : signedCode .twosComplement k z < 256 ^ k := signedCode_lt h hz
  have hk8 := h.2
  unfold toSignedMode
  rw [if_pos hm, ofInt_small_toNat h hz, objBytes_eq, Mem.wrN_ok (by simp [junkBytes_length]; omega)]
  refine ⟨_, rfl, ?_⟩
  rw [BitVec.toNat_ofNat, ofObjBytes_eq]
  have hd : (256 : Nat) ^ k ∣ 2 ^ 64 := by
    obtain ⟨H, B, _, _, _, _, _, _, e5, e6⟩ := pows h
    rw [e5, e6]; exact Nat.dvd_mul_right _ _
  rw [Nat.mod_mod_of_dvd _ hd]
  rcases hn with hl | hl
  · rw [hl]
    simp only [wireValue, wireBytes, splice, List.take_zero, List.nil_append]
    rw [leValue_append, leDigits_length, Nat.add_mul_mod_self_left, leValue_leDigits hlt, Nat.mod_eq_of_lt hlt]
  · subst hl
    have : splice (P.junkBytes 8) 0 (wireBytes P.host 8 (signedCode .twosComplement 8 z)) =
        wireBytes P.host 8 (signedCode .twosComplement 8 z) := by
      simp only [splice, List.take_zero, List.nil_append, wireBytes_length]
      rw [List.drop_eq_nil_of_le (by rw [junkBytes_length]; omega), List.append_nil]
    rw [this, wireValue_wireBytes hlt, Nat.mod_eq_of_lt hlt]

end Upd
