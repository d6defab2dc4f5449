import Verif.Lemmas.Scalar
import Verif.Props.Integers
import Verif.Spec.Float

/-!
# Floating-point arguments (C72)

`writeFloat P e s F x mem off` is `write_as<e, s>(x, &mem[off])` for `x` of type `F` (`float` or `double`), and
`readFloat` the corresponding `read_as`.
-/

namespace Upd
open Spec

theorem roundNat_exact {p m j : Nat} (hm : m < 2 ^ p) : roundNat p (m * 2 ^ j) = m * 2 ^ j := by
  unfold roundNat
  split
  · rfl
  · rename_i h
    have hdvd : 2 ^ (Nat.log2 (m * 2 ^ j) + 1 - p) ∣ m * 2 ^ j := by
      by_cases h0 : m * 2 ^ j = 0
      · rw [h0]; exact Nat.dvd_zero _
      · refine Nat.dvd_trans (Nat.pow_dvd_pow 2 ?_) (Nat.dvd_mul_left (2 ^ j) m)
        have hlt : m * 2 ^ j < 2 ^ (p + j) := by
          rw [Nat.pow_add]; exact Nat.mul_lt_mul_of_pos_right hm (Nat.two_pow_pos _)
        have := (Nat.log2_lt h0).mpr hlt
        omega
    have hr : m * 2 ^ j % 2 ^ (Nat.log2 (m * 2 ^ j) + 1 - p) = 0 := Nat.mod_eq_zero_of_dvd hdvd
    have hp := Nat.two_pow_pos (Nat.log2 (m * 2 ^ j) + 1 - p)
    simp only [hr]
    rw [if_neg (by omega), Nat.div_mul_cancel hdvd]

theorem roundNat_integral {p m j e : Nat} (hm : m < 2 ^ p) :
    roundNat p (m * 2 ^ j / 2 ^ e) = m * 2 ^ j / 2 ^ e := by
  by_cases h : e ≤ j
  · have : m * 2 ^ j / 2 ^ e = m * 2 ^ (j - e) := by
      rw [Nat.mul_div_assoc _ (Nat.pow_dvd_pow 2 h), Nat.pow_div h (by omega)]
    rw [this, roundNat_exact hm]
  · have h2 : m * 2 ^ j / 2 ^ e < 2 ^ p := by
      have : 2 ^ e = 2 ^ j * 2 ^ (e - j) := by rw [← Nat.pow_add]; congr 1; omega
      rw [this, Nat.mul_comm m, Nat.mul_div_mul_left _ _ (Nat.two_pow_pos _)]
      exact Nat.lt_of_le_of_lt (Nat.div_le_self _ _) hm
    have := roundNat_exact (j := 0) h2
    simpa using this

theorem toUll_ok {x : FVal} (h0 : 0 ≤ x.num) (h1 : x.num.natAbs / 2 ^ x.exp < 2 ^ 64) :
    x.toUll = .ok (BitVec.ofNat 64 (x.num.natAbs / 2 ^ x.exp)) := by
  unfold FVal.toUll
  have ht : x.num.tdiv (2 ^ x.exp) = ((x.num.natAbs / 2 ^ x.exp : Nat) : Int) := by
    rw [Int.tdiv_eq_ediv_of_nonneg h0, Int.natCast_ediv, Int.natAbs_of_nonneg h0]
    simp
  rw [ht]
  generalize x.num.natAbs / 2 ^ x.exp = n at *
  simp only []
  rw [if_pos (by omega)]
  congr 1

theorem float_through_memory {P : Platform} (hP : P.Valid) {e : Endian} {s : Mode} (hs : Supported P e s)
    (hm : P.signedMacro ≠ some s) {F : FFmt} (hF : SizeOk F.size) {x : FVal} {v : BitVec 64}
    (hv : toSignedModeF F s x = .ok v) {mem : Mem} {off : Nat} (h : off + F.size ≤ mem.length) :
    ∃ mem', writeFloat P e s F x mem off = .ok mem' ∧
      readFloat P e s F mem' off = .ok (fromSignedModeF F s (BitVec.ofNat 64 (v.toNat % 256 ^ F.size))) := by
  have hn : NativeOk P 64 F.size e := by
    rcases supported_cases F.size hs with h | h
    · exact h.1
    · exact absurd h.2.1 hm
  have hk := hF.2
  refine ⟨_, by unfold writeFloat; rw [hv]; exact toEndianess_ok hP (by omega) e mem off v F.size (by omega) hn h, ?_⟩
  have hsl := slice_splice_same (m := mem) (off := off) (bs := wireBytes e F.size v.toNat) (by simpa using h)
  rw [wireBytes_length] at hsl
  unfold readFloat
  rw [fromEndianess_ok hP 64 e _ off F.size (by omega) hn (by rw [splice_length (by simpa using h)]; exact h), hsl]
  rw [← wireBytes_mod, wireValue_wireBytes (Nat.mod_lt _ (Nat.pow_pos (by omega)))]
  rfl

theorem integralPart_nonneg {x : FVal} (h : 0 ≤ x.num) : IntegralPart x ((x.num.natAbs / 2 ^ x.exp : Nat) : Int) := by
  refine ⟨fun _ => ?_, fun h' => by omega⟩
  have h1 : x.num.natAbs / 2 ^ x.exp * 2 ^ x.exp ≤ x.num.natAbs := Nat.div_mul_le_self _ _
  have h2 : x.num.natAbs < (x.num.natAbs / 2 ^ x.exp + 1) * 2 ^ x.exp :=
    Nat.lt_mul_of_div_lt (Nat.lt_succ_self _) (Nat.two_pow_pos _)
  have h1' := Int.ofNat_le.mpr h1
  have h2' := Int.ofNat_lt.mpr h2
  rw [Int.natAbs_of_nonneg h] at h1' h2'
  simp only [Int.natCast_mul, Int.natCast_pow, Int.natCast_add] at h1' h2'
  exact ⟨h1', h2'⟩

theorem integralPart_neg {x : FVal} (h : x.num < 0) : IntegralPart x (-((x.num.natAbs / 2 ^ x.exp : Nat) : Int)) := by
  refine ⟨fun h' => by omega, fun _ => ?_⟩
  have h1 : x.num.natAbs / 2 ^ x.exp * 2 ^ x.exp ≤ x.num.natAbs := Nat.div_mul_le_self _ _
  have h2 : x.num.natAbs < (x.num.natAbs / 2 ^ x.exp + 1) * 2 ^ x.exp :=
    Nat.lt_mul_of_div_lt (Nat.lt_succ_self _) (Nat.two_pow_pos _)
  have h1' := Int.ofNat_le.mpr h1
  have h2' := Int.ofNat_lt.mpr h2
  have ha : (x.num.natAbs : Int) = -x.num := by omega
  rw [ha] at h1' h2'
  simp only [Int.natCast_mul, Int.natCast_pow, Int.natCast_add] at h1' h2'
  generalize ((x.num.natAbs / 2 ^ x.exp : Nat) : Int) = q at *
  have e1 : (-q) * 2 ^ x.exp = -(q * 2 ^ x.exp) := Int.neg_mul _ _
  have e2 : (-q - 1) * 2 ^ x.exp = -((q + 1) * 2 ^ x.exp) := by rw [← Int.neg_mul]; congr 1; omega
  rw [e1, e2]
  have h1'' : q * 2 ^ x.exp ≤ -x.num := h1'
  have h2'' : -x.num < (q + 1) * 2 ^ x.exp := h2'
  exact ⟨by omega, by omega⟩

/-! ## C72 -/

/-- C72, the full statement: a floating-point number which fits in as many bits as its type has is read back as it was
written, in every signed mode in which the program compiles. -/
def C72_Statement : Prop :=
  ∀ (P : Platform), P.Valid → ∀ (e : Endian) (s : Mode), Supported P e s → s ≠ .twosComplement →
    ∀ (F : FFmt), F = .float ∨ F = .double → ∀ (x : FVal), FHolds F x → FBounded F x →
    ∀ (mem : Mem) (off : Nat), off + F.size ≤ mem.length →
    ∃ mem' y, writeFloat P e s F x mem off = .ok mem' ∧ readFloat P e s F mem' off = .ok y ∧ SameNumber x y

/-- C72 does not hold: 1.5 is read back as 1. -/
theorem C72_full_statement_is_false : ¬ C72_Statement := by
  intro h
  obtain ⟨mem', y, h1, h2, h3⟩ := h pc pc_valid .little .signMagnitude (Or.inl rfl) (by decide) .float (Or.inl rfl)
    ⟨3, 1⟩ ⟨3, 0, by decide, by decide⟩ (by unfold FBounded; decide) (List.replicate 4 0#8) 0 (by decide)
  have e1 : writeFloat pc .little .signMagnitude .float ⟨3, 1⟩ (List.replicate 4 0#8) 0 = .ok [1#8, 0#8, 0#8, 0#8] := by
    rfl
  rw [e1] at h1
  injection h1 with h1
  subst h1
  have e2 : readFloat pc .little .signMagnitude .float [1#8, 0#8, 0#8, 0#8] 0 = .ok ⟨1, 0⟩ := by rfl
  rw [e2] at h2
  injection h2 with h2
  subst h2
  exact absurd h3 (by unfold SameNumber; decide)

/-- C72, what holds: in sign-magnitude, and in ones' complement for non-negative numbers and for `double`, the number is
read back without its fractional part. Missing: the fractional part, negative `float` in ones' complement
(`C72_ones_complement_negative`), offset binary (`C72_offset_binary_nonnegative`,
`C72_offset_binary_negative`, `C72_offset_binary_largest`). -/
theorem C72_truncated_partial {P : Platform} (hP : P.Valid) {e : Endian} {s : Mode} (hs : Supported P e s)
    {F : FFmt} (hF : F = .float ∨ F = .double) {x : FVal}
    (hsx : s = .signMagnitude ∨ (s = .onesComplement ∧ (0 ≤ x.num ∨ F = .double)))
    (hx : FHolds F x) (hb : FBounded F x) {mem : Mem} {off : Nat} (h : off + F.size ≤ mem.length) :
    ∃ mem' t, writeFloat P e s F x mem off = .ok mem' ∧ readFloat P e s F mem' off = .ok ⟨t, 0⟩ ∧
      IntegralPart x t := by
  have hm : P.signedMacro ≠ some s := by
    intro h'
    have := hP.signed s h'
    rcases hsx with h | h <;> simp_all
  have hk : SizeOk F.size := by rcases hF with rfl | rfl <;> exact ⟨by decide, by decide⟩
  have hr : roundNat F.prec (x.num.natAbs / 2 ^ x.exp) = x.num.natAbs / 2 ^ x.exp := by
    obtain ⟨m, j, hmp, hj⟩ := hx
    rw [hj]; exact roundNat_integral hmp
  have hlt : x.num.natAbs / 2 ^ x.exp < 2 ^ (8 * F.size - 1) :=
    Nat.div_lt_of_lt_mul (by rw [Nat.mul_comm]; exact hb)
  have hip := @integralPart_nonneg x
  have hin := @integralPart_neg x
  have htu := @toUll_ok x
  have htn := @toUll_ok x.neg
  have hneg : x.neg.num.natAbs / 2 ^ x.neg.exp = x.num.natAbs / 2 ^ x.exp := by
    simp [FVal.neg]
  rw [hneg] at htn
  have hnn : x.neg.num = -x.num := rfl
  generalize x.num.natAbs / 2 ^ x.exp = n at *
  have hor : n ||| 2 ^ (8 * F.size - 1) = 2 ^ (8 * F.size - 1) + n := by
    have := Nat.two_pow_add_eq_or_of_lt hlt 1
    rw [Nat.mul_one] at this
    rw [this, Nat.or_comm]
  have hand : (2 ^ (8 * F.size - 1) + n) &&& (2 ^ (8 * F.size - 1) - 1) = n := by
    rw [Nat.and_two_pow_sub_one_eq_mod, Nat.add_mod_left, Nat.mod_eq_of_lt hlt]
  have hsm := signMask_toNat hk
  have hmm := magnitudeMask_toNat hk
  have hst := fun c => @sign_test F.size c hk
  have hn64 : n < 2 ^ 64 := by
    rcases hF with rfl | rfl <;> simp [FFmt.float, FFmt.double] at hlt <;> omega
  have hval : ∀ c : Nat, c < 2 ^ (8 * F.size) → (BitVec.ofNat 64 c).toNat = c := by
    intro c hc
    rw [BitVec.toNat_ofNat, Nat.mod_eq_of_lt]
    rcases hF with rfl | rfl <;> simp [FFmt.float, FFmt.double] at hc <;> omega
  have h2 : 2 ^ (8 * F.size) = 2 * 2 ^ (8 * F.size - 1) := by rcases hF with rfl | rfl <;> decide
  by_cases h0 : 0 ≤ x.num
  · -- non-negative
    have hv : toSignedModeF F s x = .ok (BitVec.ofNat 64 n) := by
      rcases hsx with rfl | ⟨rfl, _⟩ <;> simp only [toSignedModeF, if_pos h0, htu h0 hn64]
    obtain ⟨mem', hw, hrd⟩ := float_through_memory hP hs hm hk hv h
    refine ⟨mem', n, hw, ?_, hip h0⟩
    rw [hrd, hval n (by omega), pow256, Nat.mod_eq_of_lt (by omega)]
    have hfrom : fromSignedModeF F s (BitVec.ofNat 64 n) = FVal.ofUll F (BitVec.ofNat 64 n) := by
      have hns := fun hh => (hst n (by omega)).mp hh
      rcases hsx with rfl | ⟨rfl, _⟩ <;> simp only [fromSignedModeF] <;>
        rw [if_neg (fun hh => by have := hns hh; omega)]
    rw [hfrom, FVal.ofUll, hval n (by omega), hr]
  · -- negative
    have hu := htn (by omega) hn64
    rcases hsx with rfl | ⟨rfl, hd⟩
    · have hv : toSignedModeF F .signMagnitude x = .ok (BitVec.ofNat 64 n ||| signMask F.size) := by
        simp only [toSignedModeF, if_neg h0, hu]; rfl
      obtain ⟨mem', hw, hrd⟩ := float_through_memory hP hs hm hk hv h
      refine ⟨mem', _, hw, ?_, hin (by omega)⟩
      rw [hrd, BitVec.toNat_or, hval n (by omega), hsm, hor, pow256, Nat.mod_eq_of_lt (by omega)]
      simp only [fromSignedModeF]
      rw [if_pos ((hst _ (by omega)).mpr (by omega)), FVal.ofUll, BitVec.toNat_and, hmm, hval _ (by omega), hand, hr]
      rfl
    · have hF' : F = .double := by rcases hd with hd | hd; · omega
                                   · exact hd
      subst hF'
      have hv : toSignedModeF .double .onesComplement x = .ok (~~~BitVec.ofNat 64 n) := by
        simp only [toSignedModeF, if_neg h0, hu]; rfl
      obtain ⟨mem', hw, hrd⟩ := float_through_memory hP hs hm hk hv h
      refine ⟨mem', _, hw, ?_, hin (by omega)⟩
      have hback : BitVec.ofNat 64 ((~~~BitVec.ofNat 64 n).toNat % 256 ^ FFmt.double.size) = ~~~BitVec.ofNat 64 n := by
        apply BitVec.eq_of_toNat_eq
        rw [BitVec.toNat_ofNat]
        have := (~~~BitVec.ofNat 64 n).isLt
        show _ % 256 ^ 8 % 2 ^ 64 = _
        omega
      have hneg' : (~~~BitVec.ofNat 64 n) &&& signMask FFmt.double.size ≠ 0#64 := by
        have e : ~~~BitVec.ofNat 64 n = BitVec.ofNat 64 (2 ^ 64 - 1 - n) := by
          apply BitVec.eq_of_toNat_eq
          rw [BitVec.toNat_not, hval n (by omega), BitVec.toNat_ofNat, Nat.mod_eq_of_lt (by omega)]
        rw [e]
        refine (hst _ ?_).mpr ?_
        · show _ < 2 ^ 64
          omega
        · have : n < 2 ^ 63 := hlt
          show 2 ^ 63 ≤ _
          omega
      rw [hrd, hback]
      simp only [fromSignedModeF]
      rw [if_pos hneg', BitVec.not_not, FVal.ofUll, hval n (by omega), hr]
      rfl

/-- C72. In ones' complement, every negative `float` is read back as -2^64. -/
theorem C72_ones_complement_negative {P : Platform} (hP : P.Valid) {e : Endian}
    (hs : Supported P e .onesComplement) {x : FVal} (h0 : x.num < 0) (hb : FBounded .float x)
    {mem : Mem} {off : Nat} (h : off + 4 ≤ mem.length) :
    ∃ mem', writeFloat P e .onesComplement .float x mem off = .ok mem' ∧
      readFloat P e .onesComplement .float mem' off = .ok ⟨-2 ^ 64, 0⟩ := by
  have hm : P.signedMacro ≠ some .onesComplement := fun h' => by have := hP.signed _ h'; simp at this
  have hlt : x.num.natAbs / 2 ^ x.exp < 2 ^ 31 := Nat.div_lt_of_lt_mul (by rw [Nat.mul_comm]; exact hb)
  have htn := @toUll_ok x.neg (by simp only [FVal.neg]; omega)
  have hneg : x.neg.num.natAbs / 2 ^ x.neg.exp = x.num.natAbs / 2 ^ x.exp := by simp [FVal.neg]
  rw [hneg] at htn
  generalize x.num.natAbs / 2 ^ x.exp = n at *
  have hv : toSignedModeF .float .onesComplement x = .ok (~~~BitVec.ofNat 64 n) := by
    simp only [toSignedModeF, if_neg (by omega : ¬ 0 ≤ x.num), htn (by omega)]; rfl
  obtain ⟨mem', hw, hrd⟩ := float_through_memory hP hs hm (F := .float) ⟨by decide, by decide⟩ hv h
  refine ⟨mem', hw, ?_⟩
  rw [hrd]
  have hc : (~~~BitVec.ofNat 64 n).toNat % 256 ^ FFmt.float.size = 2 ^ 32 - 1 - n := by
    rw [BitVec.toNat_not, BitVec.toNat_ofNat]
    show _ % 256 ^ 4 = _
    omega
  rw [hc]
  simp only [fromSignedModeF]
  rw [if_pos (show BitVec.ofNat 64 (2 ^ 32 - 1 - n) &&& signMask FFmt.float.size ≠ 0#64 from
    (sign_test (k := 4) ⟨by decide, by decide⟩ (by omega)).mpr (by omega)), FVal.ofUll, BitVec.toNat_not,
    BitVec.toNat_ofNat]
  have e1 : 2 ^ 64 - 1 - (2 ^ 32 - 1 - n) % 2 ^ 64 = 2 ^ 64 - 2 ^ 32 + n := by omega
  rw [e1]
  have hl : Nat.log2 (2 ^ 64 - 2 ^ 32 + n) = 63 := by
    rw [Nat.log2_eq_iff (by omega)]
    constructor <;> omega
  have hround : roundNat FFmt.float.prec (2 ^ 64 - 2 ^ 32 + n) = 2 ^ 64 := by
    show roundNat 24 (2 ^ 64 - 2 ^ 32 + n) = 2 ^ 64
    unfold roundNat
    simp only [hl]
    rw [if_neg (by decide), if_pos (Or.inl (by show 2 ^ 40 < 2 * (_ % 2 ^ 40); omega))]
    show (_ / 2 ^ 40 + 1) * 2 ^ 40 = 2 ^ 64
    omega
  rw [hround]
  rfl

/-- Rounding of a number of `p + s` bits. -/
theorem roundNat_step {p n s : Nat} (hp : 0 < p) (h0 : n ≠ 0) (h : Nat.log2 n + 1 = p + s) :
    ∃ m, roundNat p n = m * 2 ^ s ∧ 2 ^ (p - 1) ≤ m ∧ m ≤ 2 ^ p ∧ 2 * (m * 2 ^ s) ≤ 2 * n + 2 ^ s ∧
      2 * n ≤ 2 * (m * 2 ^ s) + 2 ^ s := by
  have hlo : 2 ^ (p + s - 1) ≤ n := by
    have := Nat.log2_self_le h0
    rwa [show Nat.log2 n = p + s - 1 by omega] at this
  have hhi : n < 2 ^ (p + s) := by rw [← h]; exact Nat.lt_log2_self
  have hS := Nat.two_pow_pos s
  have hq1 : 2 ^ (p - 1) ≤ n / 2 ^ s := by
    rw [Nat.le_div_iff_mul_le hS, ← Nat.pow_add]
    rwa [show p - 1 + s = p + s - 1 by omega]
  have hq2 : n / 2 ^ s < 2 ^ p := by
    rw [Nat.div_lt_iff_lt_mul hS, ← Nat.pow_add]; exact hhi
  have hd := Nat.div_add_mod n (2 ^ s)
  have hr := Nat.mod_lt n hS
  unfold roundNat
  by_cases hs : s = 0
  · subst hs
    rw [if_pos (by omega)]
    exact ⟨n, by omega, by simpa using hq1, by simp at hq2; omega, by omega, by omega⟩
  · rw [if_neg (by omega)]
    simp only [show Nat.log2 n + 1 - p = s by omega]
    rw [Nat.mul_comm] at hd
    split
    · rename_i h2
      refine ⟨n / 2 ^ s + 1, rfl, by omega, by omega, ?_, ?_⟩ <;> rw [Nat.add_mul] <;> omega
    · rename_i h2
      refine ⟨n / 2 ^ s, rfl, by omega, by omega, ?_, ?_⟩ <;> omega

/-- Rounding never changes the number by more than half the distance of its neighbours. -/
theorem roundNat_le {p n b : Nat} (hp : 0 < p) (hb : n < 2 ^ (p + b)) : 2 * roundNat p n ≤ 2 * n + 2 ^ b := by
  by_cases h0 : n = 0
  · subst h0; simp [roundNat]
  · have hl := (Nat.log2_lt h0).mpr hb
    by_cases hs : Nat.log2 n + 1 ≤ p
    · unfold roundNat; rw [if_pos hs]; exact Nat.le_add_right _ _
    · obtain ⟨m, h1, -, -, h2, -⟩ := roundNat_step (s := Nat.log2 n + 1 - p) hp h0 (by omega)
      rw [h1]
      have := Nat.pow_le_pow_right (n := 2) (by omega) (show Nat.log2 n + 1 - p ≤ b by omega)
      omega

theorem roundNat_ge {p n b : Nat} (hp : 0 < p) (hb : 2 ^ b ≤ n) : 2 ^ b ≤ roundNat p n := by
  have h0 : n ≠ 0 := by have := Nat.two_pow_pos b; omega
  by_cases hs : Nat.log2 n + 1 ≤ p
  · unfold roundNat; rw [if_pos hs]; exact hb
  · obtain ⟨m, h1, h2, -⟩ := roundNat_step (s := Nat.log2 n + 1 - p) hp h0 (by omega)
    rw [h1]
    have hbl : b ≤ Nat.log2 n := (Nat.le_log2 h0).mpr hb
    calc 2 ^ b ≤ 2 ^ (p - 1 + (Nat.log2 n + 1 - p)) := Nat.pow_le_pow_right (by omega) (by omega)
      _ = 2 ^ (p - 1) * 2 ^ (Nat.log2 n + 1 - p) := Nat.pow_add ..
      _ ≤ _ := Nat.mul_le_mul_right _ h2

/-- A number one quarter of the step or less below a power of two is rounded up to it. -/
theorem roundNat_up {p s n : Nat} (hp : 0 < p) (hs : 0 < s) (h1 : 2 ^ (p + s) ≤ n + 2 ^ (s - 1)) (h2 : n < 2 ^ (p + s)) :
    roundNat p n = 2 ^ (p + s) := by
  have hS : 2 ^ s = 2 * 2 ^ (s - 1) := by rw [← Nat.pow_succ']; congr 1; omega
  have hp1 : 2 ^ p = 2 * 2 ^ (p - 1) := by rw [← Nat.pow_succ']; congr 1; omega
  have hpp := Nat.two_pow_pos (p - 1)
  have hss := Nat.two_pow_pos (s - 1)
  have hpow : 2 ^ (p + s) = 2 ^ p * 2 ^ s := Nat.pow_add ..
  have hx : n = (2 ^ p - 1) * 2 ^ s + (n - (2 ^ p - 1) * 2 ^ s) ∧ n - (2 ^ p - 1) * 2 ^ s < 2 ^ s ∧
      2 ^ s ≤ 2 * (n - (2 ^ p - 1) * 2 ^ s) := by
    rw [Nat.sub_mul, Nat.one_mul]
    have : 2 ^ s ≤ 2 ^ p * 2 ^ s := Nat.le_mul_of_pos_left _ (by omega)
    generalize 2 ^ p * 2 ^ s = t at *
    omega
  obtain ⟨hx1, hx2, hx3⟩ := hx
  generalize n - (2 ^ p - 1) * 2 ^ s = r at *
  have hq : n / 2 ^ s = 2 ^ p - 1 := by
    rw [hx1, Nat.mul_comm, Nat.mul_add_div (by omega), Nat.div_eq_of_lt hx2, Nat.add_zero]
  have hr : n % 2 ^ s = r := by
    rw [hx1, Nat.mul_comm, Nat.mul_add_mod, Nat.mod_eq_of_lt hx2]
  have hge : 2 ^ (p + s - 1) ≤ n := by
    have e1 : 2 ^ (p + s) = 2 * 2 ^ (p + s - 1) := by rw [← Nat.pow_succ']; congr 1; omega
    have e2 : 2 ^ (s - 1) ≤ 2 ^ (p + s - 1) := Nat.pow_le_pow_right (by omega) (by omega)
    omega
  have hl : Nat.log2 n = p + s - 1 := by
    rw [Nat.log2_eq_iff (by have := Nat.two_pow_pos (p + s - 1); omega)]
    exact ⟨hge, by rwa [show p + s - 1 + 1 = p + s by omega]⟩
  unfold roundNat
  rw [if_neg (by omega)]
  simp only [show Nat.log2 n + 1 - p = s by omega, hq, hr]
  rw [if_pos (by omega), hpow]
  congr 1
  omega

theorem tdiv_mul_pow (r e : Nat) : ((r * 2 ^ e : Nat) : Int).tdiv (2 ^ e) = r := by
  have : ((r * 2 ^ e : Nat) : Int) = (r : Int) * 2 ^ e := by simp
  rw [this, Int.mul_tdiv_cancel _ (by have := Int.pow_pos (n := 2) (m := e) (by decide); omega)]

theorem addUll_offset {F : FFmt} (hF : F = .float ∨ F = .double) {x : FVal} {N : Nat}
    (hN : (N : Int) = x.num + 2 ^ (8 * F.size - 1) * 2 ^ x.exp) :
    x.addUll F (signMask F.size) = ⟨roundNat F.prec N, x.exp⟩ := by
  have hk : SizeOk F.size := by rcases hF with rfl | rfl <;> exact ⟨by decide, by decide⟩
  have h1 : (FVal.ofUll F (signMask F.size)).num = 2 ^ (8 * F.size - 1) := by
    unfold FVal.ofUll
    simp only [signMask_toNat hk]
    have := @roundNat_exact F.prec 1 (8 * F.size - 1) (by rcases hF with rfl | rfl <;> decide)
    rw [Nat.one_mul] at this
    rw [this]
    simp
  unfold FVal.addUll
  rw [h1, ← hN]
  simp [roundInt]

/-- What offset binary does with a number, in terms of the nearest floating-point number to its sum with the offset. -/
theorem offset_through_memory {P : Platform} (hP : P.Valid) {e : Endian} (hs : Supported P e .offsetBinary)
    {F : FFmt} (hF : F = .float ∨ F = .double) {x : FVal} {N : Nat}
    (hN : (N : Int) = x.num + 2 ^ (8 * F.size - 1) * 2 ^ x.exp)
    (hw : roundNat F.prec N / 2 ^ x.exp < 2 ^ 64) {mem : Mem} {off : Nat} (h : off + F.size ≤ mem.length) :
    ∃ mem', writeFloat P e .offsetBinary F x mem off = .ok mem' ∧
      readFloat P e .offsetBinary F mem' off = .ok ⟨roundNat F.prec
        (if 2 ^ (8 * F.size - 1) ≤ roundNat F.prec N / 2 ^ x.exp % 2 ^ (8 * F.size)
          then roundNat F.prec N / 2 ^ x.exp % 2 ^ (8 * F.size) - 2 ^ (8 * F.size - 1)
          else 2 ^ 64 - 2 ^ (8 * F.size - 1) + roundNat F.prec N / 2 ^ x.exp % 2 ^ (8 * F.size)), 0⟩ := by
  have hm : P.signedMacro ≠ some .offsetBinary := fun h' => by have := hP.signed _ h'; simp at this
  have hk : SizeOk F.size := by rcases hF with rfl | rfl <;> exact ⟨by decide, by decide⟩
  have hv : toSignedModeF F .offsetBinary x = .ok (BitVec.ofNat 64 (roundNat F.prec N / 2 ^ x.exp)) := by
    simp only [toSignedModeF, addUll_offset hF hN]
    rw [toUll_ok (by simp) (by simpa using hw)]
    simp
  obtain ⟨mem', h1, h2⟩ := float_through_memory hP hs hm hk hv h
  refine ⟨mem', h1, ?_⟩
  rw [h2, pow256, BitVec.toNat_ofNat, Nat.mod_eq_of_lt hw]
  generalize roundNat F.prec N / 2 ^ x.exp = w at *
  simp only [fromSignedModeF, FVal.ofUll, BitVec.toNat_sub, signMask_toNat hk, BitVec.toNat_ofNat]
  congr 5
  by_cases c : 2 ^ (8 * F.size - 1) ≤ w % 2 ^ (8 * F.size)
  · rw [if_pos c]
    rcases hF with rfl | rfl
    · change 2 ^ 31 ≤ w % 2 ^ 32 at c
      show (2 ^ 64 - 2 ^ 31 + w % 2 ^ 32 % 2 ^ 64) % 2 ^ 64 = w % 2 ^ 32 - 2 ^ 31
      omega
    · change 2 ^ 63 ≤ w % 2 ^ 64 at c
      show (2 ^ 64 - 2 ^ 63 + w % 2 ^ 64 % 2 ^ 64) % 2 ^ 64 = w % 2 ^ 64 - 2 ^ 63
      omega
  · rw [if_neg c]
    rcases hF with rfl | rfl
    · change ¬ 2 ^ 31 ≤ w % 2 ^ 32 at c
      show (2 ^ 64 - 2 ^ 31 + w % 2 ^ 32 % 2 ^ 64) % 2 ^ 64 = 2 ^ 64 - 2 ^ 31 + w % 2 ^ 32
      omega
    · change ¬ 2 ^ 63 ≤ w % 2 ^ 64 at c
      show (2 ^ 64 - 2 ^ 63 + w % 2 ^ 64 % 2 ^ 64) % 2 ^ 64 = 2 ^ 64 - 2 ^ 63 + w % 2 ^ 64
      omega

theorem bounded_sum {F : FFmt} {x : FVal} (hb : FBounded F x) :
    ∃ N : Nat, 0 < N ∧ (N : Int) = x.num + 2 ^ (8 * F.size - 1) * 2 ^ x.exp := by
  unfold FBounded at hb
  have h1 : ((2 ^ (8 * F.size - 1) * 2 ^ x.exp : Nat) : Int) = 2 ^ (8 * F.size - 1) * 2 ^ x.exp := by simp
  generalize (2 ^ (8 * F.size - 1) * 2 ^ x.exp : Nat) = t at *
  refine ⟨(x.num + t).toNat, by omega, by omega⟩

/-- C72. In offset binary, a non-negative number is read back as a multiple of 256 (`float`) or 2048 (`double`), one which
is nearest to it: smaller ones are lost. -/
theorem C72_offset_binary_nonnegative {P : Platform} (hP : P.Valid) {e : Endian} (hs : Supported P e .offsetBinary)
    {F : FFmt} (hF : F = .float ∨ F = .double) {x : FVal} (h0 : 0 ≤ x.num)
    (hlt : x.num + (step F / 2 : Nat) * 2 ^ x.exp < 2 ^ (8 * F.size - 1) * 2 ^ x.exp)
    {mem : Mem} {off : Nat} (h : off + F.size ≤ mem.length) :
    ∃ mem' q, writeFloat P e .offsetBinary F x mem off = .ok mem' ∧
      readFloat P e .offsetBinary F mem' off = .ok ⟨step F * q, 0⟩ ∧ CloseTo x (step F * q) (step F / 2) := by
  have hE := Nat.two_pow_pos x.exp
  have hEi : ((2 ^ x.exp : Nat) : Int) = 2 ^ x.exp := by simp
  have hb : FBounded F x := by
    unfold FBounded
    have : ((2 ^ (8 * F.size - 1) * 2 ^ x.exp : Nat) : Int) = 2 ^ (8 * F.size - 1) * 2 ^ x.exp := by simp
    have h2 : (0 : Int) ≤ (step F / 2 : Nat) * 2 ^ x.exp := by rw [← hEi, ← Int.natCast_mul]; omega
    omega
  obtain ⟨N, hN0, hN⟩ := bounded_sum hb
  have key : ∃ m, roundNat F.prec N = m * (step F * 2 ^ x.exp) ∧ 2 ^ (F.prec - 1) ≤ m ∧ m < 2 ^ F.prec ∧
      2 * (m * (step F * 2 ^ x.exp)) ≤ 2 * N + step F * 2 ^ x.exp ∧
      2 * N ≤ 2 * (m * (step F * 2 ^ x.exp)) + step F * 2 ^ x.exp := by
    have hl : Nat.log2 N + 1 = F.prec + (8 * F.size - F.prec + x.exp) := by
      have : Nat.log2 N = 8 * F.size - 1 + x.exp := by
        rw [Nat.log2_eq_iff (by omega), Nat.pow_succ, Nat.pow_add]
        have : ((2 ^ (8 * F.size - 1) * 2 ^ x.exp : Nat) : Int) = 2 ^ (8 * F.size - 1) * 2 ^ x.exp := by simp
        have h2 : (0 : Int) ≤ (step F / 2 : Nat) * 2 ^ x.exp := by rw [← hEi, ← Int.natCast_mul]; omega
        omega
      rw [this]
      rcases hF with rfl | rfl <;> simp only [FFmt.float, FFmt.double] <;> omega
    obtain ⟨m, h1, h2, h3, h4, h5⟩ := roundNat_step (by rcases hF with rfl | rfl <;> decide) (by omega) hl
    rw [Nat.pow_add] at h1 h4 h5
    refine ⟨m, h1, h2, ?_, h4, h5⟩
    rw [← hEi] at hlt hN
    generalize 2 ^ x.exp = E at *
    rcases hF with rfl | rfl
    · change 2 * (m * (256 * E)) ≤ 2 * N + 256 * E at h4
      change x.num + 128 * (E : Int) < 2147483648 * E at hlt
      change (N : Int) = x.num + 2147483648 * E at hN
      show m < 16777216
      have : m * (256 * E) < 16777216 * (256 * E) := by omega
      exact Nat.lt_of_mul_lt_mul_right this
    · change 2 * (m * (2048 * E)) ≤ 2 * N + 2048 * E at h4
      change x.num + 1024 * (E : Int) < 9223372036854775808 * E at hlt
      change (N : Int) = x.num + 9223372036854775808 * E at hN
      show m < 9007199254740992
      have : m * (2048 * E) < 9007199254740992 * (2048 * E) := by omega
      exact Nat.lt_of_mul_lt_mul_right this
  obtain ⟨m, hr, hm1, hm2, hlo, hhi⟩ := key
  have hw : roundNat F.prec N / 2 ^ x.exp = m * step F := by
    rw [hr, ← Nat.mul_assoc, Nat.mul_div_cancel _ hE]
  have hF2 := hF
  have hmem := @offset_through_memory P hP e hs F hF x N hN (mem := mem) (off := off)
  rw [hw] at hmem
  obtain ⟨mem', h1, h2⟩ := hmem (by
    rcases hF with rfl | rfl
    · show m * 256 < 2 ^ 64
      have : m < 16777216 := hm2
      omega
    · show m * 2048 < 2 ^ 64
      have : m < 9007199254740992 := hm2
      omega) h
  refine ⟨mem', (m - 2 ^ (F.prec - 1) : Nat), h1, ?_, ?_⟩
  · rw [h2]
    have e1 : m * step F % 2 ^ (8 * F.size) = m * step F := Nat.mod_eq_of_lt (by
      rcases hF with rfl | rfl
      · show m * 256 < 4294967296
        have : m < 16777216 := hm2
        omega
      · show m * 2048 < 18446744073709551616
        have : m < 9007199254740992 := hm2
        omega)
    have e2 : 2 ^ (8 * F.size - 1) = 2 ^ (F.prec - 1) * step F := by rcases hF with rfl | rfl <;> decide
    rw [e1, if_pos (by rw [e2]; exact Nat.mul_le_mul_right _ hm1), e2, ← Nat.sub_mul]
    unfold step
    rw [roundNat_exact (Nat.lt_of_le_of_lt (Nat.sub_le _ _) hm2), Int.natCast_mul, Int.mul_comm]
  · unfold CloseTo
    rw [← hEi] at hN ⊢
    generalize 2 ^ x.exp = E at *
    rcases hF with rfl | rfl
    · change 2 * (m * (256 * E)) ≤ 2 * N + 256 * E at hlo
      change 2 * N ≤ 2 * (m * (256 * E)) + 256 * E at hhi
      change (N : Int) = x.num + 2147483648 * E at hN
      change 8388608 ≤ m at hm1
      obtain ⟨q, rfl⟩ := Nat.exists_eq_add_of_le hm1
      show ((256 : Int) * ((8388608 + q - 8388608 : Nat)) - 128) * E ≤ x.num ∧
        x.num ≤ (256 * ((8388608 + q - 8388608 : Nat)) + 128) * E
      rw [Nat.add_sub_cancel_left, Int.sub_mul, Int.add_mul, Int.mul_assoc, ← Int.natCast_mul]
      rw [Nat.add_mul, Nat.mul_left_comm q] at hlo hhi
      omega
    · change 2 * (m * (2048 * E)) ≤ 2 * N + 2048 * E at hlo
      change 2 * N ≤ 2 * (m * (2048 * E)) + 2048 * E at hhi
      change (N : Int) = x.num + 9223372036854775808 * E at hN
      change 4503599627370496 ≤ m at hm1
      obtain ⟨q, rfl⟩ := Nat.exists_eq_add_of_le hm1
      show ((2048 : Int) * ((4503599627370496 + q - 4503599627370496 : Nat)) - 1024) * E ≤ x.num ∧
        x.num ≤ (2048 * ((4503599627370496 + q - 4503599627370496 : Nat)) + 1024) * E
      rw [Nat.add_sub_cancel_left, Int.sub_mul, Int.add_mul, Int.mul_assoc, ← Int.natCast_mul]
      rw [Nat.add_mul, Nat.mul_left_comm q] at hlo hhi
      omega

/-- C72. In offset binary, a negative number is read back as zero if it is -64 or more (`float`; -512 for `double`), as a
number of at least 2^63 otherwise: no negative number is read back as a negative number. -/
theorem C72_offset_binary_negative {P : Platform} (hP : P.Valid) {e : Endian} (hs : Supported P e .offsetBinary)
    {F : FFmt} (hF : F = .float ∨ F = .double) {x : FVal} (h0 : x.num < 0) (hb : FBounded F x)
    {mem : Mem} {off : Nat} (h : off + F.size ≤ mem.length) :
    ∃ mem' t, writeFloat P e .offsetBinary F x mem off = .ok mem' ∧
      readFloat P e .offsetBinary F mem' off = .ok ⟨t, 0⟩ ∧
      (-(step F / 4 : Nat) * 2 ^ x.exp ≤ x.num → t = 0) ∧
      (x.num < -(step F / 4 : Nat) * 2 ^ x.exp → 2 ^ 63 ≤ t) := by
  have hE := Nat.two_pow_pos x.exp
  have hEi : ((2 ^ x.exp : Nat) : Int) = 2 ^ x.exp := by simp
  obtain ⟨N, hN0, hN⟩ := bounded_sum hb
  have hpr : 0 < F.prec := by rcases hF with rfl | rfl <;> decide
  have hp2 : F.prec + (8 * F.size - 1 - F.prec) = 8 * F.size - 1 := by rcases hF with rfl | rfl <;> decide
  have hst : 2 ^ (8 * F.size - 1 - F.prec) = 2 * (step F / 4) := by rcases hF with rfl | rfl <;> decide
  have hNlt : N < 2 ^ (F.prec + (8 * F.size - 1 - F.prec + x.exp)) := by
    rw [← Nat.add_assoc, hp2, Nat.pow_add]
    have : ((2 ^ (8 * F.size - 1) * 2 ^ x.exp : Nat) : Int) = 2 ^ (8 * F.size - 1) * 2 ^ x.exp := by simp
    omega
  have hB : ((2 ^ (8 * F.size - 1) * 2 ^ x.exp : Nat) : Int) = 2 ^ (8 * F.size - 1) * 2 ^ x.exp := by simp
  have hq : ((step F / 4 * 2 ^ x.exp : Nat) : Int) = (step F / 4 : Nat) * 2 ^ x.exp := by simp
  have hmem := @offset_through_memory P hP e hs F hF x N hN (mem := mem) (off := off)
  have h64 : 2 ^ (8 * F.size - 1) < 2 ^ 64 := by rcases hF with rfl | rfl <;> decide
  have h63 : 2 ^ (8 * F.size - 1) ≤ 2 ^ 63 := by rcases hF with rfl | rfl <;> decide
  have h8 : 2 ^ (8 * F.size - 1) < 2 ^ (8 * F.size) := by rcases hF with rfl | rfl <;> decide
  rw [Int.neg_mul]
  by_cases hc : x.num < -((step F / 4 : Nat) * 2 ^ x.exp)
  · have hle := roundNat_le hpr hNlt
    rw [Nat.pow_add, hst, Nat.mul_assoc] at hle
    have hw : roundNat F.prec N / 2 ^ x.exp < 2 ^ (8 * F.size - 1) := by
      rw [Nat.div_lt_iff_lt_mul hE]
      omega
    generalize roundNat F.prec N / 2 ^ x.exp = w at *
    rw [Nat.mod_eq_of_lt (by omega), if_neg (by omega)] at hmem
    obtain ⟨mem', h1, h2⟩ := hmem (by omega) h
    refine ⟨mem', _, h1, h2, fun h' => by omega, fun _ => ?_⟩
    have := @roundNat_ge F.prec (2 ^ 64 - 2 ^ (8 * F.size - 1) + w) 63 hpr (by omega)
    omega
  · have hr : roundNat F.prec N = 2 ^ (8 * F.size - 1) * 2 ^ x.exp := by
      have hup := @roundNat_up F.prec (8 * F.size - 1 - F.prec + x.exp) N hpr
        (by rcases hF with rfl | rfl <;> simp [FFmt.float, FFmt.double] <;> omega)
        (by
          have e1 : 8 * F.size - 1 - F.prec + x.exp - 1 = 8 * F.size - 2 - F.prec + x.exp := by
            rcases hF with rfl | rfl <;> simp only [FFmt.float, FFmt.double] <;> omega
          have e2 : 2 ^ (8 * F.size - 2 - F.prec) = step F / 4 := by rcases hF with rfl | rfl <;> decide
          rw [e1, Nat.pow_add _ (8 * F.size - 2 - F.prec), e2, ← Nat.add_assoc, hp2, Nat.pow_add]
          omega) hNlt
      rw [hup, ← Nat.add_assoc, hp2, Nat.pow_add]
    rw [hr, Nat.mul_div_cancel _ hE, Nat.mod_eq_of_lt h8, if_pos (Nat.le_refl _), Nat.sub_self] at hmem
    obtain ⟨mem', h1, h2⟩ := hmem h64 h
    refine ⟨mem', _, h1, h2, fun _ => ?_, fun h' => absurd h' hc⟩
    have := @roundNat_exact F.prec 0 0 (Nat.two_pow_pos _)
    simp only [Nat.zero_mul] at this
    rw [this]; rfl

/-- C72. In offset binary, the largest number below 2^31 is read back as 2^64 (`float`), and writing the largest number
below 2^63 is undefined (`double`: the sum is 2^64, which is not an `unsigned long long`). -/
theorem C72_offset_binary_largest {P : Platform} (hP : P.Valid) {e : Endian} (hs : Supported P e .offsetBinary)
    {mem : Mem} {off : Nat} :
    (∀ x, FBounded .float x → (2 ^ 31 - 128) * 2 ^ x.exp ≤ x.num → off + 4 ≤ mem.length →
      ∃ mem', writeFloat P e .offsetBinary .float x mem off = .ok mem' ∧
        readFloat P e .offsetBinary .float mem' off = .ok ⟨2 ^ 64, 0⟩) ∧
    (∀ x, FBounded .double x → (2 ^ 63 - 1024) * 2 ^ x.exp ≤ x.num →
      writeFloat P e .offsetBinary .double x mem off = .error .badCast) := by
  refine ⟨fun x hb hx h => ?_, fun x hb hx => ?_⟩
  all_goals
    have hE := Nat.two_pow_pos x.exp
    have hEi : ((2 ^ x.exp : Nat) : Int) = 2 ^ x.exp := by simp
    obtain ⟨N, hN0, hN⟩ := bounded_sum hb
  · have hr : roundNat FFmt.float.prec N = 2 ^ 32 * 2 ^ x.exp := by
      have hup := @roundNat_up 24 (8 + x.exp) N (by decide) (by omega)
        (by
          rw [show 8 + x.exp - 1 = 7 + x.exp by omega, ← Nat.add_assoc, Nat.pow_add, Nat.pow_add 2 7]
          change (N : Int) = x.num + 2 ^ 31 * 2 ^ x.exp at hN
          rw [← hEi] at hN hx
          omega)
        (by
          rw [← Nat.add_assoc, Nat.pow_add]
          change (N : Int) = x.num + 2 ^ 31 * 2 ^ x.exp at hN
          change x.num.natAbs < 2 ^ 31 * 2 ^ x.exp at hb
          rw [← hEi] at hN
          omega)
      rw [← Nat.add_assoc, Nat.pow_add] at hup
      exact hup
    have hmem := @offset_through_memory P hP e hs .float (Or.inl rfl) x N hN (mem := mem) (off := off)
    rw [hr, Nat.mul_div_cancel _ hE] at hmem
    obtain ⟨mem', h1, h2⟩ := hmem (by decide) h
    exact ⟨mem', h1, by rw [h2]; decide⟩
  · have hr : roundNat FFmt.double.prec N = 2 ^ 64 * 2 ^ x.exp := by
      have hup := @roundNat_up 53 (11 + x.exp) N (by decide) (by omega)
        (by
          rw [show 11 + x.exp - 1 = 10 + x.exp by omega, ← Nat.add_assoc, Nat.pow_add, Nat.pow_add 2 10]
          change (N : Int) = x.num + 2 ^ 63 * 2 ^ x.exp at hN
          rw [← hEi] at hN hx
          omega)
        (by
          rw [← Nat.add_assoc, Nat.pow_add]
          change (N : Int) = x.num + 2 ^ 63 * 2 ^ x.exp at hN
          change x.num.natAbs < 2 ^ 63 * 2 ^ x.exp at hb
          rw [← hEi] at hN
          omega)
      rw [← Nat.add_assoc, Nat.pow_add] at hup
      exact hup
    have : toSignedModeF .double .offsetBinary x = .error .badCast := by
      simp only [toSignedModeF, addUll_offset (Or.inr rfl) hN, hr]
      unfold FVal.toUll
      simp only []
      rw [tdiv_mul_pow, if_neg (by decide)]
    unfold writeFloat
    rw [this]
    rfl

theorem readSint_native {P : Platform} {e : Endian} {s : Mode} (hm : P.signedMacro = some s) (k : Nat) (mem : Mem)
    (off : Nat) : readSint P e s k mem off = (readFloatNative P e k mem off).map BitVec.toInt := by
  unfold readSint readFloatNative fromSignedMode
  simp only [if_pos hm]
  cases fromEndianess P 64 e mem off k with
  | error f => rfl
  | ok v =>
    simp only [except_bind_ok]
    cases Mem.rdN (objBytes P.host 8 v.toNat) 0 k with
    | error f => rfl
    | ok bs =>
      simp only [except_bind_ok, Except.map, toSigned]
      rw [BitVec.ofInt_natCast]

theorem writeSint_native {P : Platform} {e : Endian} {s : Mode} (hm : P.signedMacro = some s) (k : Nat)
    (bits : BitVec (8 * k)) (mem : Mem) (off : Nat) :
    writeSint P e s k bits.toInt mem off = writeFloatNative P e k bits mem off := by
  unfold writeSint writeFloatNative toSignedMode
  simp only [if_pos hm, BitVec.ofInt_toInt]
  cases (P.junkBytes 8).wrN 0 (objBytes P.host k bits.toNat) with
  | error f => rfl
  | ok bs => rfl

/-- C72. In two's complement, without the macro, a floating-point number cannot be written (the program does not compile), but bytes can be read through a view: those of an integer
which the type can hold are read as this integer, except that every negative integer is read as -2^64 through `float`. -/
theorem C72_twos_complement {P : Platform} (hP : P.Valid) {e : Endian} (hs : Supported P e .twosComplement) (hm : P.signedMacro ≠ some .twosComplement) {F : FFmt}
    (hF : F = .float ∨ F = .double) :
    (∀ x mem off, writeFloat P e .twosComplement F x mem off = .error .illTyped) ∧
    ∀ (z : Int) (mem : Mem) (off : Nat), Representable .twosComplement F.size z → off + F.size ≤ mem.length →
      slice mem off F.size = wireBytes e F.size (signedCode .twosComplement F.size z) →
      (FHolds F ⟨z, 0⟩ → 0 ≤ z ∨ F = .double → readFloat P e .twosComplement F mem off = .ok ⟨z, 0⟩) ∧
      (z < 0 → F = .float → readFloat P e .twosComplement F mem off = .ok ⟨-2 ^ 64, 0⟩) := by
  refine ⟨fun _ _ _ => rfl, fun z mem off hz h hsl => ?_⟩
  have hk : SizeOk F.size := by rcases hF with rfl | rfl <;> exact ⟨by decide, by decide⟩
  have hn : NativeOk P 64 F.size e := by
    rcases supported_cases F.size hs with h | h
    · exact h.1
    · exact absurd h.2.1 hm
  have hc : signedCode .twosComplement F.size z < 256 ^ F.size := by
    rcases hF with rfl | rfl <;> simp [signedCode, Representable, InRange, FFmt.float, FFmt.double] at hz ⊢ <;> split <;> omega
  have hrd : readFloat P e .twosComplement F mem off =
      .ok (fromSignedModeF F .twosComplement (BitVec.ofNat 64 (signedCode .twosComplement F.size z))) := by
    unfold readFloat
    have := hk.2
    rw [fromEndianess_ok hP 64 e _ off F.size (by omega) hn h, hsl, wireValue_wireBytes hc]
    rfl
  rw [hrd]
  have hst := fun c => @sign_test F.size c hk
  simp only [fromSignedModeF]
  by_cases h0 : 0 ≤ z
  · refine ⟨fun hh _ => ?_, fun h' => by omega⟩
    obtain ⟨m, j, hmp, hj⟩ := hh
    have hcode : signedCode .twosComplement F.size z = z.natAbs := by
      rcases hF with rfl | rfl <;> simp [signedCode, Representable, InRange, FFmt.float, FFmt.double] at hz ⊢ <;> omega
    have hlt : z.natAbs < 2 ^ (8 * F.size - 1) := by
      rcases hF with rfl | rfl <;> simp [Representable, InRange, FFmt.float, FFmt.double] at hz ⊢ <;> omega
    have h64 : z.natAbs < 2 ^ 64 := by rcases hF with rfl | rfl <;> simp [FFmt.float, FFmt.double] at hlt <;> omega
    rw [hcode, if_neg (fun hh => by have := (hst _ (by rcases hF with rfl | rfl <;> simp [FFmt.float, FFmt.double] at hlt ⊢ <;> omega)).mp hh; omega)]
    rw [FVal.ofUll, BitVec.toNat_ofNat, Nat.mod_eq_of_lt h64]
    simp only at hj
    rw [hj, roundNat_exact hmp, ← hj]
    have : ((z.natAbs : Nat) : Int) = z := by omega
    rw [this]
  · have hcode : signedCode .twosComplement F.size z = 2 ^ (8 * F.size) - z.natAbs := by
      rcases hF with rfl | rfl <;> simp [signedCode, Representable, InRange, FFmt.float, FFmt.double] at hz ⊢ <;> omega
    have hlt : z.natAbs ≤ 2 ^ (8 * F.size - 1) := by
      rcases hF with rfl | rfl <;> simp [Representable, InRange, FFmt.float, FFmt.double] at hz ⊢ <;> omega
    have hpos : 0 < z.natAbs := by omega
    rw [hcode, if_pos ((hst _ (by have := Nat.two_pow_pos (8 * F.size); omega)).mpr (by rcases hF with rfl | rfl <;> simp [FFmt.float, FFmt.double] at hlt ⊢ <;> omega))]
    refine ⟨fun hh hd => ?_, fun _ hf => ?_⟩
    · have hd : F = .double := by rcases hd with hd | hd; · omega
                                  · exact hd
      subst hd
      obtain ⟨m, j, hmp, hj⟩ := hh
      have hv : (~~~BitVec.ofNat 64 (2 ^ (8 * FFmt.double.size) - z.natAbs) + 1#64).toNat = z.natAbs := by
        rw [BitVec.toNat_add, BitVec.toNat_not, BitVec.toNat_ofNat]
        simp [FFmt.double] at hlt ⊢
        omega
      rw [FVal.ofUll, hv]
      simp only at hj
      rw [hj, roundNat_exact hmp, ← hj]
      simp only [FVal.neg]
      have : -((z.natAbs : Nat) : Int) = z := by omega
      rw [this]
    · subst hf
      have hv : (~~~BitVec.ofNat 64 (2 ^ (8 * FFmt.float.size) - z.natAbs) + 1#64).toNat = 2 ^ 64 - 2 ^ 32 + z.natAbs := by
        rw [BitVec.toNat_add, BitVec.toNat_not, BitVec.toNat_ofNat]
        simp [FFmt.float] at hlt ⊢
        omega
      rw [FVal.ofUll, hv, roundNat_up (p := FFmt.float.prec) (s := 40) (by decide) (by decide) (by simp [FFmt.float] at hlt ⊢; omega) (by simp [FFmt.float] at hlt ⊢; omega)]
      rfl

/-- The bytes of -3 on eight bytes are read as -3.0 through `double`; those of -3 on four bytes as -2^64 through `float`. -/
example : readFloat pc .little .twosComplement .double [0xfd#8, 0xff#8, 0xff#8, 0xff#8, 0xff#8, 0xff#8, 0xff#8, 0xff#8] 0 = .ok ⟨-3, 0⟩ ∧
    readFloat pc .little .twosComplement .float [0xfd#8, 0xff#8, 0xff#8, 0xff#8] 0 = .ok ⟨-2 ^ 64, 0⟩ :=
  ⟨((C72_twos_complement pc_valid (pc_supported _ _) (by decide) (.inr rfl)).2 (-3) _ 0 (by simp [Representable, InRange, FFmt.double]) (by decide) (by decide)).1
      ⟨3, 0, by decide, by decide⟩ (.inr rfl),
    ((C72_twos_complement pc_valid (pc_supported _ _) (by decide) (.inl rfl)).2 (-3) _ 0 (by simp [Representable, InRange, FFmt.float]) (by decide) (by decide)).2
      (by decide) rfl⟩

/-- C72. When the macro for the signed representation is the signed mode of the tuple, the bytes of the number are copied:
every floating-point object (infinities and NaN included) is read back with the same bits. -/
theorem C72_native {P : Platform} (hP : P.Valid) {e : Endian} {s : Mode} (hs : Supported P e s)
    (hm : P.signedMacro = some s) {k : Nat} (hk : SizeOk k) (bits : BitVec (8 * k)) {mem : Mem} {off : Nat}
    (h : off + k ≤ mem.length) :
    ∃ mem', writeFloatNative P e k bits mem off = .ok mem' ∧ readFloatNative P e k mem' off = .ok bits ∧
      mem' = splice mem off (wireBytes e k bits.toNat) := by
  have htc := hP.signed s hm
  subst htc
  have hz : Representable .twosComplement k bits.toInt := ⟨BitVec.le_toInt bits, by
    have := BitVec.toInt_lt (x := bits)
    simpa using this⟩
  have hsafe : Safe P .twosComplement k bits.toInt := ⟨hz, Or.inl (Or.inl hm)⟩
  have hcode : signedCode .twosComplement k bits.toInt = bits.toNat := by
    rw [← ofInt_small_toNat hk hz, BitVec.ofInt_toInt]
  have hw := writeSint_ok hP hs hk hsafe h
  rw [writeSint_native hm, hcode] at hw
  refine ⟨_, hw, ?_, rfl⟩
  obtain ⟨mem', h1, h2⟩ := C02_signed_round_trip_partial hP hs hk.1 hk.2 hz (Or.inl hm) h
  rw [writeAs, writeSint_native hm, hw] at h1
  injection h1 with h1
  subst h1
  rw [readAs, readSint_native hm] at h2
  generalize readFloatNative P e k (splice mem off (wireBytes e k bits.toNat)) off = r at *
  cases r with
  | error f => cases h2
  | ok b =>
    have h3 : b.toInt = bits.toInt := by
      injection h2 with h2
      injection h2
    rw [BitVec.eq_of_toInt_eq h3]

/-! ### Examples -/

/-- -1234.5 in sign-magnitude is read back as -1234. -/
example : ∃ mem' t, writeFloat ppc .big .signMagnitude .float ⟨-2469, 1⟩ (List.replicate 6 0#8) 1 = .ok mem' ∧
    readFloat ppc .big .signMagnitude .float mem' 1 = .ok ⟨t, 0⟩ ∧ IntegralPart ⟨-2469, 1⟩ t :=
  C72_truncated_partial ppc_valid (Or.inr (Or.inl ⟨by decide, by decide⟩)) (Or.inl rfl) (Or.inl rfl)
    ⟨2469, 0, by decide, by decide⟩ (by unfold FBounded; decide) (by decide)
example : IntegralPart ⟨-2469, 1⟩ (-1234) := by unfold IntegralPart; decide

example : ∃ mem', writeFloat pc .big .onesComplement .float ⟨-3, 1⟩ (List.replicate 4 0#8) 0 = .ok mem' ∧
    readFloat pc .big .onesComplement .float mem' 0 = .ok ⟨-2 ^ 64, 0⟩ :=
  C72_ones_complement_negative pc_valid (Or.inl rfl) (by decide) (by unfold FBounded; decide) (by decide)

/-- 1000.5 in offset binary is read back as 1024. -/
example : ∃ mem' q, writeFloat pc .little .offsetBinary .float ⟨2001, 1⟩ (List.replicate 4 0#8) 0 = .ok mem' ∧
    readFloat pc .little .offsetBinary .float mem' 0 = .ok ⟨step .float * q, 0⟩ ∧
    CloseTo ⟨2001, 1⟩ (step .float * q) (step .float / 2) :=
  C72_offset_binary_nonnegative pc_valid (Or.inl rfl) (Or.inl rfl) (by decide) (by decide) (by decide)
example : writeFloat pc .little .offsetBinary .float ⟨2001, 1⟩ (List.replicate 4 0#8) 0 =
    .ok [0#8, 4#8, 0#8, 0x80#8] ∧
    readFloat pc .little .offsetBinary .float [0#8, 4#8, 0#8, 0x80#8] 0 = .ok ⟨1024, 0⟩ := ⟨by rfl, by rfl⟩

/-- -256.5 in offset binary is read back as 2^64. -/
example : ∃ mem' t, writeFloat pc .little .offsetBinary .float ⟨-513, 1⟩ (List.replicate 4 0#8) 0 = .ok mem' ∧
    readFloat pc .little .offsetBinary .float mem' 0 = .ok ⟨t, 0⟩ ∧
    (-(step .float / 4 : Nat) * 2 ^ 1 ≤ (-513 : Int) → t = 0) ∧
    ((-513 : Int) < -(step .float / 4 : Nat) * 2 ^ 1 → 2 ^ 63 ≤ t) :=
  C72_offset_binary_negative pc_valid (Or.inl rfl) (Or.inl rfl) (x := ⟨-513, 1⟩) (by decide)
    (by unfold FBounded; decide) (by decide)
example : writeFloat pc .little .offsetBinary .float ⟨-513, 1⟩ (List.replicate 4 0#8) 0 =
    .ok [0#8, 0xff#8, 0xff#8, 0x7f#8] ∧
    readFloat pc .little .offsetBinary .float [0#8, 0xff#8, 0xff#8, 0x7f#8] 0 = .ok ⟨2 ^ 64, 0⟩ := ⟨by rfl, by rfl⟩

example : writeFloat pc .big .offsetBinary .double ⟨2 ^ 63 - 1024, 0⟩ (List.replicate 8 0#8) 0 = .error .badCast :=
  (C72_offset_binary_largest pc_valid (Or.inl rfl)).2 _ (by unfold FBounded; decide) (by decide)

/-- The bits of 1.5f. -/
example : ∃ mem', writeFloatNative pcMacros .big 4 0x3fc00000#32 (List.replicate 4 0#8) 0 = .ok mem' ∧
    readFloatNative pcMacros .big 4 mem' 0 = .ok 0x3fc00000#32 ∧
    mem' = splice (List.replicate 4 0#8) 0 (wireBytes .big 4 0x3fc00000) :=
  C72_native pcMacros_valid (Or.inl rfl) rfl ⟨by decide, by decide⟩ (k := 4) 0x3fc00000#32 (by decide)

end Upd
