import Verif.Lemmas.Mem
import Verif.Model.Endian

/-! Helper lemmas: the model of endianess.hpp computes positional notation. -/

namespace Upd
open Spec

theorem cShr8_ok {P : Platform} (hP : P.Valid) {w : Nat} (x : BitVec w) : cShr8 P x = .ok (x >>> 8) := by
  have := hP.int_ge
  unfold cShr8
  rw [if_neg (by omega)]

theorem cShl_ok {P : Platform} (hP : P.Valid) {w i : Nat} (b : Byte) (hi : 8 * (i + 1) ≤ w) :
    cShl P w b (8 * i) = .ok (b.setWidth w <<< (8 * i)) := by
  have := hP.int_ge
  unfold cShl
  by_cases h : w < 8 * P.intBytes
  · rw [if_pos h, if_neg (by omega), if_neg]
    rw [Nat.not_le]
    have hb : (b.setWidth w).toNat = b.toNat := by
      rw [BitVec.toNat_setWidth]
      apply Nat.mod_eq_of_lt
      exact Nat.lt_of_lt_of_le b.isLt (Nat.pow_le_pow_right (by decide) (by omega))
    rw [hb]
    calc b.toNat * 2 ^ (8 * i) < 2 ^ 8 * 2 ^ (8 * i) := Nat.mul_lt_mul_of_pos_right b.isLt (Nat.two_pow_pos _)
      _ = 2 ^ (8 + 8 * i) := by rw [Nat.pow_add]
      _ ≤ 2 ^ (8 * P.intBytes - 1) := Nat.pow_le_pow_right (by decide) (by omega)
  · rw [if_neg h, if_neg (by omega)]

theorem byte_of_low {w : Nat} (x : BitVec w) (hw : 8 ≤ w) :
    (x &&& BitVec.ofNat w 0xff).setWidth 8 = BitVec.ofNat 8 (x.toNat % 256) := by
  apply BitVec.eq_of_toNat_eq
  have h255 : (255 : Nat) % 2 ^ w = 255 := by
    apply Nat.mod_eq_of_lt
    exact Nat.lt_of_lt_of_le (by decide : 255 < 2 ^ 8) (Nat.pow_le_pow_right (by decide) hw)
  simp only [BitVec.toNat_setWidth, BitVec.toNat_and, BitVec.toNat_ofNat, h255]
  have : x.toNat &&& 255 = x.toNat % 256 := Nat.and_two_pow_sub_one_eq_mod x.toNat 8
  rw [this]

theorem shr8_toNat {w : Nat} (x : BitVec w) : (x >>> 8).toNat = x.toNat / 256 := by
  simp [BitVec.toNat_ushiftRight, Nat.shiftRight_eq_div_pow]

theorem toEndianessLoop_little {P : Platform} (hP : P.Valid) {w : Nat} (hw : 8 ≤ w) (off n : Nat) :
    ∀ (rem i : Nat) (x : BitVec w) (mem : Mem), off + i + rem ≤ mem.length →
      toEndianessLoop P .little off n rem i x mem = .ok (splice mem (off + i) (leDigits rem x.toNat)) := by
  intro rem
  induction rem with
  | zero => intro i x mem _; simp [toEndianessLoop, leDigits, splice_nil]
  | succ rem ih =>
    intro i x mem h
    have h1 : off + i < mem.length := by omega
    simp only [toEndianessLoop, endianPos, Mem.wr_ok h1, cShr8_ok hP]
    show toEndianessLoop P .little off n rem (i + 1) (x >>> 8) _ = _
    rw [ih _ _ _ (by simp; omega), byte_of_low x hw, shr8_toNat, leDigits]
    congr 1
    exact splice_set_cons (by simp; omega)

theorem toEndianessLoop_big {P : Platform} (hP : P.Valid) {w : Nat} (hw : 8 ≤ w) (off n : Nat) :
    ∀ (rem i : Nat) (x : BitVec w) (mem : Mem), i + rem = n → off + rem ≤ mem.length →
      toEndianessLoop P .big off n rem i x mem = .ok (splice mem off (leDigits rem x.toNat).reverse) := by
  intro rem
  induction rem with
  | zero => intro i x mem _ _; simp [toEndianessLoop, leDigits, splice_nil]
  | succ rem ih =>
    intro i x mem hn h
    have h0 : off + (n - i - 1) = off + rem := by omega
    have h1 : off + rem < mem.length := by omega
    simp only [toEndianessLoop, endianPos, h0, Mem.wr_ok h1, cShr8_ok hP]
    show toEndianessLoop P .big off n rem (i + 1) (x >>> 8) _ = _
    rw [ih _ _ _ (by omega) (by simp; omega), byte_of_low x hw, shr8_toNat, leDigits, List.reverse_cons]
    congr 1
    have := splice_set_append (m := mem) (off := off) (b := BitVec.ofNat 8 (x.toNat % 256))
      (bs := (leDigits rem (x.toNat / 256)).reverse) (by simp; omega)
    simpa using this

theorem toEndianessImpl_ok {P : Platform} (hP : P.Valid) {w : Nat} (hw : 8 ≤ w) (e : Endian) (mem : Mem) (off : Nat)
    (x : BitVec w) (n : Nat) (h : off + n ≤ mem.length) :
    toEndianessImpl P e mem off x n = .ok (splice mem off (wireBytes e n x.toNat)) := by
  cases e
  · exact toEndianessLoop_little hP hw off n n 0 x mem (by omega)
  · exact toEndianessLoop_big hP hw off n n 0 x mem (by omega) h

theorem slice_all {m : Mem} {n : Nat} (h : m.length = n) : slice m 0 n = m := by
  simp [slice, ← h]

theorem leDigits_take {n k x : Nat} (h : n ≤ k) : (leDigits k x).take n = leDigits n x := by
  induction n generalizing k x with
  | zero => simp [leDigits]
  | succ n ih =>
    cases k with
    | zero => omega
    | succ k => simp [leDigits, ih (by omega : n ≤ k)]

theorem leDigits_drop {n k x : Nat} : (leDigits k x).drop n = leDigits (k - n) (x / 256 ^ n) := by
  induction n generalizing k x with
  | zero => simp
  | succ n ih =>
    cases k with
    | zero => simp [leDigits]
    | succ k =>
      simp only [leDigits, List.drop_succ_cons, ih, Nat.pow_succ, Nat.add_sub_add_right]
      rw [Nat.mul_comm, Nat.div_div_eq_div_mul]

/-- The native path is right if the host is little-endian or if the whole object is copied. -/
def NativeOk (P : Platform) (w n : Nat) (e : Endian) : Prop := P.endianMacro = some e → P.host = .little ∨ 8 * n = w

theorem toEndianess_ok {P : Platform} (hP : P.Valid) {w : Nat} (hw : 8 ≤ w) (e : Endian) (mem : Mem) (off : Nat)
    (x : BitVec w) (n : Nat) (hn : 8 * n ≤ w) (hnat : NativeOk P w n e) (h : off + n ≤ mem.length) :
    toEndianess P e mem off x n = .ok (splice mem off (wireBytes e n x.toNat)) := by
  unfold toEndianess
  by_cases hm : P.endianMacro = some e
  · rw [if_pos hm]
    have he : e = P.host := hP.endian e hm
    have hlen : (wireBytes P.host (w / 8) x.toNat).length = w / 8 := by simp
    rw [objBytes_eq, Mem.rdN_ok (by rw [hlen]; omega)]
    have hs : slice (wireBytes P.host (w / 8) x.toNat) 0 n = wireBytes e n x.toNat := by
      rcases hnat hm with hl | hl
      · rw [he, hl]
        simp only [wireBytes, slice, List.drop_zero]
        exact leDigits_take (by omega)
      · have : w / 8 = n := by omega
        rw [this, he]
        exact slice_all (by simp)
    show Mem.wrN mem off _ = _
    rw [hs, Mem.wrN_ok (by simpa using h)]
  · rw [if_neg hm, toEndianessImpl_ok hP hw e mem off x n h]

theorem or_shl_toNat {w i : Nat} (r : BitVec w) (b : Byte) (hr : r.toNat < 2 ^ (8 * i)) (hi : 8 * (i + 1) ≤ w) :
    (r ||| (b.setWidth w <<< (8 * i))).toNat = r.toNat + 256 ^ i * b.toNat := by
  have hb : (b.setWidth w).toNat = b.toNat := by
    rw [BitVec.toNat_setWidth]
    exact Nat.mod_eq_of_lt (Nat.lt_of_lt_of_le b.isLt (Nat.pow_le_pow_right (by decide) (by omega)))
  have hp : (256 : Nat) ^ i = 2 ^ (8 * i) := by rw [Nat.pow_mul]
  have hlt : b.toNat * 2 ^ (8 * i) < 2 ^ w := by
    calc b.toNat * 2 ^ (8 * i) < 2 ^ 8 * 2 ^ (8 * i) := Nat.mul_lt_mul_of_pos_right b.isLt (Nat.two_pow_pos _)
      _ = 2 ^ (8 + 8 * i) := by rw [Nat.pow_add]
      _ ≤ 2 ^ w := Nat.pow_le_pow_right (by decide) (by omega)
  rw [BitVec.toNat_or, BitVec.toNat_shiftLeft, hb, Nat.shiftLeft_eq, Nat.mod_eq_of_lt hlt, Nat.or_comm,
    Nat.mul_comm, ← Nat.two_pow_add_eq_or_of_lt hr, hp, Nat.add_comm]

theorem fromEndianessLoop_little {P : Platform} (hP : P.Valid) (w : Nat) (mem : Mem) (off n : Nat) :
    ∀ (rem i : Nat) (r : BitVec w), 8 * (i + rem) ≤ w → off + i + rem ≤ mem.length → r.toNat < 2 ^ (8 * i) →
      ∃ y, fromEndianessLoop P w .little mem off n rem i (8 * i) r = .ok y ∧
        y.toNat = r.toNat + 256 ^ i * leValue (slice mem (off + i) rem) := by
  intro rem
  induction rem with
  | zero => intro i r _ _ _; exact ⟨r, rfl, by simp [slice_zero, leValue]⟩
  | succ rem ih =>
    intro i r hw hm hr
    have h1 : off + i < mem.length := by omega
    have hor := or_shl_toNat r mem[off + i] hr (by omega : 8 * (i + 1) ≤ w)
    simp only [fromEndianessLoop, endianPos, Mem.rd_ok h1]
    have hc := cShl_ok hP (w := w) (i := i) mem[off + i] (by omega)
    have hp : (256 : Nat) ^ i = 2 ^ (8 * i) := by rw [Nat.pow_mul]
    have hp' : (256 : Nat) ^ (i + 1) = 2 ^ (8 * (i + 1)) := by rw [Nat.pow_mul]
    obtain ⟨y, hy, hyv⟩ := ih (i + 1) (r ||| (BitVec.setWidth w mem[off + i] <<< (8 * i))) (by omega) (by omega)
      (by rw [hor, ← hp', Nat.pow_succ]
          have := mem[off + i].isLt
          rw [← hp] at hr
          have h2 : 256 ^ i * mem[off + i].toNat ≤ 256 ^ i * 255 := Nat.mul_le_mul_left _ (by omega)
          omega)
    refine ⟨y, ?_, ?_⟩
    · show (do let t ← cShl P w mem[off + i] (8 * i); fromEndianessLoop P w .little mem off n rem (i + 1) (8 * i + 8) (r ||| t)) = _
      rw [hc]
      exact hy
    · rw [hyv, hor, slice_succ h1, leValue, Nat.pow_succ, Nat.mul_add, Nat.mul_assoc]
      exact Nat.add_assoc _ _ _

theorem fromEndianessLoop_big {P : Platform} (hP : P.Valid) (w : Nat) (mem : Mem) (off n : Nat) :
    ∀ (rem i : Nat) (r : BitVec w), 8 * (i + rem) ≤ w → i + rem = n → off + rem ≤ mem.length →
      r.toNat < 2 ^ (8 * i) →
      ∃ y, fromEndianessLoop P w .big mem off n rem i (8 * i) r = .ok y ∧
        y.toNat = r.toNat + 256 ^ i * leValue (slice mem off rem).reverse := by
  intro rem
  induction rem with
  | zero => intro i r _ _ _ _; exact ⟨r, rfl, by simp [slice_zero, leValue]⟩
  | succ rem ih =>
    intro i r hw hn hm hr
    have h0 : off + (n - i - 1) = off + rem := by omega
    have h1 : off + rem < mem.length := by omega
    have hor := or_shl_toNat r mem[off + rem] hr (by omega : 8 * (i + 1) ≤ w)
    simp only [fromEndianessLoop, endianPos, h0, Mem.rd_ok h1]
    have hc := cShl_ok hP (w := w) (i := i) mem[off + rem] (by omega)
    have hp : (256 : Nat) ^ i = 2 ^ (8 * i) := by rw [Nat.pow_mul]
    have hp' : (256 : Nat) ^ (i + 1) = 2 ^ (8 * (i + 1)) := by rw [Nat.pow_mul]
    obtain ⟨y, hy, hyv⟩ := ih (i + 1) (r ||| (BitVec.setWidth w mem[off + rem] <<< (8 * i))) (by omega) (by omega)
      (by omega)
      (by rw [hor, ← hp', Nat.pow_succ]
          have := mem[off + rem].isLt
          rw [← hp] at hr
          have h2 : 256 ^ i * mem[off + rem].toNat ≤ 256 ^ i * 255 := Nat.mul_le_mul_left _ (by omega)
          omega)
    refine ⟨y, ?_, ?_⟩
    · show (do let t ← cShl P w mem[off + rem] (8 * i); fromEndianessLoop P w .big mem off n rem (i + 1) (8 * i + 8) (r ||| t)) = _
      rw [hc]
      exact hy
    · rw [hyv, hor, slice_succ_last h1, List.reverse_append, List.reverse_cons, List.reverse_nil, List.nil_append,
        List.cons_append, List.nil_append, leValue, Nat.pow_succ, Nat.mul_add, ← Nat.add_assoc, Nat.mul_assoc]

theorem fromEndianessImpl_ok {P : Platform} (hP : P.Valid) (w : Nat) (e : Endian) (mem : Mem) (off n : Nat)
    (hw : 8 * n ≤ w) (h : off + n ≤ mem.length) :
    fromEndianessImpl P w e mem off n = .ok (BitVec.ofNat w (wireValue e (slice mem off n))) := by
  have key : ∃ y, fromEndianessImpl P w e mem off n = .ok y ∧ y.toNat = wireValue e (slice mem off n) := by
    cases e
    · obtain ⟨y, hy, hv⟩ := fromEndianessLoop_little hP w mem off n n 0 0#w (by omega) (by omega) (by simp)
      exact ⟨y, hy, by simpa [wireValue] using hv⟩
    · obtain ⟨y, hy, hv⟩ := fromEndianessLoop_big hP w mem off n n 0 0#w (by omega) (by omega) (by omega) (by simp)
      exact ⟨y, hy, by simpa [wireValue] using hv⟩
  obtain ⟨y, hy, hv⟩ := key
  rw [hy, ← hv, BitVec.ofNat_toNat, BitVec.setWidth_eq]

theorem leDigits_zero (k : Nat) : leDigits k 0 = List.replicate k 0#8 := by
  induction k with
  | zero => rfl
  | succ k ih => simp [leDigits, ih, List.replicate_succ]

theorem leValue_replicate_zero (k : Nat) : leValue (List.replicate k 0#8) = 0 := by
  induction k with
  | zero => rfl
  | succ k ih => simp [leValue, ih, List.replicate_succ]

theorem fromEndianess_ok {P : Platform} (hP : P.Valid) (w : Nat) (e : Endian) (mem : Mem) (off n : Nat)
    (hw : 8 * n ≤ w) (hnat : NativeOk P w n e) (h : off + n ≤ mem.length) :
    fromEndianess P w e mem off n = .ok (BitVec.ofNat w (wireValue e (slice mem off n))) := by
  unfold fromEndianess
  by_cases hm : P.endianMacro = some e
  · rw [if_pos hm]
    have he : e = P.host := hP.endian e hm
    have hl := slice_length h
    rw [Mem.rdN_ok h, objBytes_eq]
    show (do
      let obj ← Mem.wrN (wireBytes P.host (w / 8) 0) 0 (slice mem off n)
      Except.ok (BitVec.ofNat w (ofObjBytes P.host obj))) = _
    rw [Mem.wrN_ok (by simp [hl]; omega)]
    show Except.ok _ = _
    rw [ofObjBytes_eq, ← he]
    congr 2
    rcases hnat hm with hlit | hfull
    · rw [he, hlit]
      simp only [wireValue, wireBytes, splice, List.take_zero, List.nil_append]
      rw [leValue_append, leDigits_drop, Nat.zero_div, leDigits_zero, leValue_replicate_zero]
      simp
    · have h8 : w / 8 = n := by omega
      congr 1
      simp only [splice, List.take_zero, List.nil_append, hl]
      rw [List.drop_eq_nil_of_le (by simp; omega), List.append_nil]
  · rw [if_neg hm, fromEndianessImpl_ok hP w e mem off n hw h]

end Upd
