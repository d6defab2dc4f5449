import Verif.Spec.Wire

/-! Helper lemmas on memory and positional notation. -/

namespace Upd
open Spec

@[simp] theorem leDigits_length (n x : Nat) : (leDigits n x).length = n := by
  induction n generalizing x with
  | zero => rfl
  | succ n ih => simp [leDigits, ih]

@[simp] theorem wireBytes_length (e : Endian) (n x : Nat) : (wireBytes e n x).length = n := by
  cases e <;> simp [wireBytes]

theorem leValue_lt (bs : List Byte) : leValue bs < 256 ^ bs.length := by
  induction bs with
  | nil => simp [leValue]
  | cons b bs ih =>
    have := b.isLt
    simp only [leValue, List.length_cons, Nat.pow_succ]
    omega

theorem leValue_append (as bs : List Byte) : leValue (as ++ bs) = leValue as + 256 ^ as.length * leValue bs := by
  induction as with
  | nil => simp [leValue]
  | cons a as ih =>
    simp only [List.cons_append, leValue, ih, List.length_cons, Nat.pow_succ, Nat.mul_add, Nat.add_assoc]
    rw [Nat.mul_comm (256 ^ as.length) 256, Nat.mul_assoc]

theorem leDigits_leValue (bs : List Byte) : leDigits bs.length (leValue bs) = bs := by
  induction bs with
  | nil => rfl
  | cons b bs ih =>
    have h := b.isLt
    have h1 : (b.toNat + 256 * leValue bs) % 256 = b.toNat := by omega
    have h2 : (b.toNat + 256 * leValue bs) / 256 = leValue bs := by omega
    simp [leDigits, leValue, h1, h2, ih]

theorem leValue_leDigits_mod (n x : Nat) : leValue (leDigits n x) = x % 256 ^ n := by
  induction n generalizing x with
  | zero => simp [leDigits, leValue, Nat.mod_one]
  | succ n ih =>
    simp only [leDigits, leValue, ih, BitVec.toNat_ofNat]
    rw [Nat.pow_succ (n := 256), Nat.mul_comm (256 ^ n) 256, Nat.mod_mul]
    congr 1
    omega

theorem leValue_leDigits {n x : Nat} (h : x < 256 ^ n) : leValue (leDigits n x) = x := by
  rw [leValue_leDigits_mod, Nat.mod_eq_of_lt h]

theorem leDigits_mod (n x : Nat) : leDigits n (x % 256 ^ n) = leDigits n x := by
  conv => rhs; rw [← leDigits_leValue (leDigits n x)]
  rw [leValue_leDigits_mod, leDigits_length]

theorem wireValue_wireBytes {e : Endian} {n x : Nat} (h : x < 256 ^ n) : wireValue e (wireBytes e n x) = x := by
  cases e <;> simp [wireValue, wireBytes, leValue_leDigits h]

theorem wireBytes_wireValue (e : Endian) (bs : List Byte) : wireBytes e bs.length (wireValue e bs) = bs := by
  cases e
  · simp [wireValue, wireBytes, leDigits_leValue]
  · have := leDigits_leValue bs.reverse
    simp only [List.length_reverse] at this
    simp [wireValue, wireBytes, this]

theorem wireBytes_mod (e : Endian) (n x : Nat) : wireBytes e n (x % 256 ^ n) = wireBytes e n x := by
  cases e <;> simp [wireBytes, leDigits_mod]

theorem wireValue_lt (e : Endian) (bs : List Byte) : wireValue e bs < 256 ^ bs.length := by
  cases e
  · exact leValue_lt bs
  · simpa [wireValue] using leValue_lt bs.reverse

theorem wireValue_inj {e : Endian} {as bs : List Byte} (hl : as.length = bs.length)
    (h : wireValue e as = wireValue e bs) : as = bs := by
  rw [← wireBytes_wireValue e as, ← wireBytes_wireValue e bs, h, hl]

/-! Memory accesses -/

theorem splice_length {m : Mem} {off : Nat} {bs : List Byte} (h : off + bs.length ≤ m.length) :
    (splice m off bs).length = m.length := by
  simp only [splice, List.length_append, List.length_take, List.length_drop]
  omega

theorem splice_getElem? {m : Mem} {off : Nat} {bs : List Byte} (h : off + bs.length ≤ m.length) (i : Nat) :
    (splice m off bs)[i]? = if i < off then m[i]? else if i < off + bs.length then bs[i - off]? else m[i]? := by
  simp only [splice, List.getElem?_append, List.length_append, List.length_take, List.getElem?_take,
    List.getElem?_drop]
  have hm : min off m.length = off := by omega
  rw [hm]
  by_cases h1 : i < off
  · have : i < off + bs.length := by omega
    simp [h1, this]
  · by_cases h2 : i < off + bs.length
    · simp [h1, h2]
    · simp only [h1, h2, if_false]
      congr 1
      omega

theorem slice_getElem? (m : Mem) (off n i : Nat) : (slice m off n)[i]? = if i < n then m[off + i]? else none := by
  simp [slice, List.getElem?_take, List.getElem?_drop]

theorem slice_length {m : Mem} {off n : Nat} (h : off + n ≤ m.length) : (slice m off n).length = n := by
  simp only [slice, List.length_take, List.length_drop]
  omega

theorem slice_splice_same {m : Mem} {off : Nat} {bs : List Byte} (h : off + bs.length ≤ m.length) :
    slice (splice m off bs) off bs.length = bs := by
  apply List.ext_getElem?
  intro i
  rw [slice_getElem?, splice_getElem? h]
  by_cases h1 : i < bs.length
  · have h2 : ¬ off + i < off := by omega
    have h3 : off + i < off + bs.length := by omega
    simp [h1, h2, h3]
  · simp [h1]

theorem slice_splice_disj {m : Mem} {off : Nat} {bs : List Byte} {o n : Nat} (h : off + bs.length ≤ m.length)
    (hd : o + n ≤ off ∨ off + bs.length ≤ o) : slice (splice m off bs) o n = slice m o n := by
  apply List.ext_getElem?
  intro i
  rw [slice_getElem?, slice_getElem?, splice_getElem? h]
  by_cases h1 : i < n
  · simp only [h1, if_true]
    rcases hd with hd | hd
    · have : o + i < off := by omega
      simp [this]
    · have h2 : ¬ o + i < off := by omega
      have h3 : ¬ o + i < off + bs.length := by omega
      simp [h2, h3]
  · simp [h1]

theorem splice_nil (m : Mem) (off : Nat) : splice m off [] = m := by
  simp [splice, List.take_append_drop]

theorem splice_set_cons {m : Mem} {off : Nat} {b : Byte} {bs : List Byte} (h : off + (bs.length + 1) ≤ m.length) :
    splice (m.set off b) (off + 1) bs = splice m off (b :: bs) := by
  apply List.ext_getElem?
  intro i
  rw [splice_getElem? (by simp; omega), splice_getElem? (by simpa using h)]
  simp only [List.getElem?_set, List.length_cons]
  rcases Nat.lt_trichotomy i off with h1 | h1 | h1
  · have h2 : i < off + 1 := by omega
    have h3 : off ≠ i := by omega
    simp [h1, h2, h3]
  · subst h1
    have h2 : i < m.length := by omega
    simp [h2]
  · have h2 : ¬ i < off + 1 := by omega
    have h3 : ¬ i < off := by omega
    have h4 : off ≠ i := by omega
    have h5 : i - off = (i - (off + 1)) + 1 := by omega
    have h6 : (i < off + 1 + bs.length) = (i < off + (bs.length + 1)) := by
      apply propext; constructor <;> intro <;> omega
    simp only [h2, h3, h4, h5, h6, if_false, List.getElem?_cons_succ]

theorem splice_set_append {m : Mem} {off : Nat} {b : Byte} {bs : List Byte} (h : off + (bs.length + 1) ≤ m.length) :
    splice (m.set (off + bs.length) b) off bs = splice m off (bs ++ [b]) := by
  apply List.ext_getElem?
  intro i
  rw [splice_getElem? (by simp; omega), splice_getElem? (by simpa using h)]
  simp only [List.getElem?_set, List.length_append, List.length_cons, List.length_nil, List.getElem?_append]
  by_cases h1 : i < off
  · have h2 : off + bs.length ≠ i := by omega
    simp [h1, h2]
  · by_cases h2 : i < off + bs.length
    · have h3 : i < off + (bs.length + (0 + 1)) := by omega
      have h4 : i - off < bs.length := by omega
      simp [h1, h2, h3, h4]
    · by_cases h3 : i = off + bs.length
      · subst h3
        have h4 : off + bs.length < m.length := by omega
        simp [h4, h1]
      · have h4 : off + bs.length ≠ i := by omega
        have h5 : ¬ i < off + (bs.length + (0 + 1)) := by omega
        simp only [h1, h2, h4, h5, if_false]

theorem Mem.rd_eq {m : Mem} {i : Nat} {b : Byte} (h : m[i]? = some b) : m.rd i = .ok b := by
  simp [Mem.rd, h]

theorem Mem.rd_ok {m : Mem} {i : Nat} (h : i < m.length) : m.rd i = .ok m[i] := by
  simp [Mem.rd, h]

theorem Mem.rd_oob {m : Mem} {i : Nat} (h : m.length ≤ i) : m.rd i = .error .oobRead := by
  simp [Mem.rd, List.getElem?_eq_none h]

theorem Mem.wr_ok {m : Mem} {i : Nat} {b : Byte} (h : i < m.length) : m.wr i b = .ok (m.set i b) := by
  simp [Mem.wr, h]

theorem Mem.wr_oob {m : Mem} {i : Nat} {b : Byte} (h : m.length ≤ i) : m.wr i b = .error .oobWrite := by
  simp [Mem.wr, Nat.not_lt.mpr h]

theorem slice_zero (m : Mem) (off : Nat) : slice m off 0 = [] := by simp [slice]

theorem slice_succ {m : Mem} {off n : Nat} (h : off < m.length) :
    slice m off (n + 1) = m[off] :: slice m (off + 1) n := by
  simp only [slice]
  rw [List.drop_eq_getElem_cons h, List.take_succ_cons]

theorem slice_succ_last {m : Mem} {off n : Nat} (h : off + n < m.length) :
    slice m off (n + 1) = slice m off n ++ [m[off + n]] := by
  simp only [slice, List.take_add_one, List.getElem?_drop, List.getElem?_eq_getElem h, Option.toList_some]

theorem Mem.rdN_ok {m : Mem} {off n : Nat} (h : off + n ≤ m.length) : m.rdN off n = .ok (slice m off n) := by
  induction n generalizing off with
  | zero => simp [Mem.rdN, slice]
  | succ n ih =>
    have h1 : off < m.length := by omega
    simp only [Mem.rdN, Mem.rd_ok h1, ih (off := off + 1) (by omega), slice_succ h1]
    rfl

theorem Mem.wrN_ok {m : Mem} {off : Nat} {bs : List Byte} (h : off + bs.length ≤ m.length) :
    m.wrN off bs = .ok (splice m off bs) := by
  induction bs generalizing m off with
  | nil => simp [Mem.wrN, splice_nil]
  | cons b bs ih =>
    simp only [List.length_cons] at h
    have h1 : off < m.length := by omega
    simp only [Mem.wrN, Mem.wr_ok h1]
    show Mem.wrN _ _ _ = _
    rw [ih (by simp; omega), splice_set_cons h]

theorem objBytes_little (k x : Nat) : objBytes .little k x = leDigits k x := by
  induction k generalizing x with
  | zero => rfl
  | succ k ih =>
    have := ih (x / 256)
    simp only [objBytes] at this ⊢
    rw [List.range_succ_eq_map, List.map_cons, List.map_map, leDigits, ← this]
    congr 1
    · simp only [Nat.pow_zero, Nat.div_one]
      apply BitVec.eq_of_toNat_eq
      simp
    · apply List.map_congr_left
      intro i _
      simp only [Function.comp, Nat.succ_eq_add_one, Nat.pow_succ]
      rw [Nat.mul_comm, ← Nat.div_div_eq_div_mul]

theorem objBytes_eq (h : Endian) (k x : Nat) : objBytes h k x = wireBytes h k x := by
  have := objBytes_little k x
  cases h
  · exact this
  · simp only [objBytes] at this ⊢
    rw [this]; rfl

theorem ofObjBytes_eq (h : Endian) (bs : List Byte) : ofObjBytes h bs = wireValue h bs := by
  have : ∀ l : List Byte, l.foldr (fun b acc => b.toNat + 256 * acc) 0 = leValue l := by
    intro l
    induction l with
    | nil => rfl
    | cons b l ih => simp [leValue, ih]
  cases h <;> simp [ofObjBytes, wireValue, this]

end Upd
