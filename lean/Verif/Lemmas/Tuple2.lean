import Verif.Lemmas.Tuple

/-! Helper lemmas: sets on disjoint elements. -/

namespace Upd
open Spec TypeList

theorem overlay_comm {m : Mem} {o1 o2 : Nat} {c1 c2 : List (Option Byte)} (h1 : o1 + c1.length ≤ m.length)
    (h2 : o2 + c2.length ≤ m.length) (hd : o1 + c1.length ≤ o2 ∨ o2 + c2.length ≤ o1) :
    overlay (overlay m o1 c1) o2 c2 = overlay (overlay m o2 c2) o1 c1 := by
  have key : ∀ (m : Mem) (o1 o2 : Nat) (c1 c2 : List (Option Byte)), o1 + c1.length ≤ m.length →
      o2 + c2.length ≤ m.length → (o1 + c1.length ≤ o2 ∨ o2 + c2.length ≤ o1) → ∀ i, o1 ≤ i → i < o1 + c1.length →
      (overlay (overlay m o1 c1) o2 c2)[i]? = (overlay (overlay m o2 c2) o1 c1)[i]? := by
    intro m o1 o2 c1 c2 h1 h2 hd i hi1 hi2
    rw [overlay_getElem?_out (off := o2) (by omega)]
    obtain ⟨k, rfl⟩ : ∃ k, i = o1 + k := ⟨i - o1, by omega⟩
    have hk : k < c1.length := by omega
    cases hc : c1[k] with
    | none =>
      have hc' : c1[k]? = some none := by rw [List.getElem?_eq_getElem hk, hc]
      rw [overlay_getElem?_gap hc', overlay_getElem?_gap hc', overlay_getElem?_out (by omega)]
    | some b =>
      have hc' : c1[k]? = some (some b) := by rw [List.getElem?_eq_getElem hk, hc]
      rw [overlay_getElem?_in hc' h1, overlay_getElem?_in hc' (by rw [overlay_length]; exact h1)]
  apply List.ext_getElem?
  intro i
  by_cases hi : o1 ≤ i ∧ i < o1 + c1.length
  · exact key m o1 o2 c1 c2 h1 h2 hd i hi.1 hi.2
  · by_cases hi' : o2 ≤ i ∧ i < o2 + c2.length
    · exact (key m o2 o1 c2 c1 h2 h1 (by omega) i hi'.1 hi'.2).symm
    · rw [overlay_getElem?_out (off := o2) (by omega), overlay_getElem?_out (off := o1) (by omega),
        overlay_getElem?_out (off := o1) (by omega), overlay_getElem?_out (off := o2) (by omega)]

theorem elem_in_bounds {V : View} {i : Nat} (hi : i < V.ts.length) {mem : Mem} (hb : V.off + V.size ≤ mem.length) :
    V.off + Ty.serSizes (V.ts.take i) + (V.ts[i]).serSize ≤ mem.length := by
  have := serSizes_take_lt hi
  rw [V.size_eq] at hb
  omega

theorem View.set_ok {P : Platform} (hP : P.Valid) {V : View} (hs : Supported P V.e V.s) (hw : Ty.WFs V.ts)
    (hl : LooseAll V.ts) {mem : Mem} (hb : V.off + V.size ≤ mem.length) {i : Nat} (hi : i < V.ts.length) {v : Val}
    (hv : v.Fits (Safe P V.s) V.ts[i]) :
    V.set P i v mem = .ok (overlay mem (V.off + Ty.serSizes (V.ts.take i)) (cells V.e V.s V.ts[i] v)) := by
  rw [V.set_eq P hi, writeAs_ok hP hs _ v mem _ (wfs_get hw hi) (looseAll_get hl hi) hv (elem_in_bounds hi hb)]

theorem disjoint_elems {ts : List Ty} {i j : Nat} (hi : i < ts.length) (hj : j < ts.length) (hij : i ≠ j) :
    Ty.serSizes (ts.take i) + (ts[i]).serSize ≤ Ty.serSizes (ts.take j) ∨
      Ty.serSizes (ts.take j) + (ts[j]).serSize ≤ Ty.serSizes (ts.take i) := by
  rcases Nat.lt_or_gt_of_ne hij with h | h
  · exact Or.inl (serSizes_take_lt_of_lt h (by omega))
  · exact Or.inr (serSizes_take_lt_of_lt h (by omega))

theorem wireSizes_eq (ts : List Ty) : wireSizes ts = (ts.map wireSize).sum := by
  induction ts with
  | nil => rfl
  | cons t ts ih => simp [wireSizes, ih]

theorem slice_all' {m : List Byte} {n : Nat} (h : n = m.length) : slice m 0 n = m := by
  subst h; simp [slice]

mutual
theorem zero_fits {leaf : Nat → Int → Prop} : ∀ t : Ty, t.WF → (∀ k, 1 ≤ k → k ≤ 8 → leaf k 0) → (Val.zero t).Fits leaf t
  | .bool, _, _ => by simp [Val.zero, Val.Fits]
  | .uint n, _, _ => by
    simp only [Val.zero, Val.Fits]
    exact ⟨Int.le_refl 0, Int.pow_pos (by decide)⟩
  | .sint k, hw, h => by
    simp only [Ty.WF] at hw
    simp only [Val.zero, Val.Fits]
    exact h k hw.1 hw.2
  | .arr t n, hw, h => by
    simp only [Ty.WF] at hw
    simp only [Val.zero, Val.Fits, List.length_replicate]
    refine ⟨trivial, fun v hv => ?_⟩
    rw [List.eq_of_mem_replicate hv]
    exact zero_fits t hw.1 h
  | .user _ fs, hw, h => by
    simp only [Ty.WF] at hw
    simp only [Val.zero, Val.Fits]
    exact zeros_fit fs hw.2 h

theorem zeros_fit {leaf : Nat → Int → Prop} : ∀ ts : List Ty, Ty.WFs ts → (∀ k, 1 ≤ k → k ≤ 8 → leaf k 0) →
    Val.FitsAll leaf ts (Val.zeros ts)
  | [], _, _ => by simp [Val.zeros, Val.FitsAll]
  | t :: ts, hw, h => by
    simp only [Ty.WFs] at hw
    simp only [Val.zeros, Val.FitsAll]
    exact ⟨zero_fits t hw.1 h, zeros_fit ts hw.2 h⟩
end

mutual
theorem zero_isZero : ∀ t : Ty, IsZero (Val.zero t)
  | .bool => by rw [Val.zero]; exact .bool
  | .uint _ => by rw [Val.zero]; exact .int
  | .sint _ => by rw [Val.zero]; exact .int
  | .arr t n => by
    rw [Val.zero]
    refine .arr fun v hv => ?_
    rw [List.eq_of_mem_replicate hv]
    exact zero_isZero t
  | .user _ fs => by rw [Val.zero]; exact .user (zeros_isZero fs)

theorem zeros_isZero : ∀ ts : List Ty, ∀ v ∈ Val.zeros ts, IsZero v
  | [], v, hv => by rw [Val.zeros] at hv; cases hv
  | t :: ts, v, hv => by
    rw [Val.zeros] at hv
    rcases List.mem_cons.1 hv with rfl | hv
    · exact zero_isZero t
    · exact zeros_isZero ts v hv
end

theorem zeros_get (ts : List Ty) {i : Nat} (hi : i < ts.length) : (Val.zeros ts)[i]? = some (Val.zero ts[i]) := by
  induction ts generalizing i with
  | nil => simp at hi
  | cons t ts ih =>
    cases i with
    | zero => rfl
    | succ i => simpa [Val.zeros] using ih (i := i) (by simpa using hi)

theorem safe_zero (P : Platform) (s : Mode) (k : Nat) (h1 : 1 ≤ k) (h8 : k ≤ 8) : Safe P s k 0 := by
  obtain ⟨H, B, hH, hB, e1, e2, e3, e4, e5, e6⟩ := pows ⟨h1, h8⟩
  refine ⟨?_, Or.inr ?_⟩
  · cases s <;> simp only [Representable, InRange, e3] <;> omega
  · rw [e3]; omega

end Upd

namespace Upd
open Spec

theorem fromEndianess_shift {P : Platform} {w : Nat} {e : Endian} {m m' : Mem} {o o' n : Nat}
    (h : ∀ k, k < n → m'[o' + k]? = m[o + k]?) :
    fromEndianess P w e m' o' n = fromEndianess P w e m o n := by
  have hrd : ∀ k, k < n → m'.rd (o' + k) = m.rd (o + k) := by
    intro k hk; unfold Mem.rd; rw [h k hk]
  have hrdN : ∀ n' o o', (∀ k, k < n' → m'.rd (o' + k) = m.rd (o + k)) → m'.rdN o' n' = m.rdN o n' := by
    intro n'
    induction n' with
    | zero => intros; rfl
    | succ n' ih =>
      intro o o' hk
      have h0 := hk 0 (by omega)
      rw [Nat.add_zero, Nat.add_zero] at h0
      rw [Mem.rdN, Mem.rdN, h0, ih (o + 1) (o' + 1) (fun k hk' => by
        have := hk (k + 1) (by omega)
        rwa [show o' + (k + 1) = o' + 1 + k by omega, show o + (k + 1) = o + 1 + k by omega] at this)]
  unfold fromEndianess
  rw [hrdN n o o' hrd]
  congr 1
  unfold fromEndianessImpl
  have key : ∀ (rem i shift : Nat) (r : BitVec w), i + rem = n →
      fromEndianessLoop P w e m' o' n rem i shift r = fromEndianessLoop P w e m o n rem i shift r := by
    intro rem
    induction rem with
    | zero => intros; rfl
    | succ rem ih =>
      intro i shift r hi
      rw [fromEndianessLoop, fromEndianessLoop, hrd _ (by cases e <;> simp only [endianPos] <;> omega)]
      congr 1
      funext b
      congr 1
      funext t
      exact ih _ _ _ (by omega)
  exact key n 0 0 _ (by omega)

mutual
/-- Reading depends only on the announced bytes, wherever they are. -/
theorem readAs_shift {P : Platform} {e : Endian} {s : Mode} : ∀ (t : Ty) (m m' : Mem) (o o' : Nat), Loose t →
    (∀ k, k < t.serSize → m'[o' + k]? = m[o + k]?) → readAs P e s t m' o' = readAs P e s t m o
  | .bool, m, m', o, o', _, h => by
    have h0 := h 0 (by simp [Ty.serSize])
    rw [Nat.add_zero, Nat.add_zero] at h0
    rw [readAs, readAs, readBool, readBool]
    unfold Mem.rd
    rw [h0]
  | .uint n, m, m', o, o', _, h => by
    simp only [Ty.serSize] at h
    rw [readAs, readAs, readUint, readUint, fromEndianess_shift h]
  | .sint k, m, m', o, o', _, h => by
    simp only [Ty.serSize] at h
    rw [readAs, readAs, readSint, readSint, fromEndianess_shift h]
  | .arr t n, m, m', o, o', hl, h => by
    simp only [Ty.serSize] at h
    simp only [Loose] at hl
    rw [readAs, readAs]
    congr 1
    induction n generalizing o o' with
    | zero => rfl
    | succ n ih =>
      rw [Nat.succ_mul] at h
      rw [readLoop, readLoop, readAs_shift t m m' o o' hl.1 (fun k hk => h k (by omega)),
        ih (o + t.sizeof) (o' + t.sizeof) (fun k hk => by
          have := h (t.sizeof + k) (by omega)
          rwa [← Nat.add_assoc, ← Nat.add_assoc] at this)]
  | .user _ fs, m, m', o, o', hl, h => by
    simp only [Ty.serSize] at h
    simp only [Loose] at hl
    rw [readAs, readAs, readAll_shift fs m m' o o' hl h]

theorem readAll_shift {P : Platform} {e : Endian} {s : Mode} : ∀ (ts : List Ty) (m m' : Mem) (o o' : Nat), LooseAll ts →
    (∀ k, k < Ty.serSizes ts → m'[o' + k]? = m[o + k]?) → readAll P e s ts m' o' = readAll P e s ts m o
  | [], m, m', o, o', _, _ => rfl
  | t :: ts, m, m', o, o', hl, h => by
    simp only [Ty.serSizes] at h
    simp only [LooseAll] at hl
    rw [readAll, readAll, readAs_shift t m m' o o' hl.1 (fun k hk => h k (by omega)),
      readAll_shift ts m m' (o + t.serSize) (o' + t.serSize) hl.2 (fun k hk => by
        have := h (t.serSize + k) (by omega)
        rwa [← Nat.add_assoc, ← Nat.add_assoc] at this)]
end

end Upd
