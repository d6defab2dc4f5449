import Verif.Spec.Forward
import Verif.Lemmas.Faults
import Verif.Lemmas.Cases

/-! Helper lemmas: canonical encodings. -/

namespace Upd
open Spec

mutual
theorem canonical_eq {e : Endian} {s : Mode} : ∀ (t : Ty) (bs : List Byte), t.WF → bs.length = wireSize t → wire e s t (unwire e s t bs) = canonical e s t bs
  | .bool, bs, _, h => by
    rw [unwire, wire, canonical]
    by_cases h0 : wireValue e bs = 0 <;> simp [h0]
  | .uint n, bs, _, h => by
    simp only [wireSize] at h
    rw [unwire, wire, canonical]
    have := wireBytes_wireValue e bs
    rw [h] at this
    simpa using this
  | .sint k, bs, hw, h => by
    simp only [wireSize] at h
    simp only [Ty.WF] at hw
    have hc : wireValue e bs < 256 ^ k := by
      have := wireValue_lt e bs
      rwa [h] at this
    rw [unwire, wire, canonical, signedCode_signedValue hw hc]
    split
    · exact wireBytes_zero e k
    · have := wireBytes_wireValue e bs
      rwa [h] at this
  | .arr t n, bs, hw, h => by
    simp only [wireSize] at h
    simp only [Ty.WF] at hw
    rw [unwire, wire, canonical, List.flatMap_map]
    have key : ∀ l : List Nat, (∀ i ∈ l, i < n) →
        (l.flatMap fun i => wire e s t (unwire e s t (slice bs (i * wireSize t) (wireSize t)))) =
          l.flatMap fun i => canonical e s t (slice bs (i * wireSize t) (wireSize t)) := by
      intro l
      induction l with
      | nil => intro _; rfl
      | cons i l ih =>
        intro hl
        have hi := hl i List.mem_cons_self
        rw [List.flatMap_cons, List.flatMap_cons, ih fun j hj => hl j (List.mem_cons_of_mem _ hj), canonical_eq t _ hw.1]
        refine slice_length ?_
        have := Nat.mul_le_mul_right (wireSize t) (show i + 1 ≤ n by omega)
        rw [Nat.succ_mul] at this
        omega
    exact key _ fun i hi => List.mem_range.1 hi
  | .user _ fs, bs, hw, h => by
    simp only [wireSize] at h
    simp only [Ty.WF] at hw
    rw [unwire, wire, canonical, canonicals_eq fs bs hw.2 h]

/-- Encoding what the bytes stand for gives the canonical bytes. -/
theorem canonicals_eq {e : Endian} {s : Mode} : ∀ (ts : List Ty) (bs : List Byte), Ty.WFs ts → bs.length = wireSizes ts →
    wires e s ts (unwires e s ts bs) = canonicals e s ts bs
  | [], bs, _, _ => by rw [unwires, wires, canonicals]; intros; contradiction
  | t :: ts, bs, hw, h => by
    simp only [wireSizes] at h
    simp only [Ty.WFs] at hw
    rw [unwires, wires, canonicals, canonical_eq t _ hw.1 (by rw [List.length_take]; omega), canonicals_eq ts _ hw.2 (by rw [List.length_drop]; omega)]
end

theorem chunks_eq (w : Nat) : ∀ (n : Nat) (bs : List Byte), bs.length = n * w → ((List.range n).flatMap fun i => slice bs (i * w) w) = bs
  | 0, bs, h => by
    simp at h
    simp [h]
  | n + 1, bs, h => by
    rw [List.range_succ, List.flatMap_append]
    have h1 : ((List.range n).flatMap fun i => slice bs (i * w) w) = (List.range n).flatMap fun i => slice (bs.take (n * w)) (i * w) w := by
      have key : ∀ l : List Nat, (∀ i ∈ l, i < n) → (l.flatMap fun i => slice bs (i * w) w) = l.flatMap fun i => slice (bs.take (n * w)) (i * w) w := by
        intro l
        induction l with
        | nil => intro _; rfl
        | cons i l ih =>
          intro hl
          have hi := hl i List.mem_cons_self
          rw [List.flatMap_cons, List.flatMap_cons, ih fun j hj => hl j (List.mem_cons_of_mem _ hj)]
          congr 1
          unfold slice
          rw [List.drop_take, List.take_take]
          have := Nat.mul_le_mul_right w (show i + 1 ≤ n by omega)
          rw [Nat.succ_mul] at this
          congr 1
          omega
      exact key _ fun i hi => List.mem_range.1 hi
    rw [Nat.succ_mul] at h
    rw [h1, chunks_eq w n (bs.take (n * w)) (by rw [List.length_take]; omega)]
    simp only [List.flatMap_cons, List.flatMap_nil, List.append_nil, slice]
    rw [List.take_of_length_le (l := bs.drop (n * w)) (by rw [List.length_drop]; omega), List.take_append_drop]

mutual
theorem canonical_id {e : Endian} {s : Mode} (hs : s = .twosComplement ∨ s = .offsetBinary) : ∀ (t : Ty) (bs : List Byte), NoBool t → bs.length = wireSize t →
    canonical e s t bs = bs
  | .bool, bs, hb, _ => by simp [NoBool] at hb
  | .uint n, bs, _, _ => by rw [canonical]
  | .sint k, bs, _, _ => by
    rw [canonical, if_neg]
    rcases hs with rfl | rfl <;> simp [NegZero]
  | .arr t n, bs, hb, h => by
    simp only [wireSize] at h
    simp only [NoBool] at hb
    rw [canonical]
    have key : ∀ l : List Nat, (∀ i ∈ l, i < n) → (l.flatMap fun i => canonical e s t (slice bs (i * wireSize t) (wireSize t))) =
        l.flatMap fun i => slice bs (i * wireSize t) (wireSize t) := by
      intro l
      induction l with
      | nil => intro _; rfl
      | cons i l ih =>
        intro hl
        have hi := hl i List.mem_cons_self
        rw [List.flatMap_cons, List.flatMap_cons, ih fun j hj => hl j (List.mem_cons_of_mem _ hj), canonical_id hs t _ hb]
        refine slice_length ?_
        have := Nat.mul_le_mul_right (wireSize t) (show i + 1 ≤ n by omega)
        rw [Nat.succ_mul] at this
        omega
    rw [key _ fun i hi => List.mem_range.1 hi, chunks_eq _ n bs h]
  | .user _ fs, bs, hb, h => by
    simp only [wireSize] at h
    simp only [NoBool] at hb
    rw [canonical, canonicals_id hs fs bs hb h]

/-- In modes without negative zero, without `bool`, all the bytes are canonical. -/
theorem canonicals_id {e : Endian} {s : Mode} (hs : s = .twosComplement ∨ s = .offsetBinary) : ∀ (ts : List Ty) (bs : List Byte), NoBools ts →
    bs.length = wireSizes ts → canonicals e s ts bs = bs
  | [], bs, _, h => by
    simp only [wireSizes] at h
    rw [canonicals, List.eq_nil_of_length_eq_zero h]
  | t :: ts, bs, hb, h => by
    simp only [wireSizes] at h
    simp only [NoBools] at hb
    rw [canonicals, canonical_id hs t _ hb.1 (by rw [List.length_take]; omega), canonicals_id hs ts _ hb.2 (by rw [List.length_drop]; omega),
      List.take_append_drop]
end

/-- Bytes which can be decoded stand for values which can be encoded. -/
theorem decodable {P : Platform} (hP : P.Valid) {e : Endian} {s : Mode} (hs : Supported P e s) {ts : List Ty} (hw : Ty.WFs ts) (hp : PackedAll ts)
    {mem : Mem} {off : Nat} (hb : off + wireSizes ts ≤ mem.length) (hd : undecodables P e s ts (slice mem off (wireSizes ts)) = none) :
    readAll P e s ts mem off = .ok (unwires e s ts (slice mem off (wireSizes ts))) ∧
      Val.FitsAll (Safe P s) ts (unwires e s ts (slice mem off (wireSizes ts))) := by
  have h1 := readAll_exact hP hs ts mem off hw hp hb
  rw [hd] at h1
  have h1 : readAll P e s ts mem off = .ok (unwires e s ts (slice mem off (wireSizes ts))) := h1
  rcases readAll_cases hP hs ts mem off hw (packedAll_loose ts hp) (by rw [packedAll_serSizes ts hp]; exact hb) with ⟨vs, h2, h3⟩ | ⟨f, h2, _⟩
  · rw [h1] at h2
    cases h2
    exact ⟨h1, h3⟩
  · rw [h1] at h2
    cases h2

end Upd
