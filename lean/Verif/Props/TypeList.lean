import Verif.Lemmas.TypeList2

/-!
# Index type and type-list algorithms (C26, C28)
-/

namespace Upd
open TypeList

/-! ## C26 -/

/-- C26. For `n` callbacks, `keyring::index_t` (of `smallestUnsigned n` bytes) is an unsigned type of 1, 2, 4 or 8 bytes which can
hold `n` (hence every index, and `n` itself, which is not an index), and no smaller one can. -/
theorem C26_index_type (n : Nat) (hn : n < 2 ^ 64) :
    smallestUnsigned n ∈ [1, 2, 4, 8] ∧ n < 256 ^ smallestUnsigned n ∧
      ∀ k ∈ [1, 2, 4, 8], n < 256 ^ k → smallestUnsigned n ≤ k := by
  rcases smallestUnsigned_cases n hn with h | h | h | h
  all_goals
    rw [h.1]
    refine ⟨by simp, by simp; omega, ?_⟩
    intro k hk hlt
    simp only [List.mem_cons, List.not_mem_nil, or_false] at hk
    rcases hk with rfl | rfl | rfl | rfl <;> simp at hlt <;> omega

example : smallestUnsigned 255 = 1 ∧ smallestUnsigned 256 = 2 ∧ smallestUnsigned 65536 = 4 := by
  refine ⟨?_, ?_, ?_⟩ <;> decide

/-! ## C28 -/

/-- C28, `at`. Also: it is the element at that position. -/
theorem C28_at {α : Type} (l : List α) (i : Nat) : at17 l i = at11 l i ∧ at11 l i = l[i]? :=
  ⟨by rw [at17_eq, at11_eq], at11_eq l i⟩

/-- C28, `max`. Also: it is the greatest value of the list. -/
theorem C28_max (l : List Nat) (h : l ≠ []) :
    ∃ m, max17 l = some m ∧ max11 l = some m ∧ m ∈ l ∧ ∀ x ∈ l, x ≤ m := by
  obtain ⟨a, h1, h2⟩ := max17_spec h
  obtain ⟨b, h3, h4⟩ := max11_spec h
  have := isMax_unique h2 h4
  subst this
  exact ⟨a, h1, h3, h2.1, h2.2⟩

/-- C28, `find`. If the element occurs exactly once, both implementations give its position. If it does not occur, or
occurs several times, the C++17 one does not compile. The default one gives the first position. -/
theorem C28_find {α : Type} [DecidableEq α] (l : List α) (t : α) (i : Nat) :
    (find17 l t = some i ↔ l[i]? = some t ∧ ∀ j, j ≠ i → l[j]? ≠ some t) ∧
    (find11 t 0 l = some i ↔ l[i]? = some t ∧ ∀ j, j < i → l[j]? ≠ some t) ∧
    (find17 l t = some i → find11 t 0 l = some i) := by
  have h1 := find17_spec t l i
  have h2 : find11 t 0 l = some i ↔ l[i]? = some t ∧ ∀ j, j < i → l[j]? ≠ some t := by
    rw [find11_spec]
    constructor
    · rintro ⟨k, rfl, h⟩; simpa using h
    · intro h; exact ⟨i, by omega, h⟩
  refine ⟨h1, h2, fun h => ?_⟩
  rw [h2]
  exact ⟨(h1.mp h).1, fun j hj => (h1.mp h).2 j (by omega)⟩

/-- C28, `sum`. -/
theorem C28_sum (l : List Nat) : sum17 l = sum11 0 l ∧ sum11 0 l = l.sum :=
  ⟨by rw [sum17_eq, sum11_eq]; omega, by rw [sum11_eq]; omega⟩

/-- C28, `clip`. Same sublist when the range is inside the list; both do not compile otherwise, except that the C++17 one
accepts an empty range anywhere. -/
theorem C28_clip {α : Type} (l : List α) (i n : Nat) :
    (i + n ≤ l.length → clip17 l i n = some ((l.drop i).take n) ∧ clip11 i n l [] = some ((l.drop i).take n)) ∧
    (l.length < i + n → n ≠ 0 → clip17 l i n = none ∧ clip11 i n l [] = none) := by
  rw [clip17_eq, clip11_eq]
  constructor
  · intro h
    rw [if_pos (Or.inr h), if_pos (by omega)]
    exact ⟨rfl, rfl⟩
  · intro h h'
    rw [if_neg (by omega), if_neg (by omega)]
    exact ⟨rfl, rfl⟩

/-- C28, `make_index_sequence`: the C++11 implementation is what the standard says of `std::make_index_sequence`. -/
theorem C28_index_sequence (n : Nat) : makeIndexSequence11 n [] = List.range n := by
  rw [makeIndexSequence11_eq, List.append_nil]

example : max17 [3, 9, 4] = some 9 ∧ find17 [5, 6, 7] 6 = some 1 ∧ find17 [5, 6, 6] 6 = none ∧
    find11 6 0 [5, 6, 6] = some 1 ∧ clip17 [1, 2, 3, 4] 1 2 = some [2, 3] ∧ sum17 [1, 2, 3] = 6 ∧
    makeIndexSequence11 3 [] = [0, 1, 2] := ⟨rfl, rfl, rfl, rfl, rfl, rfl, rfl⟩

example : 300 < 256 ^ smallestUnsigned 300 ∧ smallestUnsigned 300 ≤ 2 :=
  ⟨(C26_index_type 300 (by decide)).2.1, (C26_index_type 300 (by decide)).2.2 2 (by decide) (by decide)⟩

example : at17 [5, 6, 7] 3 = none := (C28_at [5, 6, 7] 3).1.trans (C28_at [5, 6, 7] 3).2

example : ∃ m, max17 [3, 9, 4] = some m ∧ max11 [3, 9, 4] = some m ∧ m ∈ [3, 9, 4] ∧ ∀ x ∈ [3, 9, 4], x ≤ m :=
  C28_max [3, 9, 4] (by decide)

example : find17 [5, 6, 6] 6 ≠ some 1 := fun h => ((C28_find [5, 6, 6] 6 1).1.1 h).2 2 (by decide) rfl

example (a b : Nat) : sum17 [a, b] = a + b := by rw [(C28_sum [a, b]).1, (C28_sum [a, b]).2]; simp

example (a b c d : Nat) : clip17 [a, b, c, d] 1 2 = some [b, c] ∧ clip11 3 2 [a, b, c, d] [] = none :=
  ⟨((C28_clip [a, b, c, d] 1 2).1 (by simp)).1, ((C28_clip [a, b, c, d] 3 2).2 (by simp) (by decide)).2⟩

example : makeIndexSequence11 12 [] = List.range 12 := C28_index_sequence 12

end Upd
