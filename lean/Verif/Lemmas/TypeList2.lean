import Verif.Lemmas.TypeList

/-! More helper lemmas on the type-list algorithms: `max`, `find`, `smallest_unsigned`. -/

namespace Upd.TypeList
variable {α : Type}

theorem maxFold_spec (l : List Nat) (m : Nat) :
    let r := l.foldl (fun m x => if m < x then x else m) m
    m ≤ r ∧ (∀ x ∈ l, x ≤ r) ∧ (r = m ∨ r ∈ l) := by
  induction l generalizing m with
  | nil => simp
  | cons x l ih =>
    have h := ih (if m < x then x else m)
    simp only [List.foldl_cons]
    refine ⟨?_, ?_, ?_⟩
    · exact Nat.le_trans (by split <;> omega) h.1
    · intro y hy
      rcases List.mem_cons.mp hy with rfl | hy
      · exact Nat.le_trans (by split <;> omega) h.1
      · exact h.2.1 y hy
    · rcases h.2.2 with h' | h'
      · rw [h']; split <;> simp
      · exact Or.inr (List.mem_cons_of_mem _ h')

/-- `m` is the greatest element of `l`. -/
def IsMax (l : List Nat) (m : Nat) : Prop := m ∈ l ∧ ∀ x ∈ l, x ≤ m

theorem isMax_unique {l : List Nat} {a b : Nat} (ha : IsMax l a) (hb : IsMax l b) : a = b :=
  Nat.le_antisymm (hb.2 a ha.1) (ha.2 b hb.1)

theorem max17_spec {l : List Nat} (h : l ≠ []) : ∃ m, max17 l = some m ∧ IsMax l m := by
  cases l with
  | nil => exact absurd rfl h
  | cons v vs =>
    refine ⟨_, rfl, ?_⟩
    obtain ⟨_, h2, h3⟩ := maxFold_spec (v :: vs) v
    refine ⟨?_, h2⟩
    rcases h3 with h3 | h3
    · rw [h3]; simp
    · exact h3

theorem max11_spec : ∀ {l : List Nat}, l ≠ [] → ∃ m, max11 l = some m ∧ IsMax l m
  | [], h => absurd rfl h
  | [v], _ => ⟨v, rfl, by simp [IsMax]⟩
  | a :: b :: l, _ => by
    obtain ⟨m, h1, h2, h3⟩ := max11_spec (l := (if b > a then b else a) :: l) (by simp)
    refine ⟨m, h1, ?_, ?_⟩
    · rcases List.mem_cons.mp h2 with h | h
      · rw [h]; split <;> simp
      · simp [h]
    · intro x hx
      have h4 := h3 (if b > a then b else a) (by simp)
      simp only [List.mem_cons] at hx
      rcases hx with rfl | rfl | hx
      · split at h4 <;> omega
      · split at h4 <;> omega
      · exact h3 x (by simp [hx])
  termination_by l => l.length

theorem find11_spec [DecidableEq α] (t : α) (n : Nat) (l : List α) (i : Nat) :
    find11 t n l = some i ↔ ∃ k, i = n + k ∧ l[k]? = some t ∧ ∀ j, j < k → l[j]? ≠ some t := by
  induction l generalizing n with
  | nil => simp [find11]
  | cons x xs ih =>
    rw [find11]
    by_cases h : x = t
    · subst h
      simp only [if_true, Option.some.injEq]
      constructor
      · rintro rfl
        exact ⟨0, rfl, rfl, by omega⟩
      · rintro ⟨k, rfl, _, h3⟩
        cases k with
        | zero => rfl
        | succ k => exact absurd rfl (h3 0 (by omega))
    · rw [if_neg h, ih]
      constructor
      · rintro ⟨k, rfl, h2, h3⟩
        refine ⟨k + 1, by omega, by simpa using h2, ?_⟩
        intro j hj
        cases j with
        | zero => simpa using h
        | succ j => simpa using h3 j (by omega)
      · rintro ⟨k, rfl, h2, h3⟩
        cases k with
        | zero => simp at h2; exact absurd h2 h
        | succ k =>
          refine ⟨k, by omega, by simpa using h2, ?_⟩
          intro j hj
          simpa using h3 (j + 1) (by omega)

theorem find17_spec [DecidableEq α] (t : α) (l : List α) (i : Nat) :
    find17 l t = some i ↔ l[i]? = some t ∧ ∀ j, j ≠ i → l[j]? ≠ some t := by
  have hnone : ∀ (l : List α) (n : Nat), ((l.zipIdx n).filter fun p => p.1 = t) = [] ↔ ∀ j : Nat, l[j]? ≠ some t := by
    intro l
    induction l with
    | nil => simp
    | cons x xs ih =>
      intro n
      rw [List.zipIdx_cons, List.filter_cons]
      by_cases h : x = t
      · simp only [h, decide_true, if_true]
        constructor
        · intro h'; cases h'
        · intro h'; exact absurd rfl (h' 0)
      · simp only [h, decide_false, Bool.false_eq_true, if_false]
        rw [ih]
        constructor
        · intro h' j
          cases j with
          | zero => simpa using h
          | succ j => simpa using h' j
        · intro h' j
          simpa using h' (j + 1)
  have key : ∀ (l : List α) (n i : Nat),
      (∃ a, ((l.zipIdx n).filter fun p => p.1 = t) = [(a, n + i)]) ↔ l[i]? = some t ∧ ∀ j, j ≠ i → l[j]? ≠ some t := by
    intro l
    induction l with
    | nil => simp
    | cons x xs ih =>
      intro n i
      rw [List.zipIdx_cons, List.filter_cons]
      by_cases h : x = t
      · subst h
        simp only [decide_true, if_true]
        constructor
        · rintro ⟨a, h'⟩
          injection h' with h1 h2
          injection h1 with h3 h4
          have hi : i = 0 := by omega
          subst hi
          refine ⟨rfl, fun j hj => ?_⟩
          cases j with
          | zero => exact absurd rfl hj
          | succ j => simpa using (hnone xs (n + 1)).mp h2 j
        · rintro ⟨h1, h2⟩
          cases i with
          | zero =>
            refine ⟨x, ?_⟩
            rw [(hnone xs (n + 1)).mpr (fun j => by simpa using h2 (j + 1) (by omega))]
            rfl
          | succ i => exact absurd rfl (h2 0 (by omega))
      · simp only [h, decide_false, Bool.false_eq_true, if_false]
        cases i with
        | zero =>
          constructor
          · rintro ⟨a, h'⟩
            have : ∀ q ∈ (xs.zipIdx (n + 1)), n + 1 ≤ q.2 := fun q hq => by
              obtain ⟨h1, _⟩ := List.mem_zipIdx hq
              omega
            have hm : (a, n + 0) ∈ (xs.zipIdx (n + 1)).filter fun p => p.1 = t := by rw [h']; simp
            have := this _ (List.mem_filter.mp hm).1
            exact absurd this (by show ¬ (n + 1 ≤ n + 0); omega)
          · rintro ⟨h1, _⟩
            simp at h1
            exact absurd h1 h
        | succ i =>
          have := ih (n + 1) i
          rw [show n + 1 + i = n + (i + 1) by omega] at this
          rw [this]
          constructor
          · rintro ⟨h1, h2⟩
            refine ⟨by simpa using h1, fun j hj => ?_⟩
            cases j with
            | zero => simpa using h
            | succ j => simpa using h2 j (by omega)
          · rintro ⟨h1, h2⟩
            exact ⟨by simpa using h1, fun j hj => by simpa using h2 (j + 1) (by omega)⟩
  have k0 := key l 0 i
  rw [Nat.zero_add] at k0
  rw [← k0]
  unfold find17
  constructor
  · intro h
    split at h
    · rename_i p hp
      injection h with h
      subst h
      exact ⟨p.1, hp⟩
    · cases h
  · rintro ⟨a, h⟩
    rw [h]

theorem smallestUnsigned_cases (x : Nat) (hx : x < 2 ^ 64) :
    (smallestUnsigned x = 1 ∧ x < 2 ^ 8) ∨ (smallestUnsigned x = 2 ∧ 2 ^ 8 ≤ x ∧ x < 2 ^ 16) ∨
      (smallestUnsigned x = 4 ∧ 2 ^ 16 ≤ x ∧ x < 2 ^ 32) ∨ (smallestUnsigned x = 8 ∧ 2 ^ 32 ≤ x ∧ x < 2 ^ 64) := by
  have e : ∀ u, x % 2 ^ u = x ↔ x < 2 ^ u := by
    intro u
    constructor
    · intro h; rw [← h]; exact Nat.mod_lt _ (Nat.two_pow_pos u)
    · exact Nat.mod_eq_of_lt
  simp only [smallestUnsigned, tryPromote, e]
  split
  · left; omega
  · split
    · right; left; omega
    · split <;> omega

end Upd.TypeList
