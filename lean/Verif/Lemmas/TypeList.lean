import Verif.Model.TypeList

/-! Helper lemmas on the type-list algorithms. -/

namespace Upd.TypeList
variable {α : Type}

theorem at11_eq (l : List α) (i : Nat) : at11 l i = l[i]? := by
  induction l generalizing i with
  | nil => rfl
  | cons t ts ih => cases i with
    | zero => rfl
    | succ i => simpa [at11] using ih i

theorem at17_eq (l : List α) (i : Nat) : at17 l i = l[i]? := by
  unfold at17
  have key : ∀ (l : List α) (n i : Nat), ((l.zipIdx n).find? fun p => p.2 == n + i).map (·.1) = l[i]? := by
    intro l
    induction l with
    | nil => intros; rfl
    | cons t ts ih =>
      intro n i
      rw [List.zipIdx_cons]
      cases i with
      | zero => simp
      | succ i =>
        rw [List.find?_cons_of_neg (by simp)]
        have := ih (n + 1) i
        rw [show n + 1 + i = n + (i + 1) by omega] at this
        rw [this, List.getElem?_cons_succ]
  simpa using key l 0 i

theorem sum11_eq (r : Nat) (l : List Nat) : sum11 r l = r + l.sum := by
  induction l generalizing r with
  | nil => rfl
  | cons t ts ih => rw [sum11, ih, List.sum_cons]; omega

theorem sum17_eq (l : List Nat) : sum17 l = l.sum := by
  unfold sum17
  have : ∀ r, l.foldl (· + ·) r = r + l.sum := by
    induction l with
    | nil => intro r; rfl
    | cons t ts ih => intro r; rw [List.foldl_cons, ih, List.sum_cons]; omega
  simpa using this 0

theorem clip11_zero (n : Nat) (l r : List α) : clip11 0 n l r = if n ≤ l.length then some (r ++ l.take n) else none := by
  induction n generalizing l r with
  | zero => simp [clip11]
  | succ n ih =>
    cases l with
    | nil => simp [clip11]
    | cons t l =>
      rw [clip11, ih]
      simp

theorem clip11_eq (i n : Nat) (l : List α) :
    clip11 i n l [] = if i ≤ l.length ∧ n ≤ l.length - i then some ((l.drop i).take n) else none := by
  induction i generalizing l with
  | zero => rw [clip11_zero]; simp
  | succ i ih =>
    cases l with
    | nil => simp [clip11]
    | cons t l => rw [clip11, ih]; simp

theorem mapM_option_eq {β : Type} (f : α → Option β) (l : List α) (r : List β) :
    l.mapM f = some r ↔ l.map f = r.map some := by
  induction l generalizing r with
  | nil => cases r <;> simp
  | cons a l ih =>
    rw [List.mapM_cons]
    cases h : f a with
    | none => cases r <;> simp [h]
    | some b =>
      cases r with
      | nil =>
        simp
        cases l.mapM f <;> simp
      | cons c r =>
        simp only [Option.bind_eq_bind, Option.bind_some, List.map_cons, h, List.cons.injEq]
        constructor
        · intro h'
          cases hm : l.mapM f with
          | none => rw [hm] at h'; cases h'
          | some r' =>
            rw [hm] at h'
            simp only [Option.bind_some, Option.pure_def, Option.some.injEq, List.cons.injEq] at h'
            obtain ⟨rfl, rfl⟩ := h'
            exact ⟨rfl, (ih r').mp hm⟩
        · rintro ⟨h1, h2⟩
          rw [(ih r).mpr h2]
          injection h1 with h1
          subst h1
          rfl

theorem clip17_eq (i n : Nat) (l : List α) :
    clip17 l i n = if n = 0 ∨ i + n ≤ l.length then some ((l.drop i).take n) else none := by
  unfold clip17
  by_cases h : n = 0 ∨ i + n ≤ l.length
  · rw [if_pos h, mapM_option_eq]
    apply List.ext_getElem?
    intro k
    rw [List.getElem?_map, List.getElem?_map, List.getElem?_take]
    by_cases hk : k < n
    · have hl : i + n ≤ l.length := h.resolve_left (by omega)
      rw [List.getElem?_range hk, if_pos hk, Option.map_some, at17_eq, List.getElem?_drop,
        List.getElem?_eq_getElem (by omega)]
      rfl
    · rw [if_neg hk, List.getElem?_eq_none (by simp; omega)]; rfl
  · rw [if_neg h]
    cases hm : (List.range n).mapM fun k => at17 l (i + k) with
    | none => rfl
    | some r =>
      rw [mapM_option_eq] at hm
      have h1 := congrArg (fun x => x[n - 1]?) hm
      have hlen : r.length = n := by
        have := congrArg List.length hm
        simpa using this.symm
      simp only [List.getElem?_map] at h1
      rw [List.getElem?_range (by omega), List.getElem?_eq_getElem (show n - 1 < r.length by omega)] at h1
      simp only [Option.map_some, at17_eq, Option.some.injEq] at h1
      rw [List.getElem?_eq_none (by omega)] at h1
      cases h1

theorem find11_eq [DecidableEq α] (t : α) (n : Nat) (l : List α) :
    find11 t n l = (l.zipIdx n).head?.elim none (fun _ => (l.findIdx? (· = t)).map (n + ·)) := by
  induction l generalizing n with
  | nil => rfl
  | cons x xs ih =>
    rw [find11]
    simp only [List.zipIdx_cons, List.head?_cons, Option.elim]
    by_cases h : x = t
    · rw [if_pos h]; simp [List.findIdx?_cons, h]
    · rw [if_neg h, ih]
      simp only [List.findIdx?_cons, h, decide_false, Bool.false_eq_true, if_false]
      cases xs with
      | nil => simp
      | cons y ys =>
        simp only [List.zipIdx_cons, List.head?_cons, Option.elim, Option.map_map]
        congr 1
        funext k
        simp only [Function.comp_apply]
        omega

theorem makeIndexSequence11_eq (i : Nat) (is : List Nat) : makeIndexSequence11 i is = List.range i ++ is := by
  induction i generalizing is with
  | zero => rfl
  | succ i ih => rw [makeIndexSequence11, ih, List.range_succ, List.append_assoc]; rfl

end Upd.TypeList
