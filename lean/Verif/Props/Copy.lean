import Verif.Spec.Copy
import Verif.Props.Params
import Verif.Props.Convert

/-!
# Copies between tuples and views (C86)
-/

namespace Upd
open Upd.Cpp Upd.Spec

theorem initializes_iff {t u : VTy} (ht : Encodable t) (hu : Decodable u) (c : Category) : Initializes ⟨u.readTy, c⟩ t ↔ Copyable t u := by
  constructor
  · intro h
    cases hu with
    | arith i =>
      cases ht with
      | arith j => exact .arith j i
      | user => simp [Initializes, VTy.readTy] at h
      | carr => simp [Initializes, VTy.readTy] at h
      | sarr => simp [Initializes, VTy.readTy] at h
    | user i d _ =>
      simp only [Initializes, VTy.readTy, or_false] at h
      subst h
      exact .user i d _
    | carr n _ _ _ =>
      simp only [Initializes, VTy.readTy, or_false] at h
      subst h
      exact .carr _ n
    | sarr n _ _ _ =>
      simp only [Initializes, VTy.readTy, or_false] at h
      subst h
      exact .sarr _ n
  · intro h
    cases h <;> simp [Initializes, VTy.readTy]

/-- C86: `x = y` compiles if and only if `x` is not const and either the classes are the same, or `x` is not a tuple without elements, `y` is a temporary, it has an element for each of those of `x`, and the elements are
copyable one by one into bytes which can be written. -/
theorem C86_assignments (x y : TupleExpr) :
    Assigns x y ↔ x.isConst = false ∧ (x.cls = y.cls ∨
      ((x.cls.cursor = none → x.cls.ts ≠ []) ∧ y.Temporary ∧
        ∀ (i : Nat) (t : VTy), x.cls.ts[i]? = some t → x.cls.cursor ≠ some .const ∧ Encodable t ∧ ∃ u, y.cls.ts[i]? = some u ∧ Decodable u ∧ Copyable t u)) := by
  refine and_congr_right fun hx => or_congr_right (and_congr (by simp [TupleClass.Inherits]) (and_congr Iff.rfl ?_))
  constructor
  · intro h i t ht
    obtain ⟨hi, _⟩ := List.getElem?_eq_some_iff.mp ht
    obtain ⟨v, ⟨u, hu, hr, rfl⟩, _, hw, t', ht', hin, hwr⟩ := h i hi
    cases ht.symm.trans ht'
    have he := (writes_encodable t).mp hwr
    have hd := (reads_iff u).mp hr
    exact ⟨hw, he, u, hu, hd, (initializes_iff he hd _).mp hin⟩
  · intro h i hi
    obtain ⟨hw, he, u, hu, hd, hc⟩ := h i x.cls.ts[i] (List.getElem?_eq_getElem hi)
    exact ⟨u.readTy, ⟨u, hu, (reads_iff u).mpr hd, rfl⟩, hx, hw, x.cls.ts[i], List.getElem?_eq_getElem hi, (initializes_iff he hd _).mpr hc, (writes_encodable _).mpr he⟩

/-- The types which the examples use: `int` and `long` (0 and 1), an extended class made of one `int`, `int[3]`. -/
def C86_point : VTy := .user 0 false [.arith 0]

/-- Big-endian and little-endian tuples of a `long` and a point; a tuple of an `int`, a point and `int[3]`. -/
def C86_big : TupleClass := ⟨none, .big, .twosComplement, [.arith 1, C86_point]⟩
def C86_little : TupleClass := ⟨none, .little, .twosComplement, [.arith 0, C86_point, .carr (.arith 0) 3]⟩

/-- A temporary of another format, with narrower and more elements, is accepted; a variable is not, nor its temporary in the other direction (there is an `int[3]`). -/
example : Assigns ⟨C86_big, false, .lvalue⟩ ⟨C86_little, false, .rvalue⟩ ∧ ¬ Assigns ⟨C86_big, false, .lvalue⟩ ⟨C86_little, false, .lvalue⟩ ∧
    ¬ Assigns ⟨C86_little, false, .lvalue⟩ ⟨C86_big, false, .rvalue⟩ := by
  refine ⟨(C86_assignments _ _).mpr ⟨rfl, Or.inr ⟨fun _ => by simp [C86_big], ⟨rfl, rfl⟩, ?_⟩⟩, ?_, ?_⟩
  · intro i t h
    refine ⟨by simp [C86_big], ?_⟩
    match i, h with
    | 0, h =>
      cases h
      exact ⟨.arith 1, .arith 0, rfl, .arith 0, .arith 1 0⟩
    | 1, h =>
      cases h
      exact ⟨.user _ _ (by simpa using Encodable.arith 0), C86_point, rfl, .user _ _ (by simpa using Decodable.arith 0), .user _ _ _⟩
    | n + 2, h => simp [C86_big] at h
  · intro h
    rcases ((C86_assignments _ _).mp h).2 with h | ⟨_, h, _⟩
    · simp [C86_big, C86_little] at h
    · exact absurd h.1 (by simp)
  · intro h
    rcases ((C86_assignments _ _).mp h).2 with h | ⟨_, _, h⟩
    · simp [C86_big, C86_little] at h
    · obtain ⟨_, _, u, hu, _⟩ := h 2 _ rfl
      simp [C86_big] at hu

/-- C86, variables and constants: the only tuple-like objects which can be copied from are those of the very same class. -/
theorem C86_sources (x y : TupleExpr) (h : y.cat = .lvalue ∨ y.isConst = true) : Assigns x y ↔ x.isConst = false ∧ x.cls = y.cls := by
  rw [C86_assignments]
  refine and_congr_right fun _ => or_iff_left ?_
  rintro ⟨_, ⟨h1, h2⟩, _⟩
  rcases h with h | h
  · rw [h] at h1; cases h1
  · rw [h] at h2; cases h2

example : ¬ Assigns ⟨C86_big, false, .lvalue⟩ ⟨{ C86_big with e := .little }, false, .lvalue⟩ := by
  rw [C86_sources _ _ (Or.inl rfl)]
  simp [C86_big]

/-- What the comment of `operator=` announces: a tuple-like object which can be modified can be assigned from any tuple-like object which has the same types of elements, all of which can be read and written. -/
def C86_Statement : Prop :=
  ∀ x y : TupleExpr, x.isConst = false → x.cls.cursor ≠ some .const → x.cls.ts = y.cls.ts → (∀ t ∈ x.cls.ts, Decodable t) → Assigns x y

theorem C86_full_statement_is_false : ¬ C86_Statement := by
  intro h
  have := h ⟨C86_big, false, .lvalue⟩ ⟨{ C86_big with e := .little }, false, .lvalue⟩ rfl (by simp [C86_big]) rfl (by
    intro t ht
    simp only [C86_big, List.mem_cons, List.not_mem_nil, or_false] at ht
    rcases ht with rfl | rfl
    · exact .arith 1
    · exact .user _ _ (by simpa using Decodable.arith 0))
  rw [C86_sources _ _ (Or.inl rfl)] at this
  simp [C86_big] at this

/-- It does not hold for temporaries either: no format but its own can be assigned to a tuple which has an element `T[N]`. -/
theorem C86_plain_arrays (x y : TupleExpr) (hc : x.cls ≠ y.cls) (h : ∃ t ∈ x.cls.ts, IsPlainArray t) : ¬ Assigns x y := by
  rw [C86_assignments]
  rintro ⟨_, h' | ⟨_, _, h'⟩⟩
  · exact hc h'
  · obtain ⟨t, ht, u, n, rfl⟩ := h
    obtain ⟨i, hi⟩ := List.mem_iff_getElem?.mp ht
    obtain ⟨_, _, v, _, _, hcp⟩ := h' i _ hi
    cases hcp

example : ¬ Assigns ⟨C86_little, false, .lvalue⟩ ⟨{ C86_little with e := .big }, false, .rvalue⟩ :=
  C86_plain_arrays _ _ (by simp [C86_little]) ⟨.carr (.arith 0) 3, by simp [C86_little], _, _, rfl⟩

/-- C86, for temporaries without `T[N]`. Missing: variables, constants, tuples with elements `T[N]`, tuples without elements, for which the claim is false. -/
theorem C86_assignment_partial (x y : TupleExpr) (hx : x.isConst = false) (hw : x.cls.cursor ≠ some .const) (ht : x.cls.ts = y.cls.ts) (hd : ∀ t ∈ x.cls.ts, Decodable t)
    (hy : y.Temporary) (hn : x.cls.ts ≠ []) (ha : ∀ t ∈ x.cls.ts, ¬ IsPlainArray t) : Assigns x y := by
  refine (C86_assignments x y).mpr ⟨hx, Or.inr ⟨fun _ => hn, hy, ?_⟩⟩
  intro i t hi
  have hm := List.mem_of_getElem? hi
  refine ⟨hw, (hd t hm).encodable, t, ht ▸ hi, hd t hm, ?_⟩
  cases hd t hm with
  | arith i => exact .arith i i
  | user i d _ => exact .user i d _
  | carr n _ _ _ => exact absurd ⟨_, n, rfl⟩ (ha _ hm)
  | sarr n _ _ _ => exact .sarr _ n

example : Assigns ⟨{ C86_big with cursor := some .mutable }, false, .lvalue⟩ ⟨{ C86_big with e := .little }, false, .rvalue⟩ :=
  C86_assignment_partial _ _ rfl (by simp) rfl (by
    intro t ht
    simp only [C86_big, List.mem_cons, List.not_mem_nil, or_false] at ht
    rcases ht with rfl | rfl
    · exact .arith 1
    · exact .user _ _ (by simpa using Decodable.arith 0)) ⟨rfl, rfl⟩ (by simp [C86_big]) (by
    intro t ht
    simp only [C86_big, List.mem_cons, List.not_mem_nil, or_false] at ht
    rcases ht with rfl | rfl <;> simp [IsPlainArray, C86_point])

/-- C86, element by element: `x.set<I>(y.get<J>())` compiles if and only if `x` is not const, its bytes can be written, and the types are copyable. In particular an element can be set from what was got from an element of the same type
if and only if this type is not `T[N]`. -/
theorem C86_get_then_set (x y : TupleExpr) (i j : Nat) {t u : VTy} (ht : x.cls.ts[i]? = some t) (hu : y.cls.ts[j]? = some u) (he : Encodable t) (hd : Decodable u) :
    ((∃ v, GetsAs y j v ∧ Sets x i ⟨v, .rvalue⟩) ↔ x.isConst = false ∧ x.cls.cursor ≠ some .const ∧ Copyable t u) ∧ (Copyable u u ↔ ¬ IsPlainArray u) := by
  constructor
  · constructor
    · rintro ⟨v, ⟨u', hu', _, rfl⟩, hx, hw, t', ht', hin, _⟩
      cases hu.symm.trans hu'
      cases ht.symm.trans ht'
      exact ⟨hx, hw, (initializes_iff he hd _).mp hin⟩
    · rintro ⟨hx, hw, hc⟩
      exact ⟨u.readTy, ⟨u, hu, (reads_iff u).mpr hd, rfl⟩, hx, hw, t, ht, (initializes_iff he hd _).mpr hc, (writes_encodable t).mpr he⟩
  · constructor
    · rintro h ⟨v, n, rfl⟩
      cases h
    · intro h
      cases hd with
      | arith i => exact .arith i i
      | user i d _ => exact .user i d _
      | carr n _ _ _ => exact absurd ⟨_, n, rfl⟩ h
      | sarr n _ _ _ => exact .sarr _ n

/-- `t.set<2>(t.get<2>())` does not compile if the element is `int[3]`. -/
example : ¬ ∃ v, GetsAs ⟨C86_little, false, .lvalue⟩ 2 v ∧ Sets ⟨C86_little, false, .lvalue⟩ 2 ⟨v, .rvalue⟩ := by
  have hd : Decodable (.carr (.arith 0) 3) := .carr 3 (.arith 0) (by simp [NotUser]) (by simp)
  have h := C86_get_then_set ⟨C86_little, false, .lvalue⟩ ⟨C86_little, false, .lvalue⟩ 2 2 rfl rfl hd.encodable hd
  rw [h.1]
  rintro ⟨_, _, h'⟩
  exact h.2.mp h' ⟨_, _, rfl⟩

/-- C86, the function `upd::set`: `upd::set<I>(x, upd::get<J>(y))` compiles in the same cases as `x.set<I>(y.get<J>())`, except that `x` must be an lvalue: the views which `view<I, L>()`
returns have to be given a name. -/
theorem C86_set_function (x y : TupleExpr) (i j : Nat) {t u : VTy} (ht : x.cls.ts[i]? = some t) (hu : y.cls.ts[j]? = some u) (he : Encodable t) (hd : Decodable u) :
    (∃ v, GetsAs y j v ∧ SetsFree x i ⟨v, .rvalue⟩) ↔ x.cat = .lvalue ∧ x.isConst = false ∧ x.cls.cursor ≠ some .const ∧ Copyable t u := by
  rw [← (C86_get_then_set x y i j ht hu he hd).1]
  constructor
  · rintro ⟨v, hv, hl, hs⟩
    exact ⟨hl, v, hv, hs⟩
  · rintro ⟨hl, v, hv, hs⟩
    exact ⟨v, hv, hl, hs⟩

/-- The first element of a tuple, which is a `long`: `upd::set` sets it in a variable, not in a temporary. -/
example : (∃ v, GetsAs ⟨C86_big, true, .lvalue⟩ 0 v ∧ SetsFree ⟨C86_big, false, .lvalue⟩ 0 ⟨v, .rvalue⟩) ∧
    ¬ ∃ v, GetsAs ⟨C86_big, true, .lvalue⟩ 0 v ∧ SetsFree ⟨C86_big, false, .rvalue⟩ 0 ⟨v, .rvalue⟩ := by
  constructor
  · exact (C86_set_function _ _ 0 0 rfl rfl (.arith 1) (.arith 1)).mpr ⟨rfl, rfl, by simp [C86_big], .arith 1 1⟩
  · rw [C86_set_function _ _ 0 0 rfl rfl (.arith 1) (.arith 1)]
    rintro ⟨h, _⟩
    cases h

/-- C86, constness: nothing can be set in a const tuple, in a const view (though the bytes it is bound to can be modified through a copy of it), nor in a view made from a const tuple; an element which can be set through a tuple can be
set through its views. -/
theorem C86_constness (x : TupleExpr) (i : Nat) (v : ValExpr) :
    (x.isConst = true ∨ x.cls.cursor = some .const → ¬ Sets x i v) ∧
    (∀ j l C c k, x.view j l = some C → Sets ⟨C, false, c⟩ k v → x.isConst = false ∧ k < l ∧ Sets x (j + k) v) ∧
    (∀ j l C c k, x.view j l = some C → k < l → Sets x (j + k) v → Sets ⟨C, false, c⟩ k v) ∧
    (x.isConst = true → x.cls.cursor = some .mutable → ∀ c, Sets ⟨x.cls, false, c⟩ i v ↔ ∃ t, x.cls.ts[i]? = some t ∧ Initializes v t ∧ Encodable t) := by
  refine ⟨?_, ?_, ?_, ?_⟩
  · rintro (h | h) ⟨h1, h2, _⟩
    · rw [h] at h1; cases h1
    · exact h2 h
  · intro j l C c k hv hs
    unfold TupleExpr.view at hv
    split at hv
    case h_2 => cases hv
    case h_1 hcur =>
      cases hv
      obtain ⟨_, hw, t, ht, hin, hwr⟩ := hs
      have hx : x.isConst = false := by
        cases hx : x.isConst with
        | false => rfl
        | true => exact absurd (by simp [hx]) hw
      have hkl : k < l := by
        have := (List.getElem?_eq_some_iff.mp ht).1
        rw [List.length_take] at this
        omega
      refine ⟨hx, hkl, hx, fun h => (by rw [hcur] at h; cases h), t, ?_, hin, hwr⟩
      rw [← ht, List.getElem?_take_of_lt hkl, List.getElem?_drop]
  · intro j l C c k hv hkl hs
    unfold TupleExpr.view at hv
    split at hv
    case h_2 => cases hv
    case h_1 =>
      cases hv
      obtain ⟨hx, _, t, ht, hin, hwr⟩ := hs
      refine ⟨rfl, fun h => by simp [hx] at h, t, ?_, hin, hwr⟩
      rw [← ht, List.getElem?_take_of_lt hkl, List.getElem?_drop]
  · intro _ hm c
    constructor
    · rintro ⟨_, _, t, ht, hin, hwr⟩
      exact ⟨t, ht, hin, (writes_encodable t).mp hwr⟩
    · rintro ⟨t, ht, hin, he⟩
      exact ⟨rfl, fun h => (by rw [hm] at h; cases h), t, ht, hin, (writes_encodable t).mpr he⟩

/-- A view of the second element of a tuple: it can be set through the view; not if the tuple is const. -/
example : ∃ C C', TupleExpr.view ⟨C86_big, false, .lvalue⟩ 1 1 = some C ∧ Sets ⟨C, false, .lvalue⟩ 0 ⟨C86_point, .rvalue⟩ ∧
    TupleExpr.view ⟨C86_big, true, .lvalue⟩ 1 1 = some C' ∧ ¬ Sets ⟨C', false, .lvalue⟩ 0 ⟨C86_point, .rvalue⟩ := by
  refine ⟨_, _, rfl, ?_, rfl, ?_⟩
  · exact ⟨rfl, by simp [TupleClass.Writable], C86_point, rfl, Or.inl rfl, by simp [C86_point, VTy.Writes, VTy.WritesAll, VTy.Declared]⟩
  · intro h
    exact absurd ((C86_constness ⟨C86_big, true, .lvalue⟩ 0 ⟨C86_point, .rvalue⟩).2.1 1 1 _ _ 0 rfl h).1 (by simp)

theorem toTys_eq_map (A : Abi) : ∀ ts : List VTy, VTy.toTys A ts = ts.map (VTy.toTy A)
  | [] => rfl
  | t :: ts => by rw [VTy.toTys, toTys_eq_map A ts]; rfl

/-- What `readAs` returns has the shape of the type. -/
theorem readAs_shape {P : Platform} {e : Endian} {s : Mode} {mem : Mem} {off : Nat} : ∀ {t : Ty} {v : Val}, readAs P e s t mem off = .ok v →
    match t with
    | .bool => ∃ b, v = .bool b
    | .uint _ => ∃ z, v = .int z
    | .sint _ => ∃ z, v = .int z
    | .arr _ _ => ∃ vs, v = .arr vs
    | .user _ _ => ∃ vs, v = .user vs
  | .bool, v, h => by rw [readAs] at h; obtain ⟨b, _, h⟩ := except_bind_eq_ok h; exact ⟨b, by cases h; rfl⟩
  | .uint _, v, h => by rw [readAs] at h; obtain ⟨b, _, h⟩ := except_bind_eq_ok h; exact ⟨b, by cases h; rfl⟩
  | .sint _, v, h => by rw [readAs] at h; obtain ⟨b, _, h⟩ := except_bind_eq_ok h; exact ⟨b, by cases h; rfl⟩
  | .arr _ _, v, h => by rw [readAs] at h; obtain ⟨b, _, h⟩ := except_bind_eq_ok h; exact ⟨b, by cases h; rfl⟩
  | .user _ _, v, h => by rw [readAs] at h; obtain ⟨b, _, h⟩ := except_bind_eq_ok h; exact ⟨b, by cases h; rfl⟩

/-- The value of an element of a copyable type has a conversion. -/
theorem copyable_converted {A : Abi} (hA : A.Integers) {t u : VTy} (h : Copyable t u) (hw : (t.toTy A).WF) {P : Platform} {e : Endian} {s : Mode} {mem : Mem} {off : Nat} {v : Val}
    (hr : readAs P e s (u.toTy A) mem off = .ok v) : ∃ y, Converted (t.toTy A) v y := by
  cases h with
  | arith i j =>
    have hv : (∃ z, v = .int z) ∨ ∃ b, v = .bool b := by
      have := readAs_shape hr
      rcases hA j with h | ⟨n, _, h⟩ | ⟨k, _, _, h⟩ <;> simp only [VTy.toTy, h] at this
      · exact .inr this
      · exact .inl this
      · exact .inl this
    refine (C65_conversion hw).2 ?_ v hv
    rcases hA i with h | ⟨n, _, h⟩ | ⟨k, _, _, h⟩
    · exact .inl h
    · exact .inr (.inl ⟨n, h⟩)
    · exact .inr (.inr ⟨k, h⟩)
  | user i d fs =>
    obtain ⟨vs, rfl⟩ := readAs_shape hr
    exact ⟨.user vs, rfl⟩
  | sarr t n =>
    obtain ⟨vs, rfl⟩ := readAs_shape hr
    exact ⟨.arr vs, rfl⟩
  | carr t n =>
    obtain ⟨vs, rfl⟩ := readAs_shape hr
    exact ⟨.arr vs, rfl⟩

/-- C86, effect: once an assignment between different formats compiles, whatever can be read from the source has a conversion to the types of the assigned object, and the assigned object then holds it, provided that it is representable there. -/
theorem C86_copies {A : Abi} (hA : A.Integers) {x y : TupleExpr} (h : Assigns x y) (hne : x.cls ≠ y.cls) {P : Platform} (hP : P.Valid) {V W : View}
    (hV : V.ts = VTy.toTys A x.cls.ts) (hW : W.ts = VTy.toTys A y.cls.ts) (hs : Supported P V.e V.s) (hw : Ty.WFs V.ts) (hl : LooseAll V.ts) {mem : Mem}
    (hb : V.off + V.size ≤ mem.length) {xs : List Val} (hx : xs.length = V.ts.length) (hget : ∀ i (hi : i < xs.length), W.get P i mem = .ok xs[i]) :
    ∃ ys, ConvertedAll V.ts xs ys ∧ (Val.FitsAll (Safe P V.s) V.ts ys → ∃ mem', V.assignAny P W mem = .ok mem' ∧ (∀ i (hi : i < ys.length), V.get P i mem' = .ok ys[i]) ∧
      mem'.length = mem.length ∧ ∀ k, (k < V.off ∨ V.off + V.size ≤ k) → mem'[k]? = mem[k]?) := by
  rcases ((C86_assignments x y).mp h).2 with h | ⟨_, _, h⟩
  · exact absurd h hne
  have key : ∀ (ts : List Ty) (zs : List Val), zs.length = ts.length → (∀ (i : Nat) t z, ts[i]? = some t → zs[i]? = some z → ∃ y, Converted t z y) → ∃ ys, ConvertedAll ts zs ys := by
    intro ts
    induction ts with
    | nil => intro zs h _; cases zs <;> simp at h; exact ⟨[], trivial⟩
    | cons t ts ih =>
      intro zs h hc
      cases zs with
      | nil => simp at h
      | cons z zs =>
        obtain ⟨y, hy⟩ := hc 0 t z rfl rfl
        obtain ⟨ys, hys⟩ := ih zs (by simpa using h) (fun i t' z' a b => hc (i + 1) t' z' (by simpa using a) (by simpa using b))
        exact ⟨y :: ys, hy, hys⟩
  obtain ⟨ys, hys⟩ := key V.ts xs hx (by
    intro i t z ht hz
    have hwt : t.WF := by
      obtain ⟨hi, rfl⟩ := List.getElem?_eq_some_iff.mp ht
      exact wfs_get hw hi
    rw [hV, toTys_eq_map, List.getElem?_map, Option.map_eq_some_iff] at ht
    obtain ⟨t', ht', rfl⟩ := ht
    obtain ⟨_, _, u, hu, _, hcp⟩ := h i t' ht'
    obtain ⟨hi, rfl⟩ := List.getElem?_eq_some_iff.mp hz
    have hg := hget i hi
    have hui : i < W.ts.length := by
      rw [hW, toTys_eq_map, List.length_map]
      exact (List.getElem?_eq_some_iff.mp hu).1
    rw [View.get_eq P W hui] at hg
    have hWi : W.ts[i] = u.toTy A := by
      have : W.ts[i]? = some (u.toTy A) := by rw [hW, toTys_eq_map, List.getElem?_map, hu]; rfl
      rw [List.getElem?_eq_getElem hui] at this
      exact Option.some.inj this
    rw [hWi] at hg
    exact copyable_converted hA hcp hwt hg)
  exact ⟨ys, hys, fun hf => C65_assignment hP hs hw hl hb hget hys hf⟩

/-- The arithmetic types of the example: `uint8_t` (0) and `uint16_t`. -/
def C86_abi : Abi := ⟨fun i => if i = 0 then .uint 1 else .uint 2, fun _ => 8⟩

/-- From `tuple<little, ..., uint16_t, uint8_t[2]>` to `tuple<big, ..., uint8_t, std::array<uint8_t, 2>>`: 513 becomes 1. -/
example : ∃ ys, ConvertedAll [.uint 1, .arr (.uint 1) 2] [.int 513, .arr [.int 7, .int 9]] ys ∧
    (Val.FitsAll (Safe pc .twosComplement) [.uint 1, .arr (.uint 1) 2] ys →
      ∃ mem', (View.mk .big .twosComplement [.uint 1, .arr (.uint 1) 2] 4).assignAny pc (View.mk .little .twosComplement [.uint 2, .arr (.uint 1) 2] 0) [1#8, 2#8, 7#8, 9#8, 0#8, 0#8, 0#8] = .ok mem' ∧
        (∀ i (hi : i < ys.length), (View.mk .big .twosComplement [.uint 1, .arr (.uint 1) 2] 4).get pc i mem' = .ok ys[i]) ∧
        mem'.length = 7 ∧ ∀ k, (k < 4 ∨ 7 ≤ k) → mem'[k]? = [1#8, 2#8, 7#8, 9#8, 0#8, 0#8, 0#8][k]?) := by
  have hA : C86_abi.Integers := by
    intro i
    by_cases h : i = 0
    · exact .inr (.inl ⟨1, by decide, by simp [C86_abi, h]⟩)
    · exact .inr (.inl ⟨2, by decide, by simp [C86_abi, h]⟩)
  refine C86_copies (V := View.mk .big .twosComplement [.uint 1, .arr (.uint 1) 2] 4) (W := View.mk .little .twosComplement [.uint 2, .arr (.uint 1) 2] 0)
    (mem := [1#8, 2#8, 7#8, 9#8, 0#8, 0#8, 0#8]) (xs := [.int 513, .arr [.int 7, .int 9]]) (x := ⟨⟨none, .big, .twosComplement, [.arith 0, .sarr (.arith 0) 2]⟩, false, .lvalue⟩)
    (y := ⟨⟨none, .little, .twosComplement, [.arith 1, .carr (.arith 0) 2]⟩, false, .rvalue⟩) hA ?_ (by simp) pc_valid rfl rfl (pc_supported _ _) (by simp [Ty.WFs, Ty.WF])
    (by simp [LooseAll, Loose, Ty.serSize, Ty.sizeof]) (by decide) rfl ?_
  · refine (C86_assignments _ _).mpr ⟨rfl, Or.inr ⟨fun _ => by simp, ⟨rfl, rfl⟩, ?_⟩⟩
    intro i t h
    refine ⟨by simp, ?_⟩
    match i, h with
    | 0, h =>
      cases h
      exact ⟨.arith 0, .arith 1, rfl, .arith 1, .arith 0 1⟩
    | 1, h =>
      cases h
      exact ⟨.sarr 2 (.arith 0) (by simp [NotUser]), .carr (.arith 0) 2, rfl, .carr 2 (.arith 0) (by simp [NotUser]) (by simp), .carr _ _⟩
    | n + 2, h => simp at h
  · intro i hi
    match i, hi with
    | 0, _ => rfl
    | 1, _ => rfl

end Upd
