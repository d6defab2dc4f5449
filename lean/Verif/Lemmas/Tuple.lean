import Verif.Lemmas.Frame
import Verif.Lemmas.TypeList
import Verif.Model.Tuple

/-! Helper lemmas on tuples and views. -/

namespace Upd
open Spec TypeList

theorem serSizes_eq (ts : List Ty) : Ty.serSizes ts = (ts.map Ty.serSize).sum := by
  induction ts with
  | nil => rfl
  | cons t ts ih => simp [Ty.serSizes, ih]

theorem View.size_eq (V : View) : V.size = Ty.serSizes V.ts := by
  rw [View.size, sum11_eq, serSizes_eq]; simp

theorem elemOffset_eq {ts : List Ty} {i : Nat} (h : i ≤ ts.length) : elemOffset ts i = some (Ty.serSizes (ts.take i)) := by
  rw [elemOffset, clip11_zero, if_pos (by simpa using h)]
  simp only [List.nil_append, Option.map_some, sum11_eq, serSizes_eq, Nat.zero_add, List.map_take]

theorem View.indices_eq (V : View) : V.indices = List.range V.ts.length := by
  rw [View.indices, makeIndexSequence11_eq, List.append_nil]

theorem serSizes_take_lt {ts : List Ty} {i : Nat} (h : i < ts.length) :
    Ty.serSizes (ts.take i) + (ts[i]).serSize ≤ Ty.serSizes ts := by
  induction ts generalizing i with
  | nil => simp at h
  | cons t ts ih =>
    cases i with
    | zero => simp [Ty.serSizes]
    | succ i =>
      have := ih (i := i) (by simpa using h)
      simp only [List.take_succ_cons, Ty.serSizes, List.getElem_cons_succ]
      omega

theorem serSizes_take_lt_of_lt {ts : List Ty} {i j : Nat} (hij : i < j) (h : j ≤ ts.length) :
    Ty.serSizes (ts.take i) + (ts[i]'(by omega)).serSize ≤ Ty.serSizes (ts.take j) := by
  have := serSizes_take_lt (ts := ts.take j) (i := i) (by rw [List.length_take]; omega)
  rw [List.take_take, Nat.min_eq_left (by omega)] at this
  simpa using this

theorem View.get_eq (P : Platform) (V : View) {i : Nat} (h : i < V.ts.length) (mem : Mem) :
    V.get P i mem = readAs P V.e V.s V.ts[i] mem (V.off + Ty.serSizes (V.ts.take i)) := by
  rw [View.get, at11_eq, elemOffset_eq (by omega), List.getElem?_eq_getElem h]

theorem View.set_eq (P : Platform) (V : View) {i : Nat} (h : i < V.ts.length) (v : Val) (mem : Mem) :
    V.set P i v mem = writeAs P V.e V.s V.ts[i] v mem (V.off + Ty.serSizes (V.ts.take i)) := by
  rw [View.set, at11_eq, elemOffset_eq (by omega), List.getElem?_eq_getElem h]

theorem View.getIt_eq (P : Platform) (V : View) {i : Nat} (h : i < V.ts.length) (mem : Mem) :
    V.getIt P i mem = readAsIt P V.e V.s V.ts[i] mem (V.off + Ty.serSizes (V.ts.take i)) := by
  rw [View.getIt, at11_eq, elemOffset_eq (by omega), List.getElem?_eq_getElem h]

theorem View.setIt_eq (P : Platform) (V : View) {i : Nat} (h : i < V.ts.length) (v : Val) (mem : Mem) :
    V.setIt P i v mem = writeAsIt P V.e V.s V.ts[i] v mem (V.off + Ty.serSizes (V.ts.take i)) := by
  rw [View.setIt, at11_eq, elemOffset_eq (by omega), List.getElem?_eq_getElem h]

theorem View.gets_eq (P : Platform) (V : View) (mem : Mem) :
    V.gets P (List.range V.ts.length) mem = readAll P V.e V.s V.ts mem V.off := by
  have key : ∀ (suf pre : List Ty), V.ts = pre ++ suf →
      V.gets P ((List.range suf.length).map (pre.length + ·)) mem =
        readAll P V.e V.s suf mem (V.off + Ty.serSizes pre) := by
    intro suf
    induction suf with
    | nil => intro pre _; rfl
    | cons t suf ih =>
      intro pre hpre
      have hlt : pre.length < V.ts.length := by rw [hpre]; simp
      have hget : V.ts[pre.length] = t := by simp [hpre]
      have htake : V.ts.take pre.length = pre := by simp [hpre]
      rw [List.length_cons, List.range_succ_eq_map, List.map_cons, View.gets, Nat.add_zero, V.get_eq P hlt, hget,
        htake, readAll]
      have := ih (pre ++ [t]) (by simp [hpre])
      have e1 : Ty.serSizes (pre ++ [t]) = Ty.serSizes pre + t.serSize := by simp [serSizes_eq]
      rw [e1, ← Nat.add_assoc] at this
      rw [← this]
      congr 1
      funext v
      congr 2
      rw [List.map_map]
      apply List.map_congr_left
      intro a _
      simp only [Function.comp_apply, List.length_append, List.length_cons, List.length_nil]
      omega
  have := key V.ts [] rfl
  simpa [Ty.serSizes] using this

theorem View.lay_eq (P : Platform) (V : View) (vs : List Val) (mem : Mem) :
    V.lay P (List.range V.ts.length) vs mem = writeAll P V.e V.s V.ts vs mem V.off := by
  have key : ∀ (suf pre : List Ty) (vs : List Val) (mem : Mem), V.ts = pre ++ suf →
      V.lay P ((List.range suf.length).map (pre.length + ·)) vs mem =
        writeAll P V.e V.s suf vs mem (V.off + Ty.serSizes pre) := by
    intro suf
    induction suf with
    | nil => intro pre vs mem _; cases vs <;> simp [View.lay, writeAll]
    | cons t suf ih =>
      intro pre vs mem hpre
      have hlt : pre.length < V.ts.length := by rw [hpre]; simp
      have hget : V.ts[pre.length] = t := by simp [hpre]
      have htake : V.ts.take pre.length = pre := by simp [hpre]
      cases vs with
      | nil => simp [List.range_succ_eq_map, View.lay, writeAll]
      | cons v vs =>
        rw [List.length_cons, List.range_succ_eq_map, List.map_cons, View.lay, Nat.add_zero, V.set_eq P hlt, hget,
          htake, writeAll]
        have e1 : Ty.serSizes (pre ++ [t]) = Ty.serSizes pre + t.serSize := by simp [serSizes_eq]
        congr 1
        funext m
        have := ih (pre ++ [t]) vs m (by simp [hpre])
        rw [e1, ← Nat.add_assoc] at this
        rw [← this]
        congr 1
        rw [List.map_map]
        apply List.map_congr_left
        intro a _
        simp only [Function.comp_apply, List.length_append, List.length_cons, List.length_nil]
        omega
  have := key V.ts [] vs mem rfl
  simpa [Ty.serSizes] using this

/-! Reading depends only on the announced bytes. -/

/-- The two memories agree on `[off, off + n)`. -/
def SameOn (m m' : Mem) (off n : Nat) : Prop := ∀ i, off ≤ i → i < off + n → m'[i]? = m[i]?

theorem SameOn.mono {m m' : Mem} {off n off' n' : Nat} (h : SameOn m m' off n) (h1 : off ≤ off')
    (h2 : off' + n' ≤ off + n) : SameOn m m' off' n' := fun i hi1 hi2 => h i (by omega) (by omega)

theorem SameOn.rd {m m' : Mem} {off n i : Nat} (h : SameOn m m' off n) (h1 : off ≤ i) (h2 : i < off + n) :
    m'.rd i = m.rd i := by unfold Mem.rd; rw [h i h1 h2]

theorem SameOn.rdN {m m' : Mem} {off n : Nat} (h : SameOn m m' off n) : m'.rdN off n = m.rdN off n := by
  induction n generalizing off with
  | zero => rfl
  | succ n ih =>
    rw [Mem.rdN, Mem.rdN, h.rd (by omega) (by omega), ih (h.mono (by omega) (by omega))]

theorem SameOn.fromEndianess {P : Platform} {w : Nat} {e : Endian} {m m' : Mem} {off n : Nat}
    (h : SameOn m m' off n) : Upd.fromEndianess P w e m' off n = Upd.fromEndianess P w e m off n := by
  unfold Upd.fromEndianess
  rw [h.rdN]
  congr 1
  unfold fromEndianessImpl
  have key : ∀ (rem i shift : Nat) (r : BitVec w), i + rem = n →
      fromEndianessLoop P w e m' off n rem i shift r = fromEndianessLoop P w e m off n rem i shift r := by
    intro rem
    induction rem with
    | zero => intros; rfl
    | succ rem ih =>
      intro i shift r hi
      rw [fromEndianessLoop, fromEndianessLoop, h.rd (by omega) (by cases e <;> simp only [endianPos] <;> omega)]
      congr 1
      funext b
      congr 1
      funext t
      exact ih _ _ _ (by omega)
  exact key n 0 0 _ (by omega)

mutual
theorem readAs_congr {P : Platform} {e : Endian} {s : Mode} : ∀ (t : Ty) (m m' : Mem) (off : Nat), Loose t →
    SameOn m m' off t.serSize → readAs P e s t m' off = readAs P e s t m off
  | .bool, m, m', off, _, h => by
    simp only [Ty.serSize] at h
    rw [readAs, readAs, readBool, readBool, h.rd (by omega) (by omega)]
  | .uint n, m, m', off, _, h => by
    simp only [Ty.serSize] at h
    rw [readAs, readAs, readUint, readUint, h.fromEndianess]
  | .sint k, m, m', off, _, h => by
    simp only [Ty.serSize] at h
    rw [readAs, readAs, readSint, readSint, h.fromEndianess]
  | .arr t n, m, m', off, hl, h => by
    simp only [Ty.serSize] at h
    simp only [Loose] at hl
    rw [readAs, readAs]
    congr 1
    induction n generalizing off with
    | zero => rfl
    | succ n ih =>
      rw [Nat.succ_mul] at h
      rw [readLoop, readLoop, readAs_congr t m m' off hl.1 (h.mono (by omega) (by omega)),
        ih (off + t.sizeof) (h.mono (by omega) (by omega))]
  | .user _ fs, m, m', off, hl, h => by
    simp only [Ty.serSize] at h
    simp only [Loose] at hl
    rw [readAs, readAs, readAll_congr fs m m' off hl h]

theorem readAll_congr {P : Platform} {e : Endian} {s : Mode} : ∀ (ts : List Ty) (m m' : Mem) (off : Nat), LooseAll ts →
    SameOn m m' off (Ty.serSizes ts) → readAll P e s ts m' off = readAll P e s ts m off
  | [], m, m', off, _, _ => rfl
  | t :: ts, m, m', off, hl, h => by
    simp only [Ty.serSizes] at h
    simp only [LooseAll] at hl
    rw [readAll, readAll, readAs_congr t m m' off hl.1 (h.mono (by omega) (by omega)),
      readAll_congr ts m m' _ hl.2 (h.mono (by omega) (by omega))]
end

/-! Element-wise facts -/

theorem wfs_get {ts : List Ty} (h : Ty.WFs ts) {i : Nat} (hi : i < ts.length) : (ts[i]).WF := by
  induction ts generalizing i with
  | nil => simp at hi
  | cons t ts ih =>
    simp only [Ty.WFs] at h
    cases i with
    | zero => exact h.1
    | succ i => exact ih h.2 (by simpa using hi)

theorem looseAll_get {ts : List Ty} (h : LooseAll ts) {i : Nat} (hi : i < ts.length) : Loose ts[i] := by
  induction ts generalizing i with
  | nil => simp at hi
  | cons t ts ih =>
    simp only [LooseAll] at h
    cases i with
    | zero => exact h.1
    | succ i => exact ih h.2 (by simpa using hi)

theorem packedAll_get {ts : List Ty} (h : PackedAll ts) {i : Nat} (hi : i < ts.length) : Packed ts[i] := by
  induction ts generalizing i with
  | nil => simp at hi
  | cons t ts ih =>
    simp only [PackedAll] at h
    cases i with
    | zero => exact h.1
    | succ i => exact ih h.2 (by simpa using hi)

theorem fitsAll_length {leaf : Nat → Int → Prop} : ∀ {ts : List Ty} {vs : List Val}, Val.FitsAll leaf ts vs →
    vs.length = ts.length
  | [], [], _ => rfl
  | _ :: ts, _ :: vs, h => by
    simp only [Val.FitsAll] at h
    simp [fitsAll_length h.2]
  | [], _ :: _, h | _ :: _, [], h => by simp [Val.FitsAll] at h

theorem fitsAll_get {leaf : Nat → Int → Prop} {ts : List Ty} {vs : List Val} (h : Val.FitsAll leaf ts vs) {i : Nat}
    (hi : i < ts.length) (hi' : i < vs.length) : Val.Fits leaf ts[i] vs[i] := by
  induction ts generalizing vs i with
  | nil => simp at hi
  | cons t ts ih =>
    cases vs with
    | nil => simp at hi'
    | cons v vs =>
      simp only [Val.FitsAll] at h
      cases i with
      | zero => exact h.1
      | succ i => exact ih h.2 (by simpa using hi) (by simpa using hi')

theorem fitsAll_set {leaf : Nat → Int → Prop} {ts : List Ty} {vs : List Val} (h : Val.FitsAll leaf ts vs) {i : Nat}
    (hi : i < ts.length) {v : Val} (hv : Val.Fits leaf ts[i] v) : Val.FitsAll leaf ts (vs.set i v) := by
  induction ts generalizing vs i with
  | nil => simp at hi
  | cons t ts ih =>
    cases vs with
    | nil => simp [Val.FitsAll] at h
    | cons w vs =>
      simp only [Val.FitsAll] at h
      cases i with
      | zero => simp only [List.set_cons_zero, Val.FitsAll]; exact ⟨hv, h.2⟩
      | succ i =>
        simp only [List.set_cons_succ, Val.FitsAll]
        exact ⟨h.1, ih h.2 (by simpa using hi) hv⟩

theorem readAll_length {P : Platform} {e : Endian} {s : Mode} : ∀ {ts : List Ty} {mem : Mem} {off : Nat} {vs : List Val},
    readAll P e s ts mem off = .ok vs → vs.length = ts.length
  | [], _, _, vs, h => by rw [readAll] at h; injection h with h; rw [← h]; rfl
  | t :: ts, mem, off, vs, h => by
    rw [readAll] at h
    obtain ⟨v, _, h⟩ := except_bind_eq_ok h
    obtain ⟨ws, hws, h⟩ := except_bind_eq_ok h
    injection h with h
    rw [← h]
    simp [readAll_length hws]

theorem readAll_get {P : Platform} {e : Endian} {s : Mode} {ts : List Ty} {mem : Mem} {off : Nat} {vs : List Val}
    (h : readAll P e s ts mem off = .ok vs) {i : Nat} (hi : i < ts.length) (hi' : i < vs.length) :
    readAs P e s ts[i] mem (off + Ty.serSizes (ts.take i)) = .ok vs[i] := by
  induction ts generalizing off vs i with
  | nil => simp at hi
  | cons t ts ih =>
    rw [readAll] at h
    obtain ⟨v, hv, h⟩ := except_bind_eq_ok h
    obtain ⟨ws, hws, h⟩ := except_bind_eq_ok h
    injection h with h
    subst h
    cases i with
    | zero => simpa [Ty.serSizes] using hv
    | succ i =>
      have := ih hws (i := i) (by simpa using hi) (by simpa using hi')
      simp only [List.take_succ_cons, Ty.serSizes, List.getElem_cons_succ]
      rw [← Nat.add_assoc]
      exact this

/-- Each element of a view can be read from the memory where the whole list was laid. -/
theorem cellsAll_get {e : Endian} {s : Mode} {leaf : Nat → Int → Prop} {ts : List Ty} {vs : List Val} {mem : Mem}
    {off : Nat} (hl : LooseAll ts) (hf : Val.FitsAll leaf ts vs) (h : Matches mem off (cellsAll e s ts vs)) {i : Nat}
    (hi : i < ts.length) (hi' : i < vs.length) :
    Matches mem (off + Ty.serSizes (ts.take i)) (cells e s ts[i] vs[i]) := by
  induction ts generalizing vs off i with
  | nil => simp at hi
  | cons t ts ih =>
    cases vs with
    | nil => simp at hi'
    | cons v vs =>
      simp only [Val.FitsAll] at hf
      simp only [LooseAll] at hl
      simp only [cellsAll] at h
      obtain ⟨h1, h2⟩ := matches_append h
      rw [cells_length e s leaf t v hl.1 hf.1] at h2
      cases i with
      | zero => simpa [Ty.serSizes] using h1
      | succ i =>
        have := ih hl.2 hf.2 h2 (i := i) (by simpa using hi) (by simpa using hi')
        simp only [List.take_succ_cons, Ty.serSizes, List.getElem_cons_succ]
        rw [← Nat.add_assoc]
        exact this

theorem matches_cellsAll_of_get {e : Endian} {s : Mode} {leaf : Nat → Int → Prop} {ts : List Ty} {vs : List Val}
    {mem : Mem} {off : Nat} (hl : LooseAll ts) (hf : Val.FitsAll leaf ts vs)
    (h : ∀ i (hi : i < ts.length) (hi' : i < vs.length),
      Matches mem (off + Ty.serSizes (ts.take i)) (cells e s ts[i] vs[i])) : Matches mem off (cellsAll e s ts vs) := by
  induction ts generalizing vs off with
  | nil => cases vs <;> (intro i b hi; simp [cellsAll] at hi)
  | cons t ts ih =>
    cases vs with
    | nil => simp [Val.FitsAll] at hf
    | cons v vs =>
      simp only [Val.FitsAll] at hf
      simp only [LooseAll] at hl
      have h0 := h 0 (by simp) (by simp)
      simp only [List.take_zero, Ty.serSizes, Nat.add_zero, List.getElem_cons_zero] at h0
      have hrest := ih (off := off + t.serSize) hl.2 hf.2 (by
        intro i hi hi'
        have := h (i + 1) (by simpa using hi) (by simpa using hi')
        simp only [List.take_succ_cons, Ty.serSizes, List.getElem_cons_succ] at this
        rw [← Nat.add_assoc] at this
        exact this)
      have hlen := cells_length e s leaf t v hl.1 hf.1
      simp only [cellsAll]
      intro i b hi
      by_cases hlt : i < (cells e s t v).length
      · rw [List.getElem?_append_left hlt] at hi
        exact h0 i b hi
      · rw [List.getElem?_append_right (by omega)] at hi
        have := hrest (i - (cells e s t v).length) b hi
        rw [show off + i = off + t.serSize + (i - (cells e s t v).length) by omega]
        exact this

end Upd
