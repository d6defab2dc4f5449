import Verif.Lemmas.Tuple2
import Verif.Props.Types
import Verif.Lemmas.Bounds
import Verif.Model.Effect

/-!
# Tuples and views (C15 to C25, C57)

`Tuple.make P e s ts vs` is the storage of `tuple<e, s, ts...>{vs...}`. A `View` is a tuple-like object bound to bytes;
`Tuple.self e s ts` is a tuple on its own storage. `V.get P i mem` is `v.get<i>()`, `V.set P i x mem` is `v.set<i>(x)`.
-/

namespace Upd
open Spec

/-! ## C15 -/

/-- C15. The storage of a tuple is the concatenation of the encodings of its elements, and its size is the sum of the sizes
of these encodings. -/
theorem C15_tuple_layout {P : Platform} (hP : P.Valid) {e : Endian} {s : Mode} (hs : Supported P e s) {ts : List Ty}
    (hw : Ty.WFs ts) (hp : PackedAll ts) {vs : List Val} (hf : Val.FitsAll (Safe P s) ts vs) :
    Tuple.make P e s ts vs = .ok (wires e s ts vs) ∧ (wires e s ts vs).length = (Tuple.self e s ts).size ∧
      (Tuple.self e s ts).size = (ts.map wireSize).sum := by
  have hsize : (Tuple.self e s ts).size = wireSizes ts := by
    rw [View.size_eq]; exact packedAll_serSizes ts hp
  have hlen := wires_length (e := e) (s := s) hp hf
  refine ⟨?_, by rw [hlen, hsize], by rw [hsize, wireSizes_eq]⟩
  have hj : (P.junkBytes (Tuple.self e s ts).size).length = wireSizes ts := by rw [junkBytes_length, hsize]
  have hlay := View.lay_eq P (Tuple.self e s ts) vs (P.junkBytes (Tuple.self e s ts).size)
  rw [← View.indices_eq] at hlay
  show View.lay P (Tuple.self e s ts) (Tuple.self e s ts).indices vs (P.junkBytes (Tuple.self e s ts).size) = _
  rw [hlay]
  show writeAll P e s ts vs (P.junkBytes (Tuple.self e s ts).size) 0 = _
  rw [writeAll_ok hP hs ts vs _ 0 hw (packedAll_loose ts hp) hf (by rw [hj, packedAll_serSizes ts hp]; omega),
    packedAll_cells e s _ ts vs hp hf, overlay_map_some (by rw [hj, hlen]; omega)]
  simp only [splice, List.take_zero, List.nil_append, Nat.zero_add]
  rw [List.drop_eq_nil_of_le (by rw [hj, hlen]; exact Nat.le_refl _), List.append_nil]

example : Tuple.make pc .big .twosComplement [.uint 1, .sint 4, .arr (.uint 2) 2]
      [.int 1, .int (-2), .arr [.int 3, .int 4]] =
    .ok (wires .big .twosComplement [.uint 1, .sint 4, .arr (.uint 2) 2] [.int 1, .int (-2), .arr [.int 3, .int 4]]) :=
  (C15_tuple_layout pc_valid (pc_supported _ _) (by simp [Ty.WFs, Ty.WF])
    (by simp [PackedAll, Packed, Ty.sizeof, wireSize])
    (by simp [Val.FitsAll, Val.Fits, Safe, MinSafe, Representable, InRange])).1
example : wires .big .twosComplement [.uint 1, .sint 4, .arr (.uint 2) 2] [.int 1, .int (-2), .arr [.int 3, .int 4]] =
    [1#8, 0xff#8, 0xff#8, 0xff#8, 0xfe#8, 0#8, 3#8, 0#8, 4#8] := by rfl

/-- Without `PackedAll`, bytes of the storage may be left uninitialised: here the fourth one. (Only if the compiler accepts arrays of
user-extended types, see C14.) -/
theorem C15_gap_counterexample :
    Tuple.make pc .little .twosComplement [.arr (.user 4 [.uint 1, .uint 2]) 1] [.arr [.user [.int 1, .int 2]]] =
      .ok [1#8, 2#8, 0#8, 0xAA#8] := rfl

/-! ## C16 -/

/-- C16. Getting the `i`-th element of a tuple made of `vs...` gives the `i`-th value, possibly on another platform than
the one where the tuple was made. -/
theorem C16_construct_get {P Q : Platform} (hP : P.Valid) (hQ : Q.Valid) {e : Endian} {s : Mode}
    (hs : Supported P e s) (hsQ : Supported Q e s) {ts : List Ty} (hw : Ty.WFs ts) (hl : LooseAll ts) {vs : List Val}
    (hf : Val.FitsAll (Safe P s) ts vs) (hfQ : Val.FitsAll (Safe Q s) ts vs) :
    ∃ mem, Tuple.make P e s ts vs = .ok mem ∧ mem.length = (Tuple.self e s ts).size ∧
      ∀ i (hi : i < vs.length), (Tuple.self e s ts).get Q i mem = .ok vs[i] := by
  have hlay := View.lay_eq P (Tuple.self e s ts) vs (P.junkBytes (Tuple.self e s ts).size)
  rw [← View.indices_eq] at hlay
  have hb : 0 + Ty.serSizes ts ≤ (P.junkBytes (Tuple.self e s ts).size).length := by
    rw [junkBytes_length, View.size_eq]; simp [Tuple.self]
  refine ⟨_, hlay.trans (writeAll_ok hP hs ts vs _ 0 hw hl hf hb), by rw [overlay_length, junkBytes_length], ?_⟩
  intro i hi
  have hi' : i < ts.length := by rw [← fitsAll_length hf]; exact hi
  rw [View.get_eq Q (Tuple.self e s ts) hi']
  apply readAs_ok hQ hsQ _ _ _ _ (wfs_get hw hi') (looseAll_get hl hi') (fitsAll_get hfQ hi' hi)
  exact cellsAll_get hl hf (matches_overlay (by rw [cellsAll_length e s _ ts vs hl hf]; exact hb)) hi' hi

example : ∃ mem, Tuple.make pc .big .signMagnitude [.bool, .sint 2] [.bool true, .int (-300)] = .ok mem ∧
      mem.length = (Tuple.self .big .signMagnitude [.bool, .sint 2]).size ∧
      ∀ i (hi : i < [Val.bool true, .int (-300)].length),
        (Tuple.self .big .signMagnitude [.bool, .sint 2]).get avr i mem = .ok [Val.bool true, .int (-300)][i] :=
  C16_construct_get pc_valid avr_valid (pc_supported _ _) (avr_supported _ _) (by simp [Ty.WFs, Ty.WF])
    (by simp [LooseAll, Loose]) (by simp [Val.FitsAll, Val.Fits, Safe, MinSafe, Representable])
    (by simp [Val.FitsAll, Val.Fits, Safe, MinSafe, Representable])

/-! ## C57 -/

/-- C57. A default-constructed tuple holds zeros, in every format. -/
theorem C57_default_tuple {P : Platform} (hP : P.Valid) {e : Endian} {s : Mode} (hs : Supported P e s) {ts : List Ty}
    (hw : Ty.WFs ts) (hl : LooseAll ts) :
    ∃ mem, Tuple.default P e s ts = .ok mem ∧ mem.length = (Tuple.self e s ts).size ∧
      ∀ i (hi : i < ts.length), ∃ v, (Tuple.self e s ts).get P i mem = .ok v ∧ v.Fits (Safe P s) ts[i] ∧ IsZero v := by
  have hf := zeros_fit (leaf := Safe P s) ts hw (safe_zero P s)
  obtain ⟨mem, h1, h2, h3⟩ := C16_construct_get hP hP hs hs hw hl hf hf
  refine ⟨mem, h1, h2, fun i hi => ?_⟩
  have hi' : i < (Val.zeros ts).length := by rw [fitsAll_length hf]; exact hi
  rw [h3 i hi']
  have := zeros_get ts hi
  rw [List.getElem?_eq_getElem hi'] at this
  injection this with this
  rw [this]
  exact ⟨_, rfl, this ▸ fitsAll_get hf hi hi', zero_isZero _⟩

example : ∃ mem, Tuple.default pc .big .offsetBinary [.sint 2, .arr .bool 2] = .ok mem ∧
      mem.length = (Tuple.self .big .offsetBinary [.sint 2, .arr .bool 2]).size ∧
      ∀ i (hi : i < [Ty.sint 2, .arr .bool 2].length), ∃ v, (Tuple.self .big .offsetBinary [.sint 2, .arr .bool 2]).get pc i mem = .ok v ∧
        v.Fits (Safe pc .offsetBinary) [Ty.sint 2, .arr .bool 2][i] ∧ IsZero v :=
  C57_default_tuple pc_valid (pc_supported _ _) (by simp [Ty.WFs, Ty.WF])
    (by simp [LooseAll, Loose, Ty.serSize, Ty.sizeof])

/-! ## C17 -/

/-- C17. A value which was set is what is got, whatever the tuple held before. -/
theorem C17_set_get {P : Platform} (hP : P.Valid) {V : View} (hs : Supported P V.e V.s) (hw : Ty.WFs V.ts)
    (hl : LooseAll V.ts) {mem : Mem} (hb : V.off + V.size ≤ mem.length) {i : Nat} (hi : i < V.ts.length) {v : Val}
    (hv : v.Fits (Safe P V.s) V.ts[i]) :
    ∃ mem', V.set P i v mem = .ok mem' ∧ V.get P i mem' = .ok v := by
  refine ⟨_, View.set_ok hP hs hw hl hb hi hv, ?_⟩
  rw [View.get_eq P V hi]
  apply readAs_ok hP hs _ _ _ _ (wfs_get hw hi) (looseAll_get hl hi) hv
  exact matches_overlay (by rw [cells_length _ _ _ _ _ (looseAll_get hl hi) hv]; exact elem_in_bounds hi hb)

example (mem : Mem) (h : mem.length = 7) :
    ∃ mem', (View.mk .big .twosComplement [.uint 2, .sint 4] 1).set pc 1 (.int (-123456)) mem = .ok mem' ∧
      (View.mk .big .twosComplement [.uint 2, .sint 4] 1).get pc 1 mem' = .ok (.int (-123456)) :=
  C17_set_get pc_valid (pc_supported _ _) (by simp [Ty.WFs, Ty.WF]) (by simp [LooseAll, Loose])
    (by rw [h]; decide) (by decide) (by simp [Val.Fits, Safe, MinSafe, Representable, InRange])

/-! ## C18 -/

/-- C18. Setting an element changes no other element, on every platform, whatever the content of the storage (the elements
may even hold bytes that cannot be decoded). -/
theorem C18_set_frame {P : Platform} {V : View} (hl : LooseAll V.ts) {i j : Nat} (hi : i < V.ts.length)
    (hj : j < V.ts.length) (hij : i ≠ j) {v : Val} {mem mem' : Mem} (h : V.set P i v mem = .ok mem') :
    V.get P j mem' = V.get P j mem := by
  rw [View.set_eq P V hi] at h
  have hfr := writeAs_frame _ v mem mem' _ (looseAll_get hl hi) h
  rw [View.get_eq P V hj, View.get_eq P V hj]
  apply readAs_congr _ _ _ _ (looseAll_get hl hj)
  intro k hk1 hk2
  apply hfr.2
  have := disjoint_elems hi hj hij
  omega

/-- C18, bytes: setting an element changes no byte outside of it. -/
theorem C18_set_frame_bytes {P : Platform} {V : View} (hl : LooseAll V.ts) {i : Nat} (hi : i < V.ts.length)
    {v : Val} {mem mem' : Mem} (h : V.set P i v mem = .ok mem') :
    mem'.length = mem.length ∧ ∀ k, (k < V.off + ((V.ts.take i).map Ty.serSize).sum ∨
      V.off + ((V.ts.take (i + 1)).map Ty.serSize).sum ≤ k) → mem'[k]? = mem[k]? := by
  rw [View.set_eq P V hi] at h
  have hfr := writeAs_frame _ v mem mem' _ (looseAll_get hl hi) h
  refine ⟨hfr.1, fun k hk => hfr.2 k ?_⟩
  rw [List.take_succ_eq_append_getElem hi, List.map_append, List.sum_append, ← serSizes_eq] at hk
  simp only [List.map_cons, List.map_nil, List.sum_cons, List.sum_nil] at hk
  omega

example : (View.mk .little .twosComplement [.uint 1, .sint 2, .bool] 0).set pc 1 (.int (-2)) [7#8, 0#8, 0#8, 1#8] =
      .ok [7#8, 0xfe#8, 0xff#8, 1#8] ∧ LooseAll [.uint 1, .sint 2, .bool] := ⟨rfl, by simp [LooseAll, Loose]⟩

/-! ## C19 -/

/-- C19. After any sequence of `set`, every element is what a plain list of values updated by the same sequence holds. -/
theorem C19_refines_value_list {P : Platform} (hP : P.Valid) {e : Endian} {s : Mode} (hs : Supported P e s)
    {ts : List Ty} (hw : Ty.WFs ts) (hl : LooseAll ts) {vs : List Val} (hf : Val.FitsAll (Safe P s) ts vs)
    (ops : List (Nat × Val))
    (hops : ∀ op ∈ ops, ∃ h : op.1 < ts.length, op.2.Fits (Safe P s) ts[op.1]) :
    ∃ mem, (do
        let mem ← Tuple.make P e s ts vs
        ops.foldlM (fun m (op : Nat × Val) => (Tuple.self e s ts).set P op.1 op.2 m) mem) = .ok mem ∧
      ∀ i, i < ts.length →
        (Tuple.self e s ts).get P i mem = .ok ((ops.foldl (fun l (op : Nat × Val) => l.set op.1 op.2) vs)[i]?.getD default) := by
  have hlay := View.lay_eq P (Tuple.self e s ts) vs (P.junkBytes (Tuple.self e s ts).size)
  rw [← View.indices_eq] at hlay
  have hb : 0 + Ty.serSizes ts ≤ (P.junkBytes (Tuple.self e s ts).size).length := by
    rw [junkBytes_length, View.size_eq]; simp [Tuple.self]
  have hmake : Tuple.make P e s ts vs = _ := hlay.trans (writeAll_ok hP hs ts vs _ 0 hw hl hf hb)
  rw [hmake, except_bind_ok]
  have hm := matches_overlay (m := P.junkBytes (Tuple.self e s ts).size) (off := 0) (cs := cellsAll e s ts vs)
    (by rw [cellsAll_length e s _ ts vs hl hf]; exact hb)
  have hb' : 0 + Ty.serSizes ts ≤ (overlay (P.junkBytes (Tuple.self e s ts).size) 0 (cellsAll e s ts vs)).length := by
    rw [overlay_length]; exact hb
  show ∃ mem, ops.foldlM (fun m (op : Nat × Val) => (Tuple.self e s ts).set P op.1 op.2 m)
    (overlay (P.junkBytes (Tuple.self e s ts).size) 0 (cellsAll e s ts vs)) = .ok mem ∧ _
  generalize overlay (P.junkBytes (Tuple.self e s ts).size) 0 (cellsAll e s ts vs) = mem at hm hb'
  clear hmake hlay hb
  induction ops generalizing vs mem with
  | nil =>
    refine ⟨mem, rfl, fun i hi => ?_⟩
    have hi' : i < vs.length := by rw [fitsAll_length hf]; exact hi
    rw [View.get_eq P (Tuple.self e s ts) hi, List.foldl_nil, List.getElem?_eq_getElem hi', Option.getD_some]
    exact readAs_ok hP hs _ _ _ _ (wfs_get hw hi) (looseAll_get hl hi) (fitsAll_get hf hi hi')
      (cellsAll_get hl hf hm hi hi')
  | cons op ops ih =>
    obtain ⟨hi, hv⟩ := hops op (by simp)
    have hbV : (Tuple.self e s ts).off + (Tuple.self e s ts).size ≤ mem.length := by
      rw [View.size_eq]; exact hb'
    have hset : (Tuple.self e s ts).set P op.1 op.2 mem =
        .ok (overlay mem (0 + Ty.serSizes (ts.take op.1)) (cells e s ts[op.1] op.2)) :=
      View.set_ok hP (V := Tuple.self e s ts) hs hw hl hbV hi hv
    have hlen := cells_length e s _ _ _ (looseAll_get hl hi) hv
    rw [List.foldlM_cons, hset, except_bind_ok, List.foldl_cons]
    apply ih (fitsAll_set hf hi hv) (fun op' h' => hops op' (by simp [h'])) _ _ (by rw [overlay_length]; exact hb')
    have hf' := fitsAll_set hf hi hv
    apply matches_cellsAll_of_get hl hf'
    intro j hj hj'
    by_cases hij : op.1 = j
    · subst hij
      have e1 : (vs.set op.1 op.2)[op.1] = op.2 := by simp
      rw [e1]
      exact matches_overlay (by rw [hlen]; exact elem_in_bounds hi hbV)
    · have hjv : j < vs.length := by rw [fitsAll_length hf]; exact hj
      have e1 : (vs.set op.1 op.2)[j] = vs[j] := by
        rw [List.getElem_set, if_neg hij]
      rw [e1]
      apply matches_congr _ (cellsAll_get hl hf hm hj hjv)
      intro k hk
      rw [cells_length e s _ _ _ (looseAll_get hl hj) (fitsAll_get hf hj hjv)] at hk
      apply overlay_getElem?_out
      rw [hlen]
      have := disjoint_elems hi hj hij
      show 0 + Ty.serSizes (ts.take j) + k < 0 + Ty.serSizes (ts.take op.1) ∨
        0 + Ty.serSizes (ts.take op.1) + (ts[op.1]).serSize ≤ 0 + Ty.serSizes (ts.take j) + k
      omega

example : ∃ mem, (do
        let mem ← Tuple.make pc .little .twosComplement [.uint 1, .sint 2] [.int 1, .int 2]
        [(1, Val.int (-5)), (0, .int 9), (1, .int 6)].foldlM
          (fun m (op : Nat × Val) => (Tuple.self .little .twosComplement [.uint 1, .sint 2]).set pc op.1 op.2 m) mem) = .ok mem ∧
      ∀ i, i < [Ty.uint 1, .sint 2].length →
        (Tuple.self .little .twosComplement [.uint 1, .sint 2]).get pc i mem =
          .ok (([(1, Val.int (-5)), (0, .int 9), (1, .int 6)].foldl (fun l (op : Nat × Val) => l.set op.1 op.2)
            [.int 1, .int 2])[i]?.getD default) :=
  C19_refines_value_list pc_valid (pc_supported _ _) (by simp [Ty.WFs, Ty.WF]) (by simp [LooseAll, Loose])
    (by simp [Val.FitsAll, Val.Fits, Safe, MinSafe, Representable, InRange]) _
    (by simp [Val.Fits, Safe, MinSafe, Representable, InRange])

/-! ## C20 -/

/-- C20. Two `set` of different elements can be swapped: same storage, byte for byte, whatever it held before. -/
theorem C20_set_order {P : Platform} (hP : P.Valid) {V : View} (hs : Supported P V.e V.s) (hw : Ty.WFs V.ts)
    (hl : LooseAll V.ts) {mem : Mem} (hb : V.off + V.size ≤ mem.length) {i j : Nat} (hi : i < V.ts.length)
    (hj : j < V.ts.length) (hij : i ≠ j) {a b : Val} (ha : a.Fits (Safe P V.s) V.ts[i])
    (hb' : b.Fits (Safe P V.s) V.ts[j]) :
    ∃ mem', (V.set P i a mem >>= V.set P j b) = .ok mem' ∧ (V.set P j b mem >>= V.set P i a) = .ok mem' := by
  rw [View.set_ok hP hs hw hl hb hi ha, View.set_ok hP hs hw hl hb hj hb', except_bind_ok, except_bind_ok,
    View.set_ok hP hs hw hl (by rw [overlay_length]; exact hb) hj hb',
    View.set_ok hP hs hw hl (by rw [overlay_length]; exact hb) hi ha]
  refine ⟨_, rfl, ?_⟩
  have l1 := cells_length V.e V.s _ _ _ (looseAll_get hl hi) ha
  have l2 := cells_length V.e V.s _ _ _ (looseAll_get hl hj) hb'
  have d := disjoint_elems hi hj hij
  rw [overlay_comm (by rw [l2]; exact elem_in_bounds hj hb) (by rw [l1]; exact elem_in_bounds hi hb)
    (by rw [l1, l2]; omega)]

example (mem : Mem) (h : mem.length = 3) :
    ∃ mem', ((View.mk .little .twosComplement [.uint 1, .sint 2] 0).set pc 0 (.int 1) mem >>=
        (View.mk .little .twosComplement [.uint 1, .sint 2] 0).set pc 1 (.int (-1))) = .ok mem' ∧
      ((View.mk .little .twosComplement [.uint 1, .sint 2] 0).set pc 1 (.int (-1)) mem >>=
        (View.mk .little .twosComplement [.uint 1, .sint 2] 0).set pc 0 (.int 1)) = .ok mem' :=
  C20_set_order pc_valid (pc_supported _ _) (by simp [Ty.WFs, Ty.WF]) (by simp [LooseAll, Loose])
    (by rw [h]; decide) (by decide) (by decide) (by decide) (by simp [Val.Fits])
    (by simp [Val.Fits, Safe, MinSafe, Representable, InRange])

/-! ## C21 -/

/-- C21. `view<I, L>()` compiles exactly if the range is inside the tuple, and gives access to the elements `I`, ...,
`I + L - 1` of the tuple, for reading and writing. -/
theorem C21_sub_view (P : Platform) (V : View) (i l : Nat) :
    ((V.sub i l).isSome ↔ i + l ≤ V.ts.length) ∧
    ∀ W, V.sub i l = some W → W.ts = (V.ts.drop i).take l ∧
      (∀ j, j < l → ∀ mem, W.get P j mem = V.get P (i + j) mem) ∧
      (∀ j, j < l → ∀ v mem, W.set P j v mem = V.set P (i + j) v mem) := by
  by_cases h : i + l ≤ V.ts.length
  · have hsub : V.sub i l =
        some ⟨V.e, V.s, (V.ts.drop i).take l, V.off + Ty.serSizes (V.ts.take i)⟩ := by
      rw [View.sub, elemOffset_eq (by omega), TypeList.clip11_eq, if_pos (by omega)]
    rw [hsub]
    refine ⟨by simp [h], ?_⟩
    intro W hW
    injection hW with hW
    subst hW
    have hoff : ∀ j, j < l → Ty.serSizes (V.ts.take (i + j)) =
        Ty.serSizes (V.ts.take i) + Ty.serSizes (((V.ts.drop i).take l).take j) := by
      intro j hj
      rw [List.take_add, List.take_take, Nat.min_eq_left (by omega), serSizes_eq, serSizes_eq, serSizes_eq]
      simp
    refine ⟨rfl, ?_, ?_⟩
    · intro j hj mem
      have hj1 : j < ((V.ts.drop i).take l).length := by simp; omega
      rw [View.get_eq P _ hj1, View.get_eq P V (by omega), hoff j hj, Nat.add_assoc]
      congr 1
      simp
    · intro j hj v mem
      have hj1 : j < ((V.ts.drop i).take l).length := by simp; omega
      rw [View.set_eq P _ hj1, View.set_eq P V (by omega), hoff j hj, Nat.add_assoc]
      congr 1
      simp
  · have hsub : V.sub i l = none := by
      rw [View.sub, TypeList.clip11_eq, if_neg (by omega)]
      cases elemOffset V.ts i <;> rfl
    rw [hsub]
    exact ⟨by simp [h], by intro W hW; cases hW⟩

example : (View.mk .big .twosComplement [.uint 1, .sint 2, .bool, .uint 4] 5).sub 1 2 =
    some (View.mk .big .twosComplement [.sint 2, .bool] 6) := rfl

/-- C21, bytes. On a tuple made of `vs...`, the bytes `[begin(), end())` of `view<I, L>()` are the encodings of the values
`I`, ..., `I + L - 1`. -/
theorem C21_sub_view_bytes {P : Platform} (hP : P.Valid) {e : Endian} {s : Mode} (hs : Supported P e s) {ts : List Ty}
    (hw : Ty.WFs ts) (hp : PackedAll ts) {vs : List Val} (hf : Val.FitsAll (Safe P s) ts vs) {i l : Nat} {W : View}
    (hW : (Tuple.self e s ts).sub i l = some W) {mem : Mem} (hm : Tuple.make P e s ts vs = .ok mem) :
    slice mem W.off W.size = wires e s ((ts.drop i).take l) ((vs.drop i).take l) := by
  have h : i + l ≤ ts.length := ((C21_sub_view P (Tuple.self e s ts) i l).1).mp (by rw [hW]; rfl)
  have hsub : (Tuple.self e s ts).sub i l = some ⟨e, s, (ts.drop i).take l, Ty.serSizes (ts.take i)⟩ := by
    rw [View.sub, elemOffset_eq (by show i ≤ ts.length; omega), TypeList.clip11_eq, if_pos (by
      show i ≤ ts.length ∧ l ≤ ts.length - i
      omega)]
    simp [Tuple.self]
  rw [hsub] at hW
  injection hW with hW
  subst hW
  rw [(C15_tuple_layout hP hs hw hp hf).1] at hm
  injection hm with hm
  subst hm
  rw [View.size_eq]
  show slice (wires e s ts vs) (Ty.serSizes (ts.take i)) (Ty.serSizes ((ts.drop i).take l)) = _
  clear hsub
  have hdrop : ∀ (ts : List Ty) (vs : List Val) (i : Nat), PackedAll ts → Val.FitsAll (Safe P s) ts vs →
      (wires e s ts vs).drop (Ty.serSizes (ts.take i)) = wires e s (ts.drop i) (vs.drop i) := by
    intro ts
    induction ts with
    | nil => intro vs i hp hf; cases vs <;> simp [wires, Val.FitsAll] at hf ⊢
    | cons t ts ih =>
      intro vs i hp hf
      cases vs with
      | nil => simp [Val.FitsAll] at hf
      | cons v vs =>
        cases i with
        | zero => simp [Ty.serSizes]
        | succ i =>
          simp only [PackedAll] at hp
          simp only [Val.FitsAll] at hf
          have hlen := wire_length (e := e) (s := s) hp.1 hf.1
          simp only [List.take_succ_cons, Ty.serSizes, wires, List.drop_succ_cons]
          rw [List.drop_append, packed_serSize t hp.1, List.drop_eq_nil_of_le (by omega), hlen, List.nil_append,
            show wireSize t + Ty.serSizes (ts.take i) - wireSize t = Ty.serSizes (ts.take i) by omega]
          exact ih vs i hp.2 hf.2
  have htake : ∀ (ts : List Ty) (vs : List Val) (l : Nat), PackedAll ts → Val.FitsAll (Safe P s) ts vs →
      (wires e s ts vs).take (Ty.serSizes (ts.take l)) = wires e s (ts.take l) (vs.take l) := by
    intro ts
    induction ts with
    | nil => intro vs l hp hf; cases vs <;> simp [wires, Val.FitsAll] at hf ⊢
    | cons t ts ih =>
      intro vs l hp hf
      cases vs with
      | nil => simp [Val.FitsAll] at hf
      | cons v vs =>
        cases l with
        | zero => simp [Ty.serSizes, wires]
        | succ l =>
          simp only [PackedAll] at hp
          simp only [Val.FitsAll] at hf
          have hlen := wire_length (e := e) (s := s) hp.1 hf.1
          simp only [List.take_succ_cons, Ty.serSizes, wires]
          rw [List.take_append, packed_serSize t hp.1, List.take_of_length_le (by omega), hlen,
            show wireSize t + Ty.serSizes (ts.take l) - wireSize t = Ty.serSizes (ts.take l) by omega,
            ih vs l hp.2 hf.2]
  have hdropP : ∀ (ts : List Ty) (i : Nat), PackedAll ts → PackedAll (ts.drop i) := by
    intro ts
    induction ts with
    | nil => intro i h; simpa using h
    | cons t ts ih =>
      intro i h
      cases i with
      | zero => simpa using h
      | succ i => simp only [PackedAll] at h; exact ih i h.2
  have hdropF : ∀ (ts : List Ty) (vs : List Val) (i : Nat), Val.FitsAll (Safe P s) ts vs →
      Val.FitsAll (Safe P s) (ts.drop i) (vs.drop i) := by
    intro ts
    induction ts with
    | nil => intro vs i h; cases vs <;> simp [Val.FitsAll] at h ⊢
    | cons t ts ih =>
      intro vs i h
      cases vs with
      | nil => simp [Val.FitsAll] at h
      | cons v vs =>
        cases i with
        | zero => simpa using h
        | succ i => simp only [Val.FitsAll] at h; exact ih vs i h.2
  rw [slice, hdrop ts vs i hp hf, htake _ _ l (hdropP ts i hp) (hdropF ts vs i hf)]

example : slice [1#8, 0xfe#8, 0xff#8, 9#8] 1 2 = [0xfe#8, 0xff#8] := by
  exact C21_sub_view_bytes (P := pc) (ts := [.uint 1, .sint 2, .uint 1]) (vs := [.int 1, .int (-2), .int 9])
    (i := 1) (l := 1) (e := .little) (s := .twosComplement) (W := ⟨.little, .twosComplement, [.sint 2], 1⟩)
    pc_valid (pc_supported _ _) (by simp [Ty.WFs, Ty.WF]) (by simp [PackedAll, Packed])
    (by simp [Val.FitsAll, Val.Fits, Safe, MinSafe, Representable, InRange]) rfl rfl

/-! ## C22 -/

/-- C22. Assigning a tuple-like object `W` to `V` (same element types, any formats, possibly overlapping in memory): every
element of `V` becomes what the element of `W` was before the assignment, and no byte outside of `V` changes. -/
theorem C22_assignment {P : Platform} (hP : P.Valid) {V W : View} (hs : Supported P V.e V.s) (hts : W.ts = V.ts)
    (hw : Ty.WFs V.ts) (hl : LooseAll V.ts) {mem : Mem} (hb : V.off + V.size ≤ mem.length) {vs : List Val}
    (hlen : vs.length = V.ts.length) (hget : ∀ i (hi : i < vs.length), W.get P i mem = .ok vs[i])
    (hf : Val.FitsAll (Safe P V.s) V.ts vs) :
    ∃ mem', V.assign P W mem = .ok mem' ∧ (∀ i, i < V.ts.length → V.get P i mem' = W.get P i mem) ∧
      mem'.length = mem.length ∧ ∀ k, (k < V.off ∨ V.off + V.size ≤ k) → mem'[k]? = mem[k]? := by
  have hgets : W.gets P V.indices mem = .ok vs := by
    have hix : V.indices = List.range W.ts.length := by rw [View.indices_eq, hts]
    rw [hix]
    have key : ∀ (is : List Nat) (ws : List Val), is.length = ws.length →
        (∀ k (h1 : k < is.length) (h2 : k < ws.length), W.get P is[k] mem = .ok ws[k]) →
        W.gets P is mem = .ok ws := by
      intro is
      induction is with
      | nil => intro ws h _; cases ws <;> simp at h; rfl
      | cons i is ih =>
        intro ws h hk
        cases ws with
        | nil => simp at h
        | cons w ws =>
          have h0 := hk 0 (by simp) (by simp)
          simp only [List.getElem_cons_zero] at h0
          have hr := ih ws (by simpa using h) (fun k h1 h2 => by
            have := hk (k + 1) (by simpa using h1) (by simpa using h2)
            simpa using this)
          rw [View.gets, h0, except_bind_ok, hr]
          rfl
    apply key
    · rw [List.length_range, hlen, hts]
    · intro k h1 h2
      rw [List.getElem_range]
      exact hget k h2
  have hb' : V.off + Ty.serSizes V.ts ≤ mem.length := by rw [← V.size_eq]; exact hb
  have hcl := cellsAll_length V.e V.s _ V.ts vs hl hf
  refine ⟨overlay mem V.off (cellsAll V.e V.s V.ts vs), ?_, ?_, overlay_length _ _ _, ?_⟩
  · rw [View.assign, hgets, except_bind_ok, View.indices_eq, View.lay_eq, writeAll_ok hP hs V.ts vs mem V.off hw hl hf hb']
  · intro i hi
    have hi' : i < vs.length := by rw [hlen]; exact hi
    rw [hget i hi', View.get_eq P V hi]
    exact readAs_ok hP hs _ _ _ _ (wfs_get hw hi) (looseAll_get hl hi) (fitsAll_get hf hi hi')
      (cellsAll_get hl hf (matches_overlay (by rw [hcl]; exact hb')) hi hi')
  · intro k hk
    apply overlay_getElem?_out
    rw [hcl, ← V.size_eq]
    exact hk

/-- Example: overlapping views, from little-endian two's complement to big-endian sign-magnitude. -/
example : ∃ mem', (View.mk .big .signMagnitude [.sint 2, .sint 2] 1).assign pc
      (View.mk .little .twosComplement [.sint 2, .sint 2] 0) [0xfe#8, 0xff#8, 3#8, 0#8, 0#8] = .ok mem' ∧
    (∀ i, i < 2 → (View.mk .big .signMagnitude [.sint 2, .sint 2] 1).get pc i mem' =
      (View.mk .little .twosComplement [.sint 2, .sint 2] 0).get pc i [0xfe#8, 0xff#8, 3#8, 0#8, 0#8]) ∧
    mem'.length = 5 ∧ ∀ k, (k < 1 ∨ 1 + 4 ≤ k) → mem'[k]? = [0xfe#8, 0xff#8, 3#8, 0#8, 0#8][k]? :=
  C22_assignment (V := View.mk .big .signMagnitude [.sint 2, .sint 2] 1)
    (W := View.mk .little .twosComplement [.sint 2, .sint 2] 0) (vs := [.int (-2), .int 3]) pc_valid
    (pc_supported _ _) rfl (by simp [Ty.WFs, Ty.WF]) (by simp [LooseAll, Loose]) (by decide) (by decide)
    (by
      intro i hi
      match i, hi with
      | 0, _ => rfl
      | 1, _ => rfl)
    (by simp [Val.FitsAll, Val.Fits, Safe, MinSafe, Representable])

/-! ## C23 -/

/-- Full statement of C23: assigning a view to a view of the same class copies the elements into the bytes viewed by the
left-hand side. -/
def C23_Statement : Prop :=
  ∀ (P : Platform) (V W V' : View) (rvalue : Bool) (mem mem' : Mem), P.Valid → V.e = W.e → V.s = W.s → V.ts = W.ts →
    V.off + V.size ≤ mem.length → W.off + W.size ≤ mem.length →
    V.assignOp P true rvalue W mem = .ok (V', mem') →
    ∀ i, i < V.ts.length → V.get P i mem' = W.get P i mem

/-- The full statement is false: the implicit assignment operator of the view is preferred to the template, it copies the
iterators and leaves the bytes alone. -/
theorem C23_full_statement_is_false : ¬ C23_Statement := by
  intro h
  have := h pc ⟨.little, .twosComplement, [.uint 1], 0⟩ ⟨.little, .twosComplement, [.uint 1], 1⟩
    ⟨.little, .twosComplement, [.uint 1], 1⟩ false [5#8, 6#8] [5#8, 6#8] pc_valid rfl rfl rfl (by decide) (by decide)
    rfl 0 (by decide)
  have a : (View.mk .little .twosComplement [.uint 1] 0).get pc 0 [5#8, 6#8] = .ok (.int 5) := rfl
  have b : (View.mk .little .twosComplement [.uint 1] 1).get pc 0 [5#8, 6#8] = .ok (.int 6) := rfl
  rw [a, b] at this
  injection this with this
  injection this with this
  exact absurd this (by decide)

/-- C23 for views of different classes, assigned from a temporary: the elements are copied and the view still designates
the same bytes. Missing: views of the same class (see the counterexample). -/
theorem C23_view_assignment_partial {P : Platform} (hP : P.Valid) {V W : View} (hs : Supported P V.e V.s)
    (hts : W.ts = V.ts) (hw : Ty.WFs V.ts) (hl : LooseAll V.ts) {mem : Mem} (hb : V.off + V.size ≤ mem.length)
    {vs : List Val} (hlen : vs.length = V.ts.length) (hget : ∀ i (hi : i < vs.length), W.get P i mem = .ok vs[i])
    (hf : Val.FitsAll (Safe P V.s) V.ts vs) :
    ∃ mem', V.assignOp P false true W mem = .ok (V, mem') ∧
      ∀ i, i < V.ts.length → V.get P i mem' = W.get P i mem := by
  obtain ⟨mem', h1, h2, _⟩ := C22_assignment hP hs hts hw hl hb hlen hget hf
  refine ⟨mem', ?_, h2⟩
  have : V.assignOp P false true W mem = (V.assign P W mem >>= fun m => .ok (V, m)) := rfl
  rw [this, h1]
  rfl

example : ∃ mem', (View.mk .big .twosComplement [.uint 2] 2).assignOp pc false true
      (View.mk .little .twosComplement [.uint 2] 0) [1#8, 2#8, 0#8, 0#8] =
        .ok (View.mk .big .twosComplement [.uint 2] 2, mem') ∧
    ∀ i, i < 1 → (View.mk .big .twosComplement [.uint 2] 2).get pc i mem' =
      (View.mk .little .twosComplement [.uint 2] 0).get pc i [1#8, 2#8, 0#8, 0#8] :=
  C23_view_assignment_partial (V := View.mk .big .twosComplement [.uint 2] 2)
    (W := View.mk .little .twosComplement [.uint 2] 0) (vs := [.int 0x201]) pc_valid (pc_supported _ _) rfl
    (by simp [Ty.WFs, Ty.WF]) (by simp [LooseAll, Loose]) (by decide) (by decide)
    (by intro i hi; match i, hi with | 0, _ => rfl) (by simp [Val.FitsAll, Val.Fits])

/-- C23, views of the same class, exactly: no byte changes, and the left-hand side becomes a view of the bytes which the right-hand side views. The elements have been copied
(in the sense of the full statement) only if they were equal beforehand. -/
theorem C23_same_class_exact {P : Platform} {V W : View} (he : V.e = W.e) (hs : V.s = W.s) (hts : V.ts = W.ts) (rvalue : Bool) (mem : Mem) :
    V.assignOp P true rvalue W mem = .ok (W, mem) ∧
    ∀ V' mem', V.assignOp P true rvalue W mem = .ok (V', mem') →
      ((∀ i, i < V.ts.length → V.get P i mem' = W.get P i mem) ↔ ∀ i, i < V.ts.length → V.get P i mem = W.get P i mem) := by
  have h : V.assignOp P true rvalue W mem = .ok (W, mem) := by
    obtain ⟨e, s, ts, off⟩ := V
    obtain ⟨e', s', ts', off'⟩ := W
    simp only at he hs hts
    subst he hs hts
    rfl
  refine ⟨h, fun V' mem' h' => ?_⟩
  rw [h] at h'
  injection h' with h'
  rw [← (Prod.mk.inj h').2]

/-- C23: after `v = w` on views of the same class, setting an element through `v` changes what `w` gives. -/
theorem C23_alias {P : Platform} (hP : P.Valid) {V W V' : View} (he : V.e = W.e) (hs : V.s = W.s) (hts : V.ts = W.ts) (hsup : Supported P W.e W.s)
    (hw : Ty.WFs W.ts) (hl : LooseAll W.ts) {rvalue : Bool} {mem mem1 : Mem} (ha : V.assignOp P true rvalue W mem = .ok (V', mem1))
    (hb : W.off + W.size ≤ mem.length) {i : Nat} (hi : i < W.ts.length) {v : Val} (hf : v.Fits (Safe P W.s) W.ts[i]) :
    ∃ mem2, V'.set P i v mem1 = .ok mem2 ∧ W.get P i mem2 = .ok v := by
  rw [(C23_same_class_exact (P := P) he hs hts rvalue mem).1] at ha
  injection ha with ha
  obtain ⟨rfl, rfl⟩ := Prod.mk.inj ha
  exact C17_set_get hP hsup hw hl hb hi hf

/-- Two views of two bytes of a buffer: after `v = w`, setting the element of `v` leaves the bytes which `v` used to view alone and changes what `w` gives. -/
example : (View.mk .little .twosComplement [.uint 2] 0).assignOp pc true false (View.mk .little .twosComplement [.uint 2] 2) [1#8, 2#8, 3#8, 4#8] =
      .ok (View.mk .little .twosComplement [.uint 2] 2, [1#8, 2#8, 3#8, 4#8]) ∧
    ∃ mem2, (View.mk .little .twosComplement [.uint 2] 2).set pc 0 (.int 0x605) [1#8, 2#8, 3#8, 4#8] = .ok mem2 ∧
      (View.mk .little .twosComplement [.uint 2] 2).get pc 0 mem2 = .ok (.int 0x605) :=
  have h := (C23_same_class_exact (P := pc) (V := View.mk .little .twosComplement [.uint 2] 0) (W := View.mk .little .twosComplement [.uint 2] 2)
    rfl rfl rfl false [1#8, 2#8, 3#8, 4#8]).1
  ⟨h, C23_alias (V := View.mk .little .twosComplement [.uint 2] 0) (W := View.mk .little .twosComplement [.uint 2] 2) (rvalue := false) pc_valid rfl rfl rfl (pc_supported _ _) (by simp [Ty.WFs, Ty.WF]) (by simp [LooseAll, Loose]) h (by decide) (by decide)
    (by simp [Val.Fits])⟩

/-! ## C24 -/

/-- C24. `invoke(f)` is `f` applied once to the elements, in order. -/
theorem C24_invoke {β : Type} {P : Platform} {V : View} {mem : Mem} {vs : List Val} (hlen : vs.length = V.ts.length)
    (hget : ∀ i (hi : i < vs.length), V.get P i mem = .ok vs[i]) (f : List Val → β) :
    V.invoke P f mem = .ok (f vs) := by
  have hgets : V.gets P V.indices mem = .ok vs := by
    rw [View.indices_eq, View.gets_eq]
    have key : ∀ (ts : List Ty) (vs : List Val) (off : Nat), vs.length = ts.length →
        (∀ i (hi : i < ts.length) (hi' : i < vs.length),
          readAs P V.e V.s ts[i] mem (off + Ty.serSizes (ts.take i)) = .ok vs[i]) →
        readAll P V.e V.s ts mem off = .ok vs := by
      intro ts
      induction ts with
      | nil => intro vs off h _; cases vs <;> simp at h; rfl
      | cons t ts ih =>
        intro vs off h hk
        cases vs with
        | nil => simp at h
        | cons v vs =>
          have h0 := hk 0 (by simp) (by simp)
          simp only [List.getElem_cons_zero, List.take_zero, Ty.serSizes, Nat.add_zero] at h0
          have hr := ih vs (off + t.serSize) (by simpa using h) (fun i h1 h2 => by
            have := hk (i + 1) (by simpa using h1) (by simpa using h2)
            simp only [List.take_succ_cons, Ty.serSizes, List.getElem_cons_succ] at this
            rw [← Nat.add_assoc] at this
            exact this)
          rw [readAll, h0, except_bind_ok, hr]
          rfl
    apply key _ _ _ hlen
    intro i hi hi'
    rw [← View.get_eq P V hi]
    exact hget i hi'
  rw [View.invoke, hgets]
  rfl

example (f : List Val → Nat) : (View.mk .big .twosComplement [.uint 1, .sint 2] 0).invoke pc f [3#8, 0xff#8, 0xff#8] =
    .ok (f [.int 3, .int (-1)]) :=
  C24_invoke rfl (by intro i hi; match i, hi with | 0, _ => rfl | 1, _ => rfl) f

/-- C24, a function which has effects (it modifies the state of the program, throws…): the effects are those of one call, and the result is its
result. -/
theorem C24_invoke_effect {σ β : Type} {P : Platform} {V : View} {mem : Mem} {vs : List Val} (hlen : vs.length = V.ts.length)
    (hget : ∀ i (hi : i < vs.length), V.get P i mem = .ok vs[i]) (f : List Val → Eff σ β) :
    (Eff.lift (V.invoke P f mem) >>= fun call => call) = f vs := by
  rw [C24_invoke hlen hget f]
  rfl

/-- C24, elements which cannot be decoded: the function is not called. -/
theorem C24_not_called {σ β : Type} {P : Platform} {V : View} {mem : Mem} {i : Nat} (hi : i < V.ts.length) {flt : Fault}
    (hget : V.get P i mem = .error flt) (f : List Val → Eff σ β) :
    ∃ flt', (Eff.lift (V.invoke P f mem) >>= fun call => call) = fun _ => .fault flt' := by
  have key : ∀ is : List Nat, i ∈ is → ∃ flt', V.gets P is mem = .error flt' := by
    intro is
    induction is with
    | nil => intro h; cases h
    | cons j is ih =>
      intro h
      rw [View.gets]
      cases hj : V.get P j mem with
      | error e => exact ⟨e, rfl⟩
      | ok v =>
        rcases List.mem_cons.1 h with rfl | h
        · rw [hget] at hj
          cases hj
        · obtain ⟨e, he⟩ := ih h
          exact ⟨e, by rw [except_bind_ok, he]; rfl⟩
  obtain ⟨e, he⟩ := key V.indices (by rw [View.indices_eq]; exact List.mem_range.2 hi)
  exact ⟨e, by rw [View.invoke, he]; rfl⟩

/-- A function which keeps a log of its calls and returns the number of its arguments. -/
private def logged (vs : List Val) : Eff (List (List Val)) Nat := fun log => .ret vs.length (vs :: log)

example : (Eff.lift ((View.mk .big .twosComplement [.uint 1, .sint 2] 0).invoke pc logged [3#8, 0xff#8, 0xff#8]) >>= fun call => call) [] =
    .ret 2 [[.int 3, .int (-1)]] :=
  congrFun (C24_invoke_effect (vs := [.int 3, .int (-1)]) rfl (by intro i hi; match i, hi with | 0, _ => rfl | 1, _ => rfl) logged) []

example : ∃ flt, (Eff.lift ((View.mk .little .twosComplement [.uint 1, .bool] 0).invoke pcMacros logged [3#8, 2#8]) >>= fun call => call) =
    fun _ => .fault flt :=
  C24_not_called (i := 1) (flt := .badBool) (by decide) rfl logged

/-! ## C25 -/

/-- Full statement of C25: getting and setting through a forward iterator are the same as through a pointer. -/
def C25_Statement : Prop :=
  ∀ (P : Platform) (V : View) (i : Nat) (v : Val) (mem : Mem), P.Valid → Supported P V.e V.s → Ty.WFs V.ts →
    LooseAll V.ts → V.off + V.size ≤ mem.length → (hi : i < V.ts.length) → v.Fits (Safe P V.s) V.ts[i] →
    V.getIt P i mem = V.get P i mem ∧ V.setIt P i v mem = V.set P i v mem

/-- The full statement is false: the iterator overloads copy `sizeof(T)` bytes (include/upd/detail/serialization.hpp:87-93 and
:150-157), so that an object of four bytes serialized in three is read past the end of the sequence. -/
theorem C25_full_statement_is_false : ¬ C25_Statement := by
  intro h
  have := (h pc ⟨.little, .twosComplement, [.user 4 [.uint 1, .uint 2]], 0⟩ 0 (.user [.int 1, .int 2]) [1#8, 2#8, 0#8]
    pc_valid (pc_supported _ _) (by simp [Ty.WFs, Ty.WF]) (by simp [LooseAll, Loose]) (by decide) (by decide)
    (by simp [Val.Fits, Val.FitsAll])).1
  have a : (View.mk .little .twosComplement [.user 4 [.uint 1, .uint 2]] 0).getIt pc 0 [1#8, 2#8, 0#8] =
    .error .oobRead := rfl
  have b : (View.mk .little .twosComplement [.user 4 [.uint 1, .uint 2]] 0).get pc 0 [1#8, 2#8, 0#8] =
    .ok (.user [.int 1, .int 2]) := rfl
  rw [a, b] at this
  cases this

/-- Setting such an element through an iterator overwrites the first byte of the next element with an uninitialised byte. -/
theorem C25_set_counterexample :
    (View.mk .little .twosComplement [.user 4 [.uint 1, .uint 2], .uint 1] 0).setIt pc 0 (.user [.int 1, .int 2])
      [0#8, 0#8, 0#8, 7#8] = .ok [1#8, 2#8, 0#8, 0xAA#8] := rfl

/-- C25 for elements whose object size is their serialized size (in particular integers and arrays of them, see
`C12_builtin_types_are_packed`). Missing: other user-extended types. -/
theorem C25_iterator_view_partial {P : Platform} (hP : P.Valid) {V : View} (hs : Supported P V.e V.s)
    (hw : Ty.WFs V.ts) {mem : Mem} (hb : V.off + V.size ≤ mem.length) {i : Nat} (hi : i < V.ts.length)
    (hp : Packed V.ts[i]) (hsz : (V.ts[i]).sizeof = wireSize V.ts[i]) {v : Val} (hv : v.Fits (Safe P V.s) V.ts[i]) :
    V.getIt P i mem = V.get P i mem ∧ V.setIt P i v mem = V.set P i v mem := by
  have hser := packed_serSize _ hp
  have hin := elem_in_bounds hi hb
  rw [hser] at hin
  constructor
  · rw [View.getIt_eq P V hi, View.get_eq P V hi, readAsIt, hsz, Mem.rdN_ok hin, except_bind_ok]
    have hsl := slice_length (m := mem) (off := V.off + Ty.serSizes (V.ts.take i)) (n := wireSize V.ts[i]) hin
    generalize V.off + Ty.serSizes (V.ts.take i) = o at hin hsl ⊢
    -- read the copy at 0 instead of the original at `o`
    have key := readAs_shift (P := P) (e := V.e) (s := V.s) V.ts[i] mem (slice mem o (wireSize V.ts[i])) o 0
      (packed_loose _ hp) (by
        intro k hk
        rw [hser] at hk
        rw [Nat.zero_add, slice_getElem?, if_pos hk])
    exact key
  · rw [View.setIt_eq P V hi, View.set_eq P V hi, writeAsIt,
      writeAs_packed hP hs (wfs_get hw hi) hp hv hin,
      writeAs_packed hP hs (wfs_get hw hi) hp hv (by rw [junkBytes_length, hsz]; omega), except_bind_ok]
    have hwl := wire_length (e := V.e) (s := V.s) hp hv
    have : splice (P.junkBytes (V.ts[i]).sizeof) 0 (wire V.e V.s V.ts[i] v) = wire V.e V.s V.ts[i] v := by
      simp only [splice, List.take_zero, List.nil_append, Nat.zero_add]
      rw [List.drop_eq_nil_of_le (by rw [junkBytes_length, hsz, hwl]; exact Nat.le_refl _), List.append_nil]
    rw [this, Mem.wrN_ok (by rw [hwl]; exact hin)]

example : (View.mk .big .twosComplement [.uint 1, .sint 2] 1).getIt pc 1 [0#8, 3#8, 0xff#8, 0xff#8] =
      (View.mk .big .twosComplement [.uint 1, .sint 2] 1).get pc 1 [0#8, 3#8, 0xff#8, 0xff#8] ∧
    (View.mk .big .twosComplement [.uint 1, .sint 2] 1).setIt pc 1 (.int 5) [0#8, 3#8, 0xff#8, 0xff#8] =
      (View.mk .big .twosComplement [.uint 1, .sint 2] 1).set pc 1 (.int 5) [0#8, 3#8, 0xff#8, 0xff#8] :=
  C25_iterator_view_partial pc_valid (pc_supported _ _) (by simp [Ty.WFs, Ty.WF]) (by decide) (by decide)
    (by simp [Packed]) (by simp [Ty.sizeof, wireSize]) (by simp [Val.Fits, Safe, MinSafe, Representable, InRange])

/-- C25, exactly, reading. Getting an element through an iterator succeeds if and only if getting it through a pointer does,
the object of the element is not smaller than its encoding, and an object of that size fits in the sequence from the
position of the element; the value is then the same. -/
theorem C25_get_exact {P : Platform} {V : View} (hw : Ty.WFs V.ts) (hpa : PackedAll V.ts) {mem : Mem} {i : Nat}
    (hi : i < V.ts.length) (v : Val) :
    V.getIt P i mem = .ok v ↔
      V.get P i mem = .ok v ∧ wireSize V.ts[i] ≤ (V.ts[i]).sizeof ∧
        V.off + wireSizes (V.ts.take i) + (V.ts[i]).sizeof ≤ mem.length := by
  have hp := packedAll_get hpa hi
  have hser := packed_serSize _ hp
  have htake : Ty.serSizes (V.ts.take i) = wireSizes (V.ts.take i) := packedAll_serSizes _ (packedAll_take hpa i)
  have hpos : 1 ≤ (V.ts[i]).sizeof := sizeof_pos _ (wfs_get hw hi)
  rw [View.getIt_eq P V hi, View.get_eq P V hi, htake, readAsIt]
  generalize V.off + wireSizes (V.ts.take i) = o
  have shift : ∀ h : o + (V.ts[i]).sizeof ≤ mem.length, wireSize V.ts[i] ≤ (V.ts[i]).sizeof →
      readAs P V.e V.s V.ts[i] (slice mem o (V.ts[i]).sizeof) 0 = readAs P V.e V.s V.ts[i] mem o := by
    intro h hle
    apply readAs_shift V.ts[i] mem _ o 0 (packed_loose _ hp)
    intro k hk
    rw [hser] at hk
    rw [Nat.zero_add, slice_getElem?, if_pos (by omega)]
  constructor
  · intro h
    obtain ⟨buf, hb, h⟩ := except_bind_eq_ok h
    have hin : o + (V.ts[i]).sizeof ≤ mem.length := by
      rcases rdN_eq_ok hb with h0 | h0 <;> omega
    rw [Mem.rdN_ok hin] at hb
    injection hb with hb
    subst hb
    have hle : wireSize V.ts[i] ≤ (V.ts[i]).sizeof := by
      have := readAs_bounds _ _ _ _ hp h
      rw [slice_length hin] at this
      omega
    exact ⟨by rw [← shift hin hle]; exact h, hle, hin⟩
  · rintro ⟨h, hle, hin⟩
    rw [Mem.rdN_ok hin, except_bind_ok, shift hin hle]
    exact h

example : (View.mk .little .twosComplement [.user 4 [.uint 1, .uint 2], .uint 1] 0).getIt pc 0 [1#8, 2#8, 0#8, 7#8] =
    .ok (.user [.int 1, .int 2]) :=
  (C25_get_exact (by simp [Ty.WFs, Ty.WF]) (by simp [PackedAll, Packed]) (by decide) _).mpr
    ⟨rfl, by simp [wireSize, wireSizes, Ty.sizeof], by simp [wireSizes, Ty.sizeof]⟩

/-- C25, exactly, writing. Setting an element through an iterator writes the encoding of the value, then uninitialised bytes
up to the size of the object; it is well-defined if and only if the object is not smaller than the encoding and fits in
the sequence from the position of the element. -/
theorem C25_set_exact {P : Platform} (hP : P.Valid) {V : View} (hs : Supported P V.e V.s) (hw : Ty.WFs V.ts)
    (hpa : PackedAll V.ts) {mem : Mem} {i : Nat} (hi : i < V.ts.length) {v : Val} (hv : v.Fits (Safe P V.s) V.ts[i])
    (mem' : Mem) :
    V.setIt P i v mem = .ok mem' ↔
      wireSize V.ts[i] ≤ (V.ts[i]).sizeof ∧
        V.off + wireSizes (V.ts.take i) + (V.ts[i]).sizeof ≤ mem.length ∧
        mem' = splice mem (V.off + wireSizes (V.ts.take i))
          (wire V.e V.s V.ts[i] v ++ (P.junkBytes (V.ts[i]).sizeof).drop (wireSize V.ts[i])) := by
  have hp := packedAll_get hpa hi
  have htake : Ty.serSizes (V.ts.take i) = wireSizes (V.ts.take i) := packedAll_serSizes _ (packedAll_take hpa i)
  have hpos : 1 ≤ (V.ts[i]).sizeof := sizeof_pos _ (wfs_get hw hi)
  have hwl := wire_length (e := V.e) (s := V.s) hp hv
  rw [View.setIt_eq P V hi, htake, writeAsIt]
  generalize V.off + wireSizes (V.ts.take i) = o
  have hbuf : wireSize V.ts[i] ≤ (V.ts[i]).sizeof →
      writeAs P V.e V.s V.ts[i] v (P.junkBytes (V.ts[i]).sizeof) 0 =
        .ok (wire V.e V.s V.ts[i] v ++ (P.junkBytes (V.ts[i]).sizeof).drop (wireSize V.ts[i])) := by
    intro hle
    rw [writeAs_packed hP hs (wfs_get hw hi) hp hv (by rw [junkBytes_length]; omega)]
    simp only [splice, List.take_zero, List.nil_append, Nat.zero_add, hwl]
  have hlen : wireSize V.ts[i] ≤ (V.ts[i]).sizeof →
      (wire V.e V.s V.ts[i] v ++ (P.junkBytes (V.ts[i]).sizeof).drop (wireSize V.ts[i])).length = (V.ts[i]).sizeof := by
    intro hle
    rw [List.length_append, hwl, List.length_drop, junkBytes_length]
    omega
  constructor
  · intro h
    obtain ⟨buf, hb, h⟩ := except_bind_eq_ok h
    have hle : wireSize V.ts[i] ≤ (V.ts[i]).sizeof := by
      have := (writeAs_bounds _ _ _ _ _ hp hb).1
      rw [junkBytes_length] at this
      omega
    rw [hbuf hle] at hb
    injection hb with hb
    subst hb
    have hin : o + (V.ts[i]).sizeof ≤ mem.length := by
      have := (wrN_eq_ok h).1
      rw [hlen hle] at this
      omega
    rw [Mem.wrN_ok (by rw [hlen hle]; exact hin)] at h
    injection h with h
    exact ⟨hle, hin, h.symm⟩
  · rintro ⟨hle, hin, rfl⟩
    rw [hbuf hle, except_bind_ok, Mem.wrN_ok (by rw [hlen hle]; exact hin)]

example : (View.mk .little .twosComplement [.user 4 [.uint 1, .uint 2], .uint 1] 0).setIt pc 0 (.user [.int 1, .int 2])
    [0#8, 0#8, 0#8, 7#8] = .ok [1#8, 2#8, 0#8, 0xAA#8] :=
  (C25_set_exact pc_valid (pc_supported _ _) (by simp [Ty.WFs, Ty.WF]) (by simp [PackedAll, Packed]) (by decide)
    (by simp [Val.Fits, Val.FitsAll]) _).mpr
    ⟨by simp [wireSize, wireSizes, Ty.sizeof], by simp [wireSizes, Ty.sizeof], rfl⟩

/-! ## Further uses -/

example {mem mem' : Mem} (h : (View.mk .little .twosComplement [.uint 1, .sint 2, .bool] 0).set pc 1 (.int (-2)) mem = .ok mem') :
    (View.mk .little .twosComplement [.uint 1, .sint 2, .bool] 0).get pc 2 mem' =
      (View.mk .little .twosComplement [.uint 1, .sint 2, .bool] 0).get pc 2 mem :=
  C18_set_frame (by simp [LooseAll, Loose]) (by decide) (by decide) (by decide) h

example {mem mem' : Mem} (h : (View.mk .little .twosComplement [.uint 1, .sint 2, .bool] 4).set pc 1 (.int (-2)) mem = .ok mem') :
    mem'[4]? = mem[4]? ∧ mem'[7]? = mem[7]? := by
  have h2 := (C18_set_frame_bytes (by simp [LooseAll, Loose]) (by decide) h).2
  exact ⟨h2 4 (by decide), h2 7 (by decide)⟩

example (mem : Mem) : ∃ W, (View.mk .little .twosComplement [.uint 1, .sint 2, .bool] 4).sub 1 2 = some W ∧ W.ts = [.sint 2, .bool] ∧
    W.get pc 1 mem = (View.mk .little .twosComplement [.uint 1, .sint 2, .bool] 4).get pc 2 mem := by
  have h := C21_sub_view pc (View.mk .little .twosComplement [.uint 1, .sint 2, .bool] 4) 1 2
  obtain ⟨W, hW⟩ := Option.isSome_iff_exists.1 (h.1.2 (by decide))
  exact ⟨W, hW, (h.2 W hW).1, (h.2 W hW).2.1 1 (by decide) mem⟩

end Upd
