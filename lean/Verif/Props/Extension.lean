import Verif.Model.Extension
import Verif.Spec.Extension
import Verif.Props.Tuple

/-!
# C70: user extensions
-/

namespace Upd
open Spec

theorem slice_append (m : Mem) (off a b : Nat) : slice m off (a + b) = slice m off a ++ slice m (off + a) b := by
  simp only [slice]
  rw [List.take_add, List.drop_drop]

theorem slices_wires {e : Endian} {s : Mode} {leaf : Nat → Int → Prop} (m : Mem) : ∀ (ts : List Ty) (vs : List Val) (off : Nat), PackedAll ts →
    Val.FitsAll leaf ts vs →
    (∀ i (hi : i < ts.length) (hv : i < vs.length), slice m (off + wireSizes (ts.take i)) (wireSize ts[i]) = wire e s ts[i] vs[i]) →
    slice m off (wireSizes ts) = wires e s ts vs
  | [], [], _, _, _, _ => by simp [wireSizes, wires, slice]
  | t :: ts, v :: vs, off, hp, hf, h => by
    simp only [PackedAll] at hp
    simp only [Val.FitsAll] at hf
    have h0 := h 0 (by simp) (by simp)
    simp only [List.take_zero, wireSizes, Nat.add_zero, List.getElem_cons_zero] at h0
    simp only [wireSizes, wires]
    rw [slice_append, h0, slices_wires m ts vs (off + wireSize t) hp.2 hf.2]
    intro i hi hv
    have := h (i + 1) (by simpa using hi) (by simpa using hv)
    simp only [List.take_succ_cons, wireSizes, List.getElem_cons_succ] at this
    rwa [← Nat.add_assoc] at this
  | [], _ :: _, _, _, hf, _ | _ :: _, [], _, _, hf, _ => by simp [Val.FitsAll] at hf

/-- What a sequence of `set` does to the memory. -/
theorem sets_ok {P : Platform} (hP : P.Valid) {V : View} (hs : Supported P V.e V.s) (hw : Ty.WFs V.ts) (hp : PackedAll V.ts) (ops : List (Nat × Val)) :
    ∀ (mem : Mem), (∀ o ∈ ops, ∃ h : o.1 < V.ts.length, o.2.Fits (Safe P V.s) V.ts[o.1]) → V.off + wireSizes V.ts ≤ mem.length →
    ∃ mem', V.sets P ops mem = .ok mem' ∧ mem'.length = mem.length ∧
      (∀ k, k < V.off ∨ V.off + wireSizes V.ts ≤ k → mem'[k]? = mem[k]?) ∧
      ∀ i (hi : i < V.ts.length), slice mem' (V.off + wireSizes (V.ts.take i)) (wireSize V.ts[i]) =
        match lastSet ops i with
        | some v => wire V.e V.s V.ts[i] v
        | none => slice mem (V.off + wireSizes (V.ts.take i)) (wireSize V.ts[i]) := by
  induction ops with
  | nil => intro mem _ _; exact ⟨mem, rfl, rfl, fun _ _ => rfl, fun _ _ => rfl⟩
  | cons o ops ih =>
    intro mem hops hb
    obtain ⟨i, v⟩ := o
    obtain ⟨hi, hv⟩ := hops (i, v) (List.mem_cons_self ..)
    simp only at hi hv
    have hsz : ∀ j, Ty.serSizes (V.ts.take j) = wireSizes (V.ts.take j) := fun j => packedAll_serSizes _ (packedAll_take hp j)
    have hpi := packedAll_get hp hi
    have hend := serSizes_take_lt hi
    rw [hsz, packed_serSize _ hpi, packedAll_serSizes _ hp] at hend
    have hset : V.set P i v mem = .ok (splice mem (V.off + wireSizes (V.ts.take i)) (wire V.e V.s V.ts[i] v)) := by
      rw [View.set_eq P V hi, hsz]
      exact writeAs_packed hP hs (wfs_get hw hi) hpi hv (by omega)
    have hl := wire_length (e := V.e) (s := V.s) hpi hv
    have hroom : V.off + wireSizes (V.ts.take i) + (wire V.e V.s V.ts[i] v).length ≤ mem.length := by omega
    obtain ⟨mem', h1, h2, h3, h4⟩ := ih (splice mem (V.off + wireSizes (V.ts.take i)) (wire V.e V.s V.ts[i] v))
      (fun o ho => hops o (List.mem_cons_of_mem _ ho)) (by rw [splice_length hroom]; exact hb)
    refine ⟨mem', ?_, by rw [h2, splice_length hroom], ?_, ?_⟩
    · rw [View.sets, hset, except_bind_ok, h1]
    · intro k hk
      rw [h3 k hk, splice_getElem? hroom]
      rcases hk with hk | hk
      · rw [if_pos (by omega)]
      · rw [if_neg (by omega), if_neg (by omega)]
    · intro j hj
      rw [h4 j hj, lastSet]
      cases lastSet ops j with
      | some w => rfl
      | none =>
        simp only
        by_cases hij : i = j
        · subst hij
          rw [if_pos rfl]
          simp only
          rw [← hl, slice_splice_same hroom]
        · rw [if_neg hij]
          simp only
          have hd := disjoint_elems hi hj hij
          rw [hsz, hsz, packed_serSize _ hpi, packed_serSize _ (packedAll_get hp hj)] at hd
          exact slice_splice_disj hroom (by omega)

/-- C70. Whatever the order in which `serialize` sets the fields, and even if it sets some of them several times, the object is represented by the
concatenation of the encodings of the last values given to its fields, as long as each field is given a value. -/
theorem C70_write {X : Type} {P : Platform} (hP : P.Valid) {e : Endian} {s : Mode} (hs : Supported P e s) {E : Ext X} (hw : Ty.WFs E.fields)
    (hp : PackedAll E.fields) {x : X} (hops : ∀ o ∈ E.serialize x, ∃ h : o.1 < E.fields.length, o.2.Fits (Safe P s) E.fields[o.1])
    {vs : List Val} (hvs : vs.length = E.fields.length) (hall : ∀ i (h : i < vs.length), lastSet (E.serialize x) i = some vs[i])
    {mem : Mem} {off : Nat} (hb : off + wireSizes E.fields ≤ mem.length) :
    E.write P e s x mem off = .ok (splice mem off (wires e s E.fields vs)) := by
  obtain ⟨mem', h1, h2, h3, h4⟩ := sets_ok hP (V := ⟨e, s, E.fields, off⟩) hs hw hp (E.serialize x) mem hops hb
  have hmem : ∀ (ops : List (Nat × Val)) (i : Nat) (v : Val), lastSet ops i = some v → (i, v) ∈ ops := by
    intro ops
    induction ops with
    | nil => intro i v h; cases h
    | cons o ops ih =>
      intro i v h
      obtain ⟨j, w⟩ := o
      rw [lastSet] at h
      cases hl : lastSet ops i with
      | some u =>
        rw [hl] at h
        cases h
        exact List.mem_cons_of_mem _ (ih i v hl)
      | none =>
        rw [hl] at h
        simp only at h
        by_cases hj : j = i
        · rw [if_pos hj] at h
          cases h
          rw [hj]
          exact List.mem_cons_self ..
        · rw [if_neg hj] at h; cases h
  have hfit : Val.FitsAll (Safe P s) E.fields vs := by
    have key : ∀ (ts : List Ty) (us : List Val), us.length = ts.length →
        (∀ i (h : i < ts.length) (h' : i < us.length), us[i].Fits (Safe P s) ts[i]) → Val.FitsAll (Safe P s) ts us := by
      intro ts
      induction ts with
      | nil => intro us hl _; cases us with
        | nil => simp [Val.FitsAll]
        | cons u us => simp at hl
      | cons t ts ih => intro us hl h; cases us with
        | nil => simp at hl
        | cons u us =>
          simp only [Val.FitsAll]
          exact ⟨h 0 (by simp) (by simp), ih us (by simpa using hl) (fun i h1 h2 => h (i + 1) (by simpa using h1) (by simpa using h2))⟩
    refine key _ _ hvs fun i h h' => ?_
    obtain ⟨_, hf⟩ := hops _ (hmem _ _ _ (hall i h'))
    exact hf
  have hsl : slice mem' off (wireSizes E.fields) = wires e s E.fields vs := by
    refine slices_wires mem' E.fields vs off hp hfit fun i hi hv => ?_
    have := h4 i hi
    rw [hall i hv] at this
    exact this
  have hlen := wires_length (e := e) (s := s) hp hfit
  rw [Ext.write, h1]
  congr 1
  apply List.ext_getElem?
  intro k
  rw [splice_getElem? (by rw [hlen]; exact hb), hlen]
  by_cases hk : k < off
  · rw [if_pos hk]; exact h3 k (Or.inl hk)
  · rw [if_neg hk]
    by_cases hk2 : k < off + wireSizes E.fields
    · rw [if_pos hk2, ← hsl, slice_getElem?, if_pos (by omega), show off + (k - off) = k by omega]
    · rw [if_neg hk2]; exact h3 k (Or.inr (by simpa using hk2))

/-- C70, the object comes back as soon as `unserialize`, called on the last values given to the fields, gives it back. -/
theorem C70_round_trip {X : Type} {P Q : Platform} (hP : P.Valid) (hQ : Q.Valid) {e : Endian} {s : Mode} (hs : Supported P e s) (hs' : Supported Q e s)
    {E : Ext X} (hw : Ty.WFs E.fields) (hp : PackedAll E.fields) {x : X}
    (hops : ∀ o ∈ E.serialize x, ∃ h : o.1 < E.fields.length, o.2.Fits (Safe P s) E.fields[o.1])
    {vs : List Val} (hvs : Val.FitsAll (Safe Q s) E.fields vs) (hall : ∀ i (h : i < vs.length), lastSet (E.serialize x) i = some vs[i])
    (hx : E.unserialize vs = x) {mem : Mem} {off : Nat} (hb : off + wireSizes E.fields ≤ mem.length) :
    ∃ mem', E.write P e s x mem off = .ok mem' ∧ E.read Q e s mem' off = .ok x := by
  refine ⟨_, C70_write hP hs hw hp hops (fitsAll_length hvs) hall hb, ?_⟩
  have hlen := wires_length (e := e) (s := s) hp hvs
  have hr : readAs Q e s (.user 1 E.fields) (splice mem off (wires e s E.fields vs)) off = .ok (.user vs) :=
    readAs_packed hQ hs' (t := .user 1 E.fields) (v := .user vs) (by simp only [Ty.WF]; exact ⟨Nat.le_refl _, hw⟩) (by simpa only [Packed] using hp)
      (by simpa only [Val.Fits] using hvs)
      (by simp only [wireSize, wire]; rw [← hlen]; exact slice_splice_same (by rw [hlen]; exact hb))
  rw [readAs] at hr
  obtain ⟨us, hus, hr⟩ := except_bind_eq_ok hr
  injection hr with hr
  injection hr with hr
  rw [Ext.read, View.invoke, View.indices_eq, View.gets_eq]
  show (readAll Q e s E.fields _ off >>= _) = _
  rw [hus, except_bind_ok, hr, hx]

/-- C70, why the other theorems may take an object for the list of its fields: `serialize` does the same as setting each field once, in order. -/
theorem C70_as_fields {X : Type} {P : Platform} (hP : P.Valid) {e : Endian} {s : Mode} (hs : Supported P e s) {E : Ext X} (hw : Ty.WFs E.fields)
    (hp : PackedAll E.fields) {x : X} (hops : ∀ o ∈ E.serialize x, ∃ h : o.1 < E.fields.length, o.2.Fits (Safe P s) E.fields[o.1])
    {vs : List Val} (hvs : Val.FitsAll (Safe P s) E.fields vs) (hall : ∀ i (h : i < vs.length), lastSet (E.serialize x) i = some vs[i])
    {mem : Mem} {off size : Nat} (hsize : 1 ≤ size) (hb : off + wireSizes E.fields ≤ mem.length) :
    E.write P e s x mem off = writeAs P e s (.user size E.fields) (.user vs) mem off ∧
      ∀ us, readAs P e s (.user size E.fields) mem off = .ok (.user us) → E.read P e s mem off = .ok (E.unserialize us) := by
  refine ⟨?_, ?_⟩
  · rw [C70_write hP hs hw hp hops (fitsAll_length hvs) hall hb]
    exact (writeAs_packed hP hs (t := .user size E.fields) (v := .user vs) (by simp only [Ty.WF]; exact ⟨hsize, hw⟩) (by simpa only [Packed] using hp)
      (by simpa only [Val.Fits] using hvs) (by simpa only [wireSize] using hb)).symm
  · intro us h
    rw [readAs] at h
    obtain ⟨us', hus, h⟩ := except_bind_eq_ok h
    injection h with h
    injection h with h
    rw [Ext.read, View.invoke, View.indices_eq, View.gets_eq]
    show (readAll P e s E.fields mem off >>= _) = _
    rw [hus, except_bind_ok, h]

/-- C70, a field which `serialize` does not set: its bytes are left as they were, which is uninitialised memory in a new tuple. -/
theorem C70_field_not_set {X : Type} {P : Platform} (hP : P.Valid) {e : Endian} {s : Mode} (hs : Supported P e s) {E : Ext X} (hw : Ty.WFs E.fields)
    (hp : PackedAll E.fields) {x : X} (hops : ∀ o ∈ E.serialize x, ∃ h : o.1 < E.fields.length, o.2.Fits (Safe P s) E.fields[o.1])
    {i : Nat} (hi : i < E.fields.length) (hn : lastSet (E.serialize x) i = none) {mem : Mem} {off : Nat} (hb : off + wireSizes E.fields ≤ mem.length) :
    ∃ mem', E.write P e s x mem off = .ok mem' ∧
      slice mem' (off + wireSizes (E.fields.take i)) (wireSize E.fields[i]) = slice mem (off + wireSizes (E.fields.take i)) (wireSize E.fields[i]) := by
  obtain ⟨mem', h1, _, _, h4⟩ := sets_ok hP (V := ⟨e, s, E.fields, off⟩) hs hw hp (E.serialize x) mem hops hb
  have := h4 i hi
  rw [hn] at this
  exact ⟨mem', h1, this⟩

/-! ## Examples -/

/-- `object_t` of test/snippet/serialization2, whose `serialize` sets `z` first, and `x` twice. -/
def objectExt : Ext (Int × Int × Int) where
  fields := [.sint 2, .sint 2, .uint 4]
  serialize o := [(2, .int o.2.2), (0, .int 0), (1, .int o.2.1), (0, .int o.1)]
  unserialize
    | [.int x, .int y, .int z] => (x, y, z)
    | _ => (0, 0, 0)

theorem objectExt_ops {P : Platform} {s : Mode} (o : Int × Int × Int) (h0 : Safe P s 2 0) (hx : Safe P s 2 o.1) (hy : Safe P s 2 o.2.1)
    (hz : 0 ≤ o.2.2 ∧ o.2.2 < 2 ^ 32) :
    ∀ a ∈ objectExt.serialize o, ∃ h : a.1 < objectExt.fields.length, a.2.Fits (Safe P s) objectExt.fields[a.1] := by
  intro a ha
  simp only [objectExt, List.mem_cons, List.not_mem_nil, or_false] at ha
  rcases ha with rfl | rfl | rfl | rfl
  · exact ⟨by simp [objectExt], by simpa [objectExt, Val.Fits] using hz⟩
  · exact ⟨by simp [objectExt], by simpa [objectExt, Val.Fits] using h0⟩
  · exact ⟨by simp [objectExt], by simpa [objectExt, Val.Fits] using hy⟩
  · exact ⟨by simp [objectExt], by simpa [objectExt, Val.Fits] using hx⟩

theorem object_safe {P : Platform} (hP : P.intBytes = 4) (z : Int) (hz : -32768 ≤ z ∧ z < 32768) : Safe P .twosComplement 2 z := by
  refine ⟨?_, Or.inl (Or.inr (Or.inr (by rw [hP]; decide)))⟩
  simpa [Representable, InRange] using hz

theorem object_fits {P : Platform} (hP : P.intBytes = 4) :
    Val.FitsAll (Safe P .twosComplement) objectExt.fields [.int (-2), .int 300, .int 70000] := by
  simp only [objectExt, Val.FitsAll, Val.Fits]
  exact ⟨object_safe hP _ (by decide), object_safe hP _ (by decide), by decide, trivial⟩

theorem object_ops : ∀ a ∈ objectExt.serialize (-2, 300, 70000),
    ∃ h : a.1 < objectExt.fields.length, a.2.Fits (Safe pc .twosComplement) objectExt.fields[a.1] :=
  objectExt_ops _ (object_safe rfl _ (by decide)) (object_safe rfl _ (by decide)) (object_safe rfl _ (by decide)) (by decide)

theorem object_last : ∀ i (h : i < [Val.int (-2), .int 300, .int 70000].length),
    lastSet (objectExt.serialize (-2, 300, 70000)) i = some [Val.int (-2), .int 300, .int 70000][i]
  | 0, _ => rfl
  | 1, _ => rfl
  | 2, _ => rfl

theorem object_wf : Ty.WFs objectExt.fields := by simp [objectExt, Ty.WFs, Ty.WF]
theorem object_packed : PackedAll objectExt.fields := by simp [objectExt, PackedAll, Packed]

example (mem : Mem) (h : mem.length = 9) : objectExt.write pc .big .twosComplement (-2, 300, 70000) mem 1 =
    .ok (splice mem 1 [0xFF#8, 0xFE#8, 0x01#8, 0x2C#8, 0x00#8, 0x01#8, 0x11#8, 0x70#8]) :=
  C70_write pc_valid (pc_supported _ _) object_wf object_packed object_ops rfl object_last (by rw [h]; decide)

example (mem : Mem) (h : mem.length = 9) : ∃ mem', objectExt.write pc .big .twosComplement (-2, 300, 70000) mem 1 = .ok mem' ∧
    objectExt.read ppcMacros .big .twosComplement mem' 1 = .ok (-2, 300, 70000) :=
  C70_round_trip pc_valid ppcMacros_valid (pc_supported _ _) ppcMacros_supported object_wf object_packed object_ops (object_fits rfl) object_last rfl
    (by rw [h]; decide)

example (mem : Mem) (h : mem.length = 9) : objectExt.write pc .big .twosComplement (-2, 300, 70000) mem 1 =
    writeAs pc .big .twosComplement (.user 8 [.sint 2, .sint 2, .uint 4]) (.user [.int (-2), .int 300, .int 70000]) mem 1 :=
  (C70_as_fields pc_valid (pc_supported _ _) object_wf object_packed object_ops (object_fits rfl) object_last (by decide) (by rw [h]; decide)).1

/-- An extension which forgets its second field. -/
def forgetfulExt : Ext Int := ⟨[.uint 1, .uint 1], fun x => [(0, .int x)], fun | [.int x, _] => x | _ => 0⟩

example (a b : Byte) : ∃ mem', forgetfulExt.write pc .big .twosComplement 7 [a, b] 0 = .ok mem' ∧ slice mem' 1 1 = [b] :=
  C70_field_not_set (E := forgetfulExt) pc_valid (pc_supported _ _) (by simp [forgetfulExt, Ty.WFs, Ty.WF]) (by simp [forgetfulExt, PackedAll, Packed])
    (by
      intro o ho
      simp only [forgetfulExt, List.mem_cons, List.not_mem_nil, or_false] at ho
      subst ho
      exact ⟨by decide, by simp [forgetfulExt, Val.Fits]⟩) (i := 1) (by decide) rfl (Nat.le_refl 2)

end Upd
