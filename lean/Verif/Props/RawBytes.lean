import Verif.Spec.RawBytes
import Verif.Props.Framing

/-!
# C85: raw access to the bytes of tuples and views
-/

namespace Upd
open Spec

theorem wireSizes_take_succ {ts : List Ty} {i : Nat} (hi : i < ts.length) :
    wireSizes (ts.take (i + 1)) = wireSizes (ts.take i) + wireSize ts[i] := by
  induction ts generalizing i with
  | nil => simp at hi
  | cons t ts ih =>
    cases i with
    | zero => simp [wireSizes]
    | succ i =>
      have := ih (i := i) (by simpa using hi)
      simp only [List.take_succ_cons, wireSizes, List.getElem_cons_succ, this]
      omega

theorem wireSizes_take_le {ts : List Ty} {i : Nat} (hi : i < ts.length) :
    wireSizes (ts.take i) + wireSize ts[i] ≤ wireSizes ts := by
  induction ts generalizing i with
  | nil => simp at hi
  | cons t ts ih =>
    cases i with
    | zero => simp [wireSizes]
    | succ i =>
      have := ih (i := i) (by simpa using hi)
      simp only [List.take_succ_cons, wireSizes, List.getElem_cons_succ]
      omega

theorem packedAll_take {ts : List Ty} (h : PackedAll ts) (i : Nat) : PackedAll (ts.take i) := by
  induction ts generalizing i with
  | nil => simpa using h
  | cons t ts ih =>
    cases i with
    | zero => simp [PackedAll]
    | succ i => exact ⟨h.1, ih h.2 i⟩

/-- The conditions on the operations: the elements exist and their values can be encoded; the bytes exist. -/
def RawOp.Ok (P : Platform) (V : View) : RawOp → Prop
  | .set i v => ∃ h : i < V.ts.length, v.Fits (Safe P V.s) V.ts[i]
  | .byte k _ => k < wireSizes V.ts

theorem raw_run {P : Platform} (hP : P.Valid) {V : View} (hs : Supported P V.e V.s) (hw : Ty.WFs V.ts) (hp : PackedAll V.ts)
    {pre bs post : List Byte} (ho : pre.length = V.off) (hl : bs.length = wireSizes V.ts) {op : RawOp} (hk : op.Ok P V) :
    op.run P V (pre ++ bs ++ post) = .ok (pre ++ RawOp.after V.e V.s V.ts bs op ++ post) ∧ (RawOp.after V.e V.s V.ts bs op).length = bs.length := by
  cases op with
  | byte k b =>
    simp only [RawOp.Ok] at hk
    simp only [RawOp.run, View.setByte, RawOp.after, List.length_set, and_true]
    rw [Mem.wr_ok (by simp; omega), ← ho]
    congr 1
    rw [List.append_assoc, List.append_assoc, List.set_append_right _ _ (by omega)]
    simp only [Nat.add_sub_cancel_left]
    rw [List.set_append_left _ _ (by omega)]
  | set i v =>
    obtain ⟨hi, hv⟩ := hk
    have hpi := packedAll_get hp hi
    have hle := wireSizes_take_le hi
    have hlen := wire_length (e := V.e) (s := V.s) hpi hv
    simp only [RawOp.run, RawOp.after, List.getElem?_eq_getElem hi, offsetOf]
    rw [V.set_eq P hi, packedAll_serSizes _ (packedAll_take hp i), writeAs_packed hP hs (wfs_get hw hi) hpi hv (by simp; omega)]
    refine ⟨?_, splice_length (by omega)⟩
    congr 1
    simp only [splice, ← ho, hlen]
    simp only [List.append_assoc]
    rw [List.take_append, List.drop_append]
    simp only [List.take_of_length_le (show pre.length ≤ pre.length + wireSizes (V.ts.take i) by omega), List.append_assoc]
    rw [List.drop_eq_nil_of_le (show pre.length ≤ pre.length + wireSizes (V.ts.take i) + wireSize V.ts[i] by omega)]
    simp only [Nat.add_sub_cancel_left, List.nil_append, Nat.add_assoc]
    rw [List.take_append_of_le_length (by omega), List.drop_append_of_le_length (by omega)]

theorem bytesOf_mid {ts : List Ty} {pre bs post : List Byte} {off : Nat} (ho : pre.length = off) (hl : bs.length = wireSizes ts) {j : Nat} (hj : j < ts.length) :
    slice (pre ++ bs ++ post) (off + offsetOf ts j) (wireSize ts[j]) = bytesOf ts j bs := by
  have hle := wireSizes_take_le hj
  simp only [bytesOf, slice, offsetOf, wireSizes_take_succ hj, Nat.add_sub_cancel_left, ← ho]
  rw [List.append_assoc, List.drop_append, List.drop_eq_nil_of_le (as := pre) (by omega), List.nil_append, Nat.add_sub_cancel_left,
    List.drop_append_of_le_length (by omega), List.take_append_of_le_length (by simp; omega)]

theorem get_decoded {P : Platform} (hP : P.Valid) {V : View} (hs : Supported P V.e V.s) (hw : Ty.WFs V.ts) (hp : PackedAll V.ts)
    {pre bs post : List Byte} (ho : pre.length = V.off) (hl : bs.length = wireSizes V.ts) {j : Nat} (hj : j < V.ts.length) :
    V.get P j (pre ++ bs ++ post) = decoded P V.e V.s V.ts[j] (bytesOf V.ts j bs) := by
  have hle := wireSizes_take_le hj
  rw [V.get_eq P hj, packedAll_serSizes _ (packedAll_take hp j),
    C07_decoding_exact hP hs (wfs_get hw hj) (packedAll_get hp hj) (by simp; omega)]
  have := bytesOf_mid (post := post) ho hl hj
  simp only [offsetOf] at this
  rw [this]
  rfl

/-- C85. A tuple or a view is an array of bytes: after any sequence of `set` and of modifications of its bytes, its bytes are those of a plain array modified in the same way, the bytes around it are
unchanged, and every element is decoded from its own bytes. -/
theorem C85_history {P : Platform} (hP : P.Valid) {V : View} (hs : Supported P V.e V.s) (hw : Ty.WFs V.ts) (hp : PackedAll V.ts)
    {pre bs post : List Byte} (ho : pre.length = V.off) (hl : bs.length = wireSizes V.ts) (ops : List RawOp) (hok : ∀ op ∈ ops, op.Ok P V) :
    ∃ bs', bs' = ops.foldl (RawOp.after V.e V.s V.ts) bs ∧ bs'.length = bs.length ∧
      ops.foldlM (fun mem (op : RawOp) => op.run P V mem) (pre ++ bs ++ post) = .ok (pre ++ bs' ++ post) ∧
      V.bytes (pre ++ bs' ++ post) = .ok bs' ∧
      (∀ k (hk : k < bs'.length), V.byte k (pre ++ bs' ++ post) = .ok bs'[k]) ∧
      ∀ j (hj : j < V.ts.length), V.get P j (pre ++ bs' ++ post) = decoded P V.e V.s V.ts[j] (bytesOf V.ts j bs') := by
  induction ops generalizing bs with
  | nil =>
    refine ⟨bs, rfl, rfl, rfl, ?_, fun k hk => ?_, fun j hj => get_decoded hP hs hw hp ho hl hj⟩
    · have hsz : V.size = bs.length := by rw [V.size_eq, packedAll_serSizes _ hp, hl]
      simp only [View.bytes, hsz, ← ho]
      rw [Mem.rdN_ok (by simp), slice]
      simp
    · simp only [View.byte, ← ho]
      rw [Mem.rd_ok (by simp; omega)]
      congr 1
      rw [List.getElem_append_left (by simp; omega), List.getElem_append_right (by omega)]
      simp
  | cons op ops ih =>
    obtain ⟨h1, h2⟩ := raw_run hP hs hw hp (post := post) ho hl (hok op (by simp))
    obtain ⟨bs', e1, e2, e3, e4⟩ := ih (bs := RawOp.after V.e V.s V.ts bs op) (by rw [h2, hl]) fun o h => hok o (by simp [h])
    refine ⟨bs', by simpa using e1, by rw [e2, h2], ?_, e4⟩
    rw [List.foldlM_cons, h1]
    exact e3

/-- C85, locality: modifying a byte changes no element but the one which the byte belongs to, whatever the content; this one is decoded from its bytes with the new one. -/
theorem C85_set_byte {P : Platform} (hP : P.Valid) {V : View} (hs : Supported P V.e V.s) (hw : Ty.WFs V.ts) (hp : PackedAll V.ts)
    {mem : Mem} (hb : V.off + wireSizes V.ts ≤ mem.length) {k : Nat} (hk : k < wireSizes V.ts) (b : Byte) :
    ∃ mem', V.setByte k b mem = .ok mem' ∧ V.byte k mem' = .ok b ∧ (∀ p, p ≠ V.off + k → mem'[p]? = mem[p]?) ∧
      ∀ j (hj : j < V.ts.length),
        if offsetOf V.ts j ≤ k ∧ k < offsetOf V.ts (j + 1) then
          V.get P j mem' = decoded P V.e V.s V.ts[j] ((slice mem (V.off + offsetOf V.ts j) (wireSize V.ts[j])).set (k - offsetOf V.ts j) b)
        else V.get P j mem' = V.get P j mem := by
  obtain ⟨pre, bs, post, rfl, ho, hl⟩ : ∃ pre bs post, mem = pre ++ bs ++ post ∧ pre.length = V.off ∧ bs.length = wireSizes V.ts :=
    ⟨mem.take V.off, (mem.drop V.off).take (wireSizes V.ts), (mem.drop V.off).drop (wireSizes V.ts),
      by rw [List.append_assoc, List.take_append_drop, List.take_append_drop], by simp; omega, by simp; omega⟩
  obtain ⟨bs', e1, e2, e3, e4, e5, e6⟩ := C85_history hP hs hw hp (post := post) ho hl [.byte k b] (by simpa [RawOp.Ok] using hk)
  simp only [List.foldl_cons, List.foldl_nil, RawOp.after] at e1
  have hrun : V.setByte k b (pre ++ bs ++ post) = .ok (pre ++ bs' ++ post) := by
    simp only [List.foldlM_cons, List.foldlM_nil, RawOp.run] at e3
    cases h : V.setByte k b (pre ++ bs ++ post) with
    | ok m => rw [h] at e3; exact e3
    | error f => rw [h] at e3; cases e3
  have hset : pre ++ bs' ++ post = (pre ++ bs ++ post).set (V.off + k) b := by
    rw [View.setByte, Mem.wr_ok (by simp; omega)] at hrun
    exact (Except.ok.inj hrun).symm
  refine ⟨_, hrun, ?_, fun p hne => ?_, fun j hj => ?_⟩
  · rw [e5 k (by omega)]
    simp [e1]
  · rw [hset, List.getElem?_set_ne (Ne.symm hne)]
  · have hle := wireSizes_take_le hj
    have hsucc := wireSizes_take_succ hj
    have hbytes := (bytesOf_mid (post := post) ho hl hj).symm
    rw [e6 j hj]
    by_cases hin : offsetOf V.ts j ≤ k ∧ k < offsetOf V.ts (j + 1)
    · rw [if_pos hin, ← hbytes, e1]
      congr 1
      apply List.ext_getElem?
      intro p
      simp only [bytesOf, slice_getElem?, List.getElem?_set, slice_length (show offsetOf V.ts j + (wireSizes (V.ts.take (j + 1)) - offsetOf V.ts j) ≤ bs.length by
        simp only [offsetOf]; omega)]
      have hof : ∀ j, wireSizes (V.ts.take j) = offsetOf V.ts j := fun _ => rfl
      simp only [hof] at *
      by_cases hq : p < offsetOf V.ts (j + 1) - offsetOf V.ts j
      · by_cases hkp : k = offsetOf V.ts j + p
        · have h2 : k - offsetOf V.ts j = p := by omega
          rw [if_pos hq, if_pos hkp, if_pos h2, if_pos (by omega), if_pos (by omega)]
        · have h2 : k - offsetOf V.ts j ≠ p := by omega
          rw [if_pos hq, if_neg hkp, if_neg h2, if_pos hq]
      · have h2 : k - offsetOf V.ts j ≠ p := by omega
        rw [if_neg hq, if_neg h2, if_neg hq]
    · rw [if_neg hin, get_decoded hP hs hw hp ho hl hj, e1]
      congr 1
      apply List.ext_getElem?
      intro p
      simp only [bytesOf, slice_getElem?]
      split
      · rw [List.getElem?_set_ne]
        intro he
        apply hin
        simp only [offsetOf] at *
        omega
      · rfl

/-- C85: beyond the end of the memory, accesses are undefined; nothing else stops them. -/
theorem C85_bounds (V : View) (k : Nat) (b : Byte) (mem : Mem) :
    ((∃ x, V.byte k mem = .ok x) ↔ V.off + k < mem.length) ∧ ((∃ mem', V.setByte k b mem = .ok mem') ↔ V.off + k < mem.length) := by
  constructor
  · rw [View.byte]
    by_cases h : V.off + k < mem.length
    · rw [Mem.rd_ok h]; simp [h]
    · rw [Mem.rd_oob (by omega)]; simp [h]
  · rw [View.setByte]
    by_cases h : V.off + k < mem.length
    · rw [Mem.wr_ok h]; simp [h]
    · rw [Mem.wr_oob (by omega)]; simp [h]

theorem fill_eq (V : View) : ∀ (bs : List Byte) (k : Nat) (mem : Mem), V.off + k + bs.length ≤ mem.length →
    View.fill.go V bs k mem = .ok (splice mem (V.off + k) bs)
  | [], k, mem, _ => by rw [View.fill.go, splice_nil]
  | b :: bs, k, mem, h => by
    simp only [List.length_cons] at h
    rw [View.fill.go, View.setByte, Mem.wr_ok (by omega), except_bind_ok, fill_eq V bs (k + 1) _ (by simp; omega), ← Nat.add_assoc, splice_set_cons (by omega)]

/-- C85, receiving: whatever the object held, filling it with the encodings of values makes it hold these values, and the bytes from `begin()` to `end()` are what it was filled with. -/
theorem C85_fill {P : Platform} (hP : P.Valid) {V : View} (hs : Supported P V.e V.s) (hw : Ty.WFs V.ts) (hp : PackedAll V.ts)
    {mem : Mem} (hb : V.off + wireSizes V.ts ≤ mem.length) :
    (∀ bs : List Byte, bs.length = wireSizes V.ts → ∃ mem', V.fill bs mem = .ok mem' ∧ V.bytes mem' = .ok bs) ∧
    ∀ vs : List Val, Val.FitsAll (Safe P V.s) V.ts vs →
      ∃ mem', V.fill (wires V.e V.s V.ts vs) mem = .ok mem' ∧ ∀ j (hj : j < vs.length), V.get P j mem' = .ok vs[j] := by
  have hsz : V.size = wireSizes V.ts := by rw [V.size_eq, packedAll_serSizes _ hp]
  have key : ∀ bs : List Byte, bs.length = wireSizes V.ts → V.fill bs mem = .ok (splice mem V.off bs) ∧ V.bytes (splice mem V.off bs) = .ok bs := by
    intro bs hl
    refine ⟨by rw [View.fill, fill_eq V bs 0 mem (by omega), Nat.add_zero], ?_⟩
    rw [View.bytes, Mem.rdN_ok (by rw [splice_length (by omega), hsz]; exact hb), hsz, ← hl, slice_splice_same (by omega)]
  refine ⟨fun bs hl => ⟨_, key bs hl⟩, fun vs hf => ?_⟩
  have hwl := wires_length (e := V.e) (s := V.s) hp hf
  refine ⟨_, (key _ hwl).1, fun j hj => ?_⟩
  have hj' : j < V.ts.length := by rw [← fitsAll_length hf]; exact hj
  rw [V.get_eq P hj']
  apply readAs_ok hP hs _ _ _ _ (wfs_get hw hj') (looseAll_get (packedAll_loose _ hp) hj') (fitsAll_get hf hj' hj)
  apply cellsAll_get (packedAll_loose _ hp) hf _ hj' hj
  rw [packedAll_cells _ _ _ _ _ hp hf]
  exact slice_matches (slice_splice_same (by omega))

/-! ### Examples -/

/-- A tuple of three elements, whose second one is modified through its bytes. -/
example (mem : Mem) (h : mem.length = 7) :
    ∃ mem', (View.mk .big .twosComplement [.uint 1, .uint 4, .sint 2] 0).setByte 2 0x80#8 mem = .ok mem' ∧
      (View.mk .big .twosComplement [.uint 1, .uint 4, .sint 2] 0).get pc 0 mem' =
        (View.mk .big .twosComplement [.uint 1, .uint 4, .sint 2] 0).get pc 0 mem := by
  obtain ⟨mem', h1, _, _, h2⟩ := C85_set_byte pc_valid (V := View.mk .big .twosComplement [.uint 1, .uint 4, .sint 2] 0) (pc_supported _ _)
    (by simp [Ty.WFs, Ty.WF]) (by simp [PackedAll, Packed]) (mem := mem) (by rw [h]; decide) (k := 2) (by decide) 0x80#8
  exact ⟨mem', h1, h2 0 (by decide)⟩

/-- A view at offset 1, filled then modified. -/
example := C85_history pc_valid (V := View.mk .little .twosComplement [.uint 2, .arr (.sint 2) 2] 1) (pc_supported _ _)
  (by simp [Ty.WFs, Ty.WF]) (by simp [PackedAll, Packed, Ty.sizeof, wireSize]) (pre := [9#8]) (bs := [0#8, 1#8, 2#8, 3#8, 4#8, 5#8]) (post := [7#8, 7#8]) rfl rfl
  [.byte 3 0xff#8, .set 0 (.int 513), .byte 0 0x10#8]
  (by simp [RawOp.Ok, Val.Fits, wireSizes, wireSize])

/-- What it holds then. -/
example : ([.byte 3 0xff#8, .set 0 (.int 513), .byte 0 0x10#8] : List RawOp).foldl (RawOp.after .little .twosComplement [.uint 2, .arr (.sint 2) 2])
    [0#8, 1#8, 2#8, 3#8, 4#8, 5#8] = [0x10#8, 2#8, 2#8, 0xff#8, 4#8, 5#8] := by decide

/-- Receiving two values in offset binary. -/
example (mem : Mem) (h : mem.length = 3) :=
  (C85_fill pc_valid (V := View.mk .little .offsetBinary [.sint 2, .bool] 0) (pc_supported _ _) (by simp [Ty.WFs, Ty.WF]) (by simp [PackedAll, Packed])
    (mem := mem) (by rw [h]; decide)).2 [.int (-5), .bool true] (by simp [Val.FitsAll, Val.Fits, Safe, MinSafe, Representable, InRange])

example (mem : Mem) (h : mem.length = 8) : (∃ x, (View.mk .big .twosComplement [.uint 1, .uint 4] 2).byte 5 mem = .ok x) ∧
    ¬ ∃ mem', (View.mk .big .twosComplement [.uint 1, .uint 4] 2).setByte 6 7#8 mem = .ok mem' :=
  ⟨(C85_bounds (View.mk .big .twosComplement [.uint 1, .uint 4] 2) 5 0#8 mem).1.2 (by rw [h]; decide),
    fun hm => absurd ((C85_bounds (View.mk .big .twosComplement [.uint 1, .uint 4] 2) 6 7#8 mem).2.1 hm) (by rw [h]; decide)⟩

end Upd
