import Verif.Lemmas.Effect

namespace Upd
open Spec

theorem slice_take {m : List Byte} {o n k : Nat} (h : k ≤ n) : (slice m o n).take k = slice m o k := by
  simp [slice, List.take_take, Nat.min_eq_left h]

theorem slice_drop {m : List Byte} {o n k : Nat} : (slice m o n).drop k = slice m (o + k) (n - k) := by
  simp [slice, List.drop_take, List.drop_drop]

theorem slice_slice {m : List Byte} {o n i k : Nat} (h : i + k ≤ n) : slice (slice m o n) i k = slice m (o + i) k := by
  show ((slice m o n).drop i).take k = _
  rw [slice_drop, slice_take (by omega)]

theorem wireValue_single (e : Endian) (x : Byte) : wireValue e [x] = x.toNat := by
  cases e <;> simp [wireValue, leValue]

mutual
/-- The bytes decoded as `v` stand for `v`. -/
theorem readAs_unwire {P : Platform} (hP : P.Valid) {e : Endian} {s : Mode} (hs : Supported P e s) :
    ∀ (t : Ty) (mem : Mem) (off : Nat) (v : Val), t.WF → Packed t → off + wireSize t ≤ mem.length →
      readAs P e s t mem off = .ok v → v = unwire e s t (slice mem off (wireSize t))
  | .bool, mem, off, v, _, _, h, h1 => by
    simp only [wireSize] at h
    rw [readAs] at h1
    obtain ⟨a, ha, h1⟩ := except_bind_eq_ok h1
    obtain ⟨x, hx, rfl⟩ := readBool_eq_ok ha
    injection h1 with h1
    rw [Mem.rd_ok (by omega)] at hx
    injection hx with hx
    rw [← h1, unwire, wireSize, slice_succ (by omega), slice_zero, wireValue_single, hx]
    congr 1
    have : x = 0#8 ↔ x.toNat = 0 := by
      constructor
      · rintro rfl; rfl
      · intro h; exact BitVec.eq_of_toNat_eq h
    simp [this]
  | .uint n, mem, off, v, _, _, h, h1 => by
    simp only [wireSize] at h
    rw [readAs, readUint_ok hP e h] at h1
    injection h1 with h1
    rw [← h1, unwire, wireSize]
  | .sint k, mem, off, v, hw, _, h, h1 => by
    simp only [wireSize] at h
    simp only [Ty.WF] at hw
    rw [readAs] at h1
    obtain ⟨a, ha, h1⟩ := except_bind_eq_ok h1
    have ea := (readSint_safe hP hs hw h ha).1
    injection h1 with h1
    rw [← h1, unwire, wireSize, ea]
  | .arr t n, mem, off, v, hw, hp, h, h1 => by
    simp only [wireSize] at h
    simp only [Ty.WF] at hw
    simp only [Packed] at hp
    rw [readAs] at h1
    obtain ⟨a, ha, h1⟩ := except_bind_eq_ok h1
    injection h1 with h1
    rw [← h1, unwire, wireSize]
    congr 1
    have key : ∀ n off a, off + n * wireSize t ≤ mem.length →
        readLoop (readAs P e s t) t.sizeof mem n off = .ok a →
        a = (List.range n).map fun i => unwire e s t (slice mem (off + i * wireSize t) (wireSize t)) := by
      intro n
      induction n with
      | zero => intro off a _ ha; rw [readLoop] at ha; injection ha with ha; rw [← ha]; rfl
      | succ n ih =>
        intro off a h ha
        rw [Nat.succ_mul] at h
        rw [readLoop] at ha
        obtain ⟨a1, ha1, ha⟩ := except_bind_eq_ok ha
        obtain ⟨a2, ha2, ha⟩ := except_bind_eq_ok ha
        injection ha with ha
        rw [hp.2] at ha2
        rw [← ha, readAs_unwire hP hs t mem off a1 hw.1 hp.1 (by omega) ha1, ih (off + wireSize t) a2 (by omega) (hp.2 ▸ ha2),
          List.range_succ_eq_map, List.map_cons, List.map_map]
        congr 1
        · rw [Nat.zero_mul, Nat.add_zero]
        · apply List.map_congr_left
          intro i _
          show _ = unwire e s t (slice mem (off + (i + 1) * wireSize t) (wireSize t))
          rw [Nat.succ_mul]
          congr 2
          omega
    rw [key n off a h ha]
    apply List.map_congr_left
    intro i hi
    have hi : i < n := List.mem_range.mp hi
    rw [slice_slice]
    have := Nat.mul_le_mul_right (wireSize t) (show i + 1 ≤ n by omega)
    rw [Nat.succ_mul] at this
    omega
  | .user _ fs, mem, off, v, hw, hp, h, h1 => by
    simp only [wireSize] at h
    simp only [Ty.WF] at hw
    simp only [Packed] at hp
    rw [readAs] at h1
    obtain ⟨a, ha, h1⟩ := except_bind_eq_ok h1
    injection h1 with h1
    rw [← h1, unwire, wireSize, readAll_unwire hP hs fs mem off a hw.2 hp h ha]

theorem readAll_unwire {P : Platform} (hP : P.Valid) {e : Endian} {s : Mode} (hs : Supported P e s) :
    ∀ (ts : List Ty) (mem : Mem) (off : Nat) (vs : List Val), Ty.WFs ts → PackedAll ts →
      off + wireSizes ts ≤ mem.length → readAll P e s ts mem off = .ok vs →
      vs = unwires e s ts (slice mem off (wireSizes ts))
  | [], mem, off, vs, _, _, _, h1 => by
    rw [readAll] at h1
    injection h1 with h1
    rw [← h1, unwires]
  | t :: ts, mem, off, vs, hw, hp, h, ha => by
    simp only [wireSizes] at h
    simp only [Ty.WFs] at hw
    simp only [PackedAll] at hp
    rw [readAll] at ha
    obtain ⟨a1, ha1, ha⟩ := except_bind_eq_ok ha
    obtain ⟨a2, ha2, ha⟩ := except_bind_eq_ok ha
    injection ha with ha
    rw [packed_serSize t hp.1] at ha2
    rw [← ha, unwires, wireSizes, slice_take (by omega), slice_drop, Nat.add_sub_cancel_left,
      ← readAs_unwire hP hs t mem off a1 hw.1 hp.1 (by omega) ha1,
      ← readAll_unwire hP hs ts mem _ a2 hw.2 hp.2 (by omega) ha2]
end

/-- Decoding bytes of arguments gives the values they stand for: when the types can be decoded from any bytes, or when the bytes
encode some values. -/
theorem readAll_decodeSafe {P : Platform} (hP : P.Valid) {e : Endian} {s : Mode} (hs : Supported P e s) {ts : List Ty}
    (hw : Ty.WFs ts) (hp : PackedAll ts) (hd : DecodeSafeAll P e s ts) {bs : List Byte} (h : bs.length = wireSizes ts) :
    readAll P e s ts bs 0 = .ok (unwires e s ts bs) ∧ Val.FitsAll (Safe P s) ts (unwires e s ts bs) := by
  obtain ⟨vs, hvs, hf⟩ := readAll_total hP hs ts bs 0 hw (packedAll_loose ts hp) hd
    (by rw [packedAll_serSizes ts hp]; omega)
  have := readAll_unwire hP hs ts bs 0 vs hw hp (by omega) hvs
  rw [slice_all h] at this
  rw [← this]
  exact ⟨hvs, hf⟩

theorem readAll_wires {P : Platform} (hP : P.Valid) {e : Endian} {s : Mode} (hs : Supported P e s) {ts : List Ty}
    (hw : Ty.WFs ts) (hp : PackedAll ts) {vs : List Val} (hf : Val.FitsAll (Safe P s) ts vs) :
    readAll P e s ts (wires e s ts vs) 0 = .ok vs := by
  apply readAll_ok hP hs ts vs _ 0 hw (packedAll_loose ts hp) hf
  rw [packedAll_cells e s _ ts vs hp hf]
  apply slice_matches
  exact slice_all rfl

theorem unwires_wires {P : Platform} (hP : P.Valid) {e : Endian} {s : Mode} (hs : Supported P e s) {ts : List Ty}
    (hw : Ty.WFs ts) (hp : PackedAll ts) {vs : List Val} (hf : Val.FitsAll (Safe P s) ts vs) :
    unwires e s ts (wires e s ts vs) = vs := by
  have hl := wires_length (e := e) (s := s) hp hf
  have := readAll_unwire hP hs ts _ 0 vs hw hp (by omega) (readAll_wires hP hs hw hp hf)
  rw [slice_all hl] at this
  exact this.symm

/-! ### Actions -/

variable {σ τ : Type}

/-- `r ← zoom L …; respond`. -/
def respond (P : Platform) (e : Endian) (s : Mode) (ret : Option Ty) (r : Option Val) (dest : Byte → Eff τ Unit) : Eff τ Unit :=
  match ret, r with
  | none, none => pure ()
  | some t, some v => insert P e s t v dest
  | _, _ => Eff.lift (.error .illTyped)

theorem respond_eq {P : Platform} (hP : P.Valid) {e : Endian} {s : Mode} (hs : Supported P e s) {ret : Option Ty}
    (ht : ∀ t, ret = some t → t.WF ∧ Packed t) {r : Option Val} (hr : RetOk P s ret r) (dest : Byte → Eff τ Unit) :
    respond P e s ret r dest = putAll dest (response e s ret r) := by
  cases ret with
  | none => cases r with
    | none => rfl
    | some v => cases hr
  | some t => cases r with
    | none => cases hr
    | some v => exact insert_eq hP hs (ht t rfl).1 (ht t rfl).2 hr dest

/-- Both kinds of action do the same thing. -/
theorem staticWrapper_eq (P : Platform) (e : Endian) (s : Mode) (cb : Callback σ) (L : Lens τ σ) (src : Eff τ Byte)
    (dest : Byte → Eff τ Unit) : staticWrapper P e s cb L src dest = call P e s cb L src dest := by
  unfold staticWrapper call
  rfl


theorem call_eq {P : Platform} (hP : P.Valid) {e : Endian} {s : Mode} (hs : Supported P e s) (cb : Callback σ)
    (hw : Ty.WFs cb.sig.params) (hp : PackedAll cb.sig.params) (L : Lens τ σ) (src : Eff τ Byte)
    (dest : Byte → Eff τ Unit) :
    call P e s cb L src dest = (do
      let bs ← getN src (wireSizes cb.sig.params)
      let vs ← Eff.lift (readAll P e s cb.sig.params bs 0)
      let r ← Eff.zoom L (cb.fn vs)
      respond P e s cb.sig.ret r dest) := by
  unfold call
  rw [readFrom_eq hP hs hw (packedAll_loose _ hp), packedAll_serSizes _ hp]
  congr 1; funext bs
  rw [invoke_eq]
  cases readAll P e s cb.sig.params bs 0 with
  | error f => rfl
  | ok vs =>
    show (pure (cb.fn vs) >>= _) = (pure vs >>= _)
    rw [pure_bind, pure_bind]
    congr 1

theorem zoom_eq_ret {L : Lens τ σ} {α : Type} {x : Eff σ α} {w w' : τ} {a : α} (h : Eff.zoom L x w = .ret a w') :
    ∃ v, x (L.get w) = .ret a v ∧ w' = L.put v w := by
  unfold Eff.zoom at h
  split at h
  · rename_i a' v' h'
    injection h with h1 h2
    exact ⟨v', by rw [h', h1], h2.symm⟩
  · cases h
  · cases h

theorem call_serve {P : Platform} (hP : P.Valid) {e : Endian} {s : Mode} (hs : Supported P e s) (cb : Callback σ)
    (hg : SigOk cb.sig) (hd : DecodeSafeAll P e s cb.sig.params) (hc : WellTyped P s cb) (L : Lens τ σ) (src : Eff τ Byte)
    (dest : Byte → Eff τ Unit) :
    call P e s cb L src dest = serve e s cb L src dest := by
  rw [call_eq hP hs cb hg.1 hg.2.1]
  unfold serve
  apply Eff.bind_congr
  intro w bs w' hbs
  obtain ⟨h1, h2⟩ := readAll_decodeSafe hP hs hg.1 hg.2.1 hd (getN_length hbs).1
  rw [h1, Eff.lift_ok, pure_bind]
  refine congrFun ?_ w'
  apply Eff.bind_congr
  intro w1 r w2 hr
  obtain ⟨v, hv, _⟩ := zoom_eq_ret hr
  rw [respond_eq hP hs hg.2.2 (hc _ _ _ _ h2 hv)]

end Upd
