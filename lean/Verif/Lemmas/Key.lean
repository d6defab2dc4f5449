import Verif.Lemmas.Unwire
import Verif.Lemmas.TypeList2

namespace Upd
open Spec TypeList

theorem make_wires {P : Platform} (hP : P.Valid) {e : Endian} {s : Mode} (hs : Supported P e s) {ts : List Ty}
    (hw : Ty.WFs ts) (hp : PackedAll ts) {vs : List Val} (hf : Val.FitsAll (Safe P s) ts vs) :
    Tuple.make P e s ts vs = .ok (wires e s ts vs) := by
  have hsize : (Tuple.self e s ts).size = wireSizes ts := by
    rw [View.size_eq]; exact packedAll_serSizes ts hp
  have hlen := wires_length (e := e) (s := s) hp hf
  have hj : (P.junkBytes (Tuple.self e s ts).size).length = wireSizes ts := by rw [junkBytes_length, hsize]
  have hlay := View.lay_eq P (Tuple.self e s ts) vs (P.junkBytes (Tuple.self e s ts).size)
  rw [← View.indices_eq] at hlay
  show View.lay P (Tuple.self e s ts) (Tuple.self e s ts).indices vs (P.junkBytes (Tuple.self e s ts).size) = _
  rw [hlay]
  show writeAll P e s ts vs (P.junkBytes (Tuple.self e s ts).size) 0 = _
  rw [writeAll_ok hP hs ts vs _ 0 hw (packedAll_loose ts hp) hf (by rw [hj, packedAll_serSizes ts hp]; omega),
    packedAll_cells e s _ ts vs hp hf, overlay_map_some (by rw [hj, hlen]; omega)]
  simp only [splice, List.take_zero, List.nil_append, Nat.zero_add]
  rw [List.drop_eq_nil_of_le (by rw [hj, hlen]; exact Nat.le_refl _), List.append_nil]

/-- For each signed mode there is a platform without restriction on the least values. -/
theorem exists_platform (s : Mode) : ∃ P : Platform, P.Valid ∧ (∀ e, Supported P e s) ∧
    ∀ k z, Representable s k z → Safe P s k z := by
  by_cases h : s = .twosComplement
  · subst h
    refine ⟨⟨.little, 4, none, some .twosComplement, fun _ => 0⟩, ⟨by decide, by decide, ?_, ?_⟩, fun _ => Or.inl rfl, ?_⟩
    · intro e h; cases h
    · intro e h; cases h; rfl
    · intro k z h; exact ⟨h, Or.inl (Or.inl rfl)⟩
  · refine ⟨⟨.little, 4, none, none, fun _ => 0⟩, ⟨by decide, by decide, ?_, ?_⟩, fun _ => Or.inl rfl, ?_⟩
    · intro e h; cases h
    · intro e h; cases h
    · intro k z hz
      refine ⟨hz, ?_⟩
      cases s with
      | twosComplement => exact absurd rfl h
      | offsetBinary => exact Or.inl (Or.inr (Or.inl rfl))
      | signMagnitude => right; simp only [Representable] at hz; omega
      | onesComplement => right; simp only [Representable] at hz; omega

theorem safe_representable {P : Platform} {s : Mode} {k : Nat} {z : Int} (h : Safe P s k z) : Representable s k z := h.1

/-- The encoding of representable values determines them. -/
theorem unwires_wires' {e : Endian} {s : Mode} {ts : List Ty} (hw : Ty.WFs ts) (hp : PackedAll ts) {vs : List Val}
    (hf : Val.FitsAll (Representable s) ts vs) : unwires e s ts (wires e s ts vs) = vs := by
  obtain ⟨P, hP, hs, h⟩ := exists_platform s
  exact unwires_wires hP (hs e) hw hp (fitsAll_mono h ts vs hf)

theorem sum_sizeof {ts : List Ty} (h : ∀ t ∈ ts, t.sizeof = wireSize t) : (ts.map Ty.sizeof).sum = wireSizes ts := by
  rw [wireSizes_eq]
  congr 1
  exact List.map_congr_left h

theorem parametersSize_eq {g : Sig} (h : ∀ t ∈ g.params, t.sizeof = wireSize t) : g.parametersSize = wireSizes g.params := by
  rw [Sig.parametersSize, sum11_eq, sum_sizeof h]; omega

theorem builtin_sizeof : ∀ t, Builtin t → t.sizeof = wireSize t
  | .bool, _ => rfl
  | .uint _, _ => rfl
  | .sint _, _ => rfl
  | .arr t n, h => by
    rw [Ty.sizeof, wireSize, builtin_sizeof t (by simpa only [Builtin] using h)]
  | .user _ _, h => by simp [Builtin] at h

theorem builtin_packed : ∀ t, Builtin t → Packed t
  | .bool, _ => by simp [Packed]
  | .uint _, _ => by simp [Packed]
  | .sint _, _ => by simp [Packed]
  | .arr t n, h => by
    simp only [Builtin] at h
    simp only [Packed]
    exact ⟨builtin_packed t h, builtin_sizeof t h⟩
  | .user _ _, h => by simp [Builtin] at h

theorem packedAll_of {ts : List Ty} (h : ∀ t ∈ ts, Packed t) : PackedAll ts := by
  induction ts with
  | nil => simp [PackedAll]
  | cons t ts ih =>
    simp only [PackedAll]
    exact ⟨h t (by simp), ih fun u hu => h u (by simp [hu])⟩

theorem idxBytes_pos {n : Nat} (hn : n < 2 ^ 64) : 1 ≤ smallestUnsigned n ∧ n < 256 ^ smallestUnsigned n := by
  rcases smallestUnsigned_cases n hn with h | h | h | h
  all_goals
    rw [h.1]
    refine ⟨by omega, by simp; omega⟩

theorem Keyring.size_eq (K : Keyring) (h : K.decls.length < 2 ^ 64) : K.size = K.decls.length := by
  unfold Keyring.size Keyring.idxBytes
  exact Nat.mod_eq_of_lt (idxBytes_pos h).2

theorem Keyring.keyAt_eq (K : Keyring) (h : K.decls.length < 2 ^ 64) {i : Nat} (hi : i < K.decls.length) :
    K.keyAt (some i) = some ⟨K.e, K.s, K.idxBytes, i, K.decls[i].sig⟩ := by
  unfold Keyring.keyAt
  simp only [at11_eq, List.getElem?_eq_getElem hi]
  congr 2
  exact Nat.mod_eq_of_lt (Nat.lt_trans hi (idxBytes_pos h).2)

theorem nodup_get {l : List Nat} (h : l.Nodup) {i j : Nat} {x : Nat} (hi : l[i]? = some x) (hj : l[j]? = some x) : i = j := by
  obtain ⟨hi', h1⟩ := List.getElem?_eq_some_iff.mp hi
  obtain ⟨hj', h2⟩ := List.getElem?_eq_some_iff.mp hj
  exact (List.getElem_inj h).mp (h1.trans h2.symm)

/-- A key of the keyring: comes from a position. -/
theorem Keyring.get11_cases (K : Keyring) (h : K.decls.length < 2 ^ 64) {name : Nat} {k : Key} (hk : K.get11 name = some k) :
    ∃ i, ∃ hi : i < K.decls.length, K.decls[i].name = name ∧ k = ⟨K.e, K.s, K.idxBytes, i, K.decls[i].sig⟩ := by
  unfold Keyring.get11 at hk
  cases hf : find11 name 0 (K.decls.map (·.name)) with
  | none => rw [hf] at hk; simp [Keyring.keyAt] at hk
  | some i =>
    rw [hf] at hk
    obtain ⟨j, hj, h1, _⟩ := (find11_spec _ _ _ _).mp hf
    have hij : i = j := by omega
    subst hij
    rw [List.getElem?_map] at h1
    obtain ⟨d, hd, hn⟩ := Option.map_eq_some_iff.mp h1
    obtain ⟨hi, rfl⟩ := List.getElem?_eq_some_iff.mp hd
    rw [K.keyAt_eq h hi] at hk
    injection hk with hk
    exact ⟨i, hi, hn, hk.symm⟩

end Upd
