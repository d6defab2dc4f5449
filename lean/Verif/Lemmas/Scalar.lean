import Verif.Lemmas.Signed
import Verif.Model.Serial
import Verif.Spec.Domain

/-! Helper lemmas: reading and writing integers. -/

namespace Upd
open Spec

theorem pow256 (n : Nat) : (256 : Nat) ^ n = 2 ^ (8 * n) := by rw [Nat.pow_mul]

theorem ofInt_uint_toNat {n : Nat} {z : Int} (h0 : 0 ≤ z) (h1 : z < 256 ^ n) :
    (BitVec.ofInt (8 * n) z).toNat = z.toNat := by
  rw [BitVec.toNat_ofInt, ← pow256]
  have h1' : z < ((256 ^ n : Nat) : Int) := by simpa using h1
  rw [Int.emod_eq_of_lt h0 h1']

theorem writeUint_ok {P : Platform} (hP : P.Valid) (e : Endian) {n : Nat} (hn : 1 ≤ n) {z : Int} (h0 : 0 ≤ z)
    (h1 : z < 256 ^ n) {mem : Mem} {off : Nat} (h : off + n ≤ mem.length) :
    writeUint P e n z mem off = .ok (splice mem off (wireBytes e n z.toNat)) := by
  unfold writeUint
  rw [toEndianess_ok hP (by omega) e mem off _ n (by omega) (fun _ => Or.inr rfl) h, ofInt_uint_toNat h0 h1]

theorem readUint_ok {P : Platform} (hP : P.Valid) (e : Endian) {n : Nat} {mem : Mem} {off : Nat}
    (h : off + n ≤ mem.length) : readUint P e n mem off = .ok (wireValue e (slice mem off n) : Int) := by
  unfold readUint
  rw [fromEndianess_ok hP (8 * n) e mem off n (by omega) (fun _ => Or.inr rfl) h]
  show Except.ok _ = _
  rw [BitVec.toNat_ofNat, Nat.mod_eq_of_lt]
  have := wireValue_lt e (slice mem off n)
  rw [slice_length h, pow256] at this
  exact this

theorem supported_cases {P : Platform} {e : Endian} {s : Mode} (k : Nat) (h : Supported P e s) :
    (NativeOk P 64 k e ∧ NativeSOk P s k) ∨
      (P.endianMacro = some e ∧ P.signedMacro = some s ∧ P.host = .big) := by
  cases hh : P.host
  · left; exact ⟨fun _ => Or.inl hh, fun _ => Or.inl hh⟩
  · rcases h with h | h | h
    · rw [hh] at h; cases h
    · left; exact ⟨fun h' => absurd h' h.1, fun h' => absurd h' h.2⟩
    · right; exact ⟨h.1, h.2, rfl⟩

theorem toSignedMode_ok {P : Platform} (hP : P.Valid) {s : Mode} {k : Nat} {z : Int} (hk : SizeOk k)
    (hz : Safe P s k z) (hn : NativeSOk P s k) :
    ∃ x, toSignedMode P s k z = .ok x ∧ x.toNat % 256 ^ k = signedCode s k z := by
  obtain ⟨hr, hm⟩ := hz
  by_cases hmac : P.signedMacro = some s
  · exact toSignedMode_native hP hk hmac (hn hmac) (representable_inRange hr)
  · unfold toSignedMode
    rw [if_neg hmac]
    obtain ⟨x, hx, hv⟩ := toSignedModeImpl_ok P s hk (representable_inRange hr) (z := z) (by
      rcases hm with (h | h | h) | h
      · exact absurd h hmac
      · exact Or.inl h
      · exact Or.inr (Or.inr h)
      · exact Or.inr (Or.inl h))
    refine ⟨x, hx, ?_⟩
    rw [hv, if_neg]
    rintro ⟨hs, hmin⟩
    subst hs
    have := hr.1
    omega

theorem writeSint_ok {P : Platform} (hP : P.Valid) {e : Endian} {s : Mode} (hs : Supported P e s) {k : Nat}
    (hk : SizeOk k) {z : Int} (hz : Safe P s k z) {mem : Mem} {off : Nat} (h : off + k ≤ mem.length) :
    writeSint P e s k z mem off = .ok (splice mem off (wireBytes e k (signedCode s k z))) := by
  unfold writeSint
  have hk1 := hk.1
  have hk8 := hk.2
  rcases supported_cases k hs with ⟨hn, hns⟩ | ⟨hme, hms, hb⟩
  · obtain ⟨x, hx, hv⟩ := toSignedMode_ok hP hk hz hns
    rw [hx]
    show toEndianess P e mem off x k = _
    rw [toEndianess_ok hP (by omega) e mem off x k (by omega) hn h, ← wireBytes_mod, hv]
  · have he := hP.endian e hme
    have htc := hP.signed s hms
    subst htc
    have hlt : signedCode .twosComplement k z < 256 ^ k := signedCode_lt hk hz.1
    unfold toSignedMode toEndianess
    simp only [if_pos hms, if_pos hme]
    rw [ofInt_small_toNat hk hz.1, objBytes_eq P.host k]
    rw [Mem.wrN_ok (by simp [junkBytes_length]; omega)]
    show (do
      let bs ← Mem.rdN (objBytes P.host (64 / 8) (BitVec.ofNat 64 (ofObjBytes P.host
        (splice (P.junkBytes 8) 0 (wireBytes P.host k (signedCode .twosComplement k z))))).toNat) 0 k
      Mem.wrN mem off bs) = _
    generalize hobj : splice (P.junkBytes 8) 0 (wireBytes P.host k (signedCode .twosComplement k z)) = obj
    have hlen : obj.length = 8 := by
      rw [← hobj, splice_length (by simp [junkBytes_length]; omega), junkBytes_length]
    have hback : objBytes P.host (64 / 8) (BitVec.ofNat 64 (ofObjBytes P.host obj)).toNat = obj := by
      rw [BitVec.toNat_ofNat, ofObjBytes_eq, objBytes_eq]
      have hlt := wireValue_lt P.host obj
      rw [hlen] at hlt
      rw [Nat.mod_eq_of_lt (by rw [pow256] at hlt; exact hlt)]
      have := wireBytes_wireValue P.host obj
      rw [hlen] at this
      exact this
    rw [hback, Mem.rdN_ok (by omega)]
    show Mem.wrN mem off (slice obj 0 k) = _
    have hsl : slice obj 0 k = wireBytes e k (signedCode .twosComplement k z) := by
      rw [← hobj, he]
      have := slice_splice_same (m := P.junkBytes 8) (off := 0)
        (bs := wireBytes P.host k (signedCode .twosComplement k z)) (by simp [junkBytes_length]; omega)
      simpa using this
    rw [hsl, Mem.wrN_ok (by simpa using h)]

theorem readSint_spec {P : Platform} (hP : P.Valid) {e : Endian} {s : Mode} (hs : Supported P e s) {k : Nat}
    (hk : SizeOk k) {mem : Mem} {off : Nat} (h : off + k ≤ mem.length) :
    readSint P e s k mem off =
      if P.signedMacro ≠ some s ∧ s = .twosComplement ∧ wireValue e (slice mem off k) = 2 ^ (8 * k - 1) ∧
          P.intBytes ≤ k then
        .error .signedOverflow
      else .ok (signedValue s k (wireValue e (slice mem off k))) := by
  unfold readSint
  have hk1 := hk.1
  have hk8 := hk.2
  have hlt := wireValue_lt e (slice mem off k)
  rw [slice_length h] at hlt
  rcases supported_cases k hs with ⟨hn, hns⟩ | ⟨hme, hms, hb⟩
  · rw [fromEndianess_ok hP 64 e mem off k (by omega) hn h]
    show fromSignedMode P s k _ = _
    rw [fromSignedMode_spec hP s hk hlt hns]
  · rw [if_neg (fun hh => hh.1 hms)]
    have he := hP.endian e hme
    have htc := hP.signed s hms
    subst htc
    unfold fromEndianess fromSignedMode
    simp only [if_pos hme, if_pos hms]
    rw [Mem.rdN_ok h, objBytes_eq P.host (64 / 8) 0]
    show (do
      let y ← (do
        let obj ← Mem.wrN (wireBytes P.host (64 / 8) 0) 0 (slice mem off k)
        Except.ok (BitVec.ofNat 64 (ofObjBytes P.host obj)))
      let bs ← Mem.rdN (objBytes P.host 8 y.toNat) 0 k
      Except.ok (toSigned k (ofObjBytes P.host bs))) = _
    have hsl := slice_length h
    rw [Mem.wrN_ok (by simp [hsl]; omega)]
    show (do
      let bs ← Mem.rdN (objBytes P.host 8 (BitVec.ofNat 64 (ofObjBytes P.host
        (splice (wireBytes P.host (64 / 8) 0) 0 (slice mem off k)))).toNat) 0 k
      Except.ok (toSigned k (ofObjBytes P.host bs))) = _
    generalize hobj : splice (wireBytes P.host (64 / 8) 0) 0 (slice mem off k) = obj
    have hlen : obj.length = 8 := by
      rw [← hobj, splice_length (by simp [hsl]; omega)]; simp
    have hback : objBytes P.host 8 (BitVec.ofNat 64 (ofObjBytes P.host obj)).toNat = obj := by
      rw [BitVec.toNat_ofNat, ofObjBytes_eq, objBytes_eq]
      have hlt := wireValue_lt P.host obj
      rw [hlen] at hlt
      rw [Nat.mod_eq_of_lt (by rw [pow256] at hlt; exact hlt)]
      have := wireBytes_wireValue P.host obj
      rw [hlen] at this
      exact this
    rw [hback, Mem.rdN_ok (by omega)]
    show Except.ok (toSigned k (ofObjBytes P.host (slice obj 0 k))) = _
    have hsl' : slice obj 0 k = slice mem off k := by
      rw [← hobj]
      have := slice_splice_same (m := wireBytes P.host (64 / 8) 0) (off := 0) (bs := slice mem off k)
        (by simp [hsl]; omega)
      rw [hsl] at this
      exact this
    rw [hsl', ofObjBytes_eq, ← he]
    congr 1
    have huniq := @toSigned_unique k hk
    have hself := @toSigned_of_inRange k hk
    obtain ⟨H, B, hH, hB, e1, e2, e3, e4, e5, e6⟩ := pows hk
    unfold InRange at huniq hself
    rw [e3] at huniq hself
    rw [e4] at huniq
    rw [e5] at hlt
    simp only [signedValue, e1, e4]
    split
    · rw [hself (by omega)]
    · rw [huniq (y := (wireValue e (slice mem off k) : Int) - 2 * H) (q := 1) (by omega) (by omega)]

/-- Reading back the code of a safe value. -/
theorem readSint_ok {P : Platform} (hP : P.Valid) {e : Endian} {s : Mode} (hs : Supported P e s) {k : Nat}
    (hk : SizeOk k) {z : Int} (hz : Safe P s k z) {mem : Mem} {off : Nat} (h : off + k ≤ mem.length)
    (hm : slice mem off k = wireBytes e k (signedCode s k z)) : readSint P e s k mem off = .ok z := by
  obtain ⟨hr, hmin⟩ := hz
  have hlt := signedCode_lt hk hr
  rw [readSint_spec hP hs hk h, hm, wireValue_wireBytes hlt, signedValue_signedCode hk hr, if_neg]
  rintro ⟨h1, h2, h3, h4⟩
  subst h2
  have hv := signedValue_signedCode hk hr
  rw [h3] at hv
  rcases hmin with (h | h | h) | h
  · exact h1 h
  · cases h
  · omega
  · apply h
    rw [← hv]
    obtain ⟨H, B, hH, hB, e1, e2, e3, e4, e5, e6⟩ := pows hk
    simp only [signedValue, e1, e3, e4]
    rw [if_neg (by omega)]
    omega

end Upd
